import Verif.Model.ReachArcs
import Verif.Spec.Feasible
import Verif.Spec.FineTune
import Verif.Spec.Raster

/-!
# `reach_for_the_arcs`: what is asked of the things from outside
-/

set_option autoImplicit false
namespace Gpy.Arcs

variable {d : ℕ}

/-- random numbers, sorting and threads do what they should; nothing is asked of `point_cloud_to_mesh` -/
structure ArcEnvOk (env : ArcEnv d) : Prop where
  rPos : Raster.EnvOk env.rPos
  rNeg : Raster.EnvOk env.rNeg
  fPos : EnvOk env.fPos
  fNeg : EnvOk env.fNeg
  choice : ∀ it n k : ℕ, 0 < n → (env.choice it n k).length = k ∧ ∀ j ∈ env.choice it n k, j < n
  shuffle : ∀ it l, (env.shuffle it l).Perm l
  sh : ∀ it l, (env.sh it l).Perm l
  slices : ∀ it n, (env.slices it n).flatten = List.range n
  sched : ∀ it m, ((env.sched it m).map Prod.fst).Perm (List.range m)
  sort : ∀ l, (env.sort l).Perm l
  sortC : ∀ l, (env.sortC l).Perm l

/-- the longest side of the bounding box of the samples is `s` -/
def LongestSide (n : ℕ) (U : ℕ → Pt d) (s : ℝ) : Prop :=
  (∀ i < n, ∀ i' < n, ∀ j, U i j - U i' j ≤ s) ∧ ∃ i < n, ∃ i' < n, ∃ j, U i j - U i' j = s

end Gpy.Arcs
