import Verif.Model.FineTune
import Verif.Spec.Feasible

/-!
# Fine tuning: what is asked of the things from outside
-/

set_option autoImplicit false
namespace Gpy.Arcs

variable {d : ℕ}

/-- the batch is a nonempty list of samples, the samples are shuffled, the threads get consecutive ranges of the first loop (`igl::parallel_for`), and the second loop runs every
iteration once -/
structure IterOk (n : ℕ) (e : IterEnv d) : Prop where
  batch0 : e.batch ≠ []
  batch : ∀ j ∈ e.batch, j < n
  sh : e.sh.Perm (List.range n)
  slices : e.slices.flatten = List.range n
  sched : ∀ m, ((e.sched m).map Prod.fst).Perm (List.range m)

/-- each row of a cloud belongs to a sample below the clamp and is at the distance of that sample -/
def OnSpheres (n : ℕ) (U : ℕ → Pt d) (S : ℕ → ℝ) (clamp : ℝ) (C : List (Row d)) : Prop :=
  ∀ r ∈ C, r.index < n ∧ |S r.index| < clamp ∧ pnorm (r.point - U r.index) = |S r.index|

/-- the same with “at most the distance” -/
def InSpheres (n : ℕ) (U : ℕ → Pt d) (S : ℕ → ℝ) (clamp : ℝ) (C : List (Row d)) : Prop :=
  ∀ r ∈ C, r.index < n ∧ |S r.index| < clamp ∧ pnorm (r.point - U r.index) ≤ |S r.index|

/-- no sphere has more than `maxP` points -/
def AtMost (maxP : Int) (C : List (Row d)) : Prop := ∀ i, ((C.map Row.index).count i : Int) ≤ maxP

/-- no point of the cloud is inside another sphere of the batch by more than `tol` -/
def OutsideBatch (U : ℕ → Pt d) (S : ℕ → ℝ) (batch : List ℕ) (tol : ℝ) (C : List (Row d)) : Prop :=
  ∀ r ∈ C, ∀ j ∈ batch, j ≠ r.index → |S j| - tol ≤ pnorm (r.point - U j)

/-- unit normals; a point at the distance `|s|` of its sample is the sample minus `s` times the normal -/
def GoodNormals (U : ℕ → Pt d) (S : ℕ → ℝ) (C : List (Row d)) : Prop :=
  ∀ r ∈ C, pnorm r.normal = 1 ∧ (pnorm (r.point - U r.index) = |S r.index| → eps < |S r.index| → r.point = U r.index - S r.index • r.normal)

end Gpy.Arcs
