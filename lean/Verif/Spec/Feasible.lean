import Verif.Model.Feasible

/-!
# What a locally feasible point is (no reference to how it is computed)
-/

set_option autoImplicit false
namespace Gpy.Arcs

variable {d : ℕ}

/-- what the things from outside do: `rng.choice` draws from `0, …, n-1`, shuffling and sorting reorder, the schedule runs every iteration once -/
structure EnvOk (env : Env d) : Prop where
  choice : ∀ n k : ℕ, 0 < n → (env.choice n k).length = k ∧ ∀ j ∈ env.choice n k, j < n
  shuffle : ∀ l, (env.shuffle l).Perm l
  shuffle' : ∀ l, (env.shuffle' l).Perm l
  sort : ∀ l, (env.sort l).Perm l
  sched : ∀ n, ((env.sched n).map Prod.fst).Perm (List.range n)

/-- `x` is at the distance `|S i|` from sample `i`, and inside none of the other spheres `j` of a list by more than `tol` -/
def Feasible (U : ℕ → Pt d) (S : ℕ → ℝ) (batch : List ℕ) (tol : ℝ) (i : ℕ) (x : Pt d) : Prop :=
  pnorm (x - U i) = |S i| ∧ ∀ j ∈ batch, j ≠ i → |S j| - tol ≤ pnorm (x - U j)

/-- the point of the sphere of sample `i` towards `q` -/
noncomputable def projection (U : ℕ → Pt d) (S : ℕ → ℝ) (i : ℕ) (q : Pt d) : Pt d := fun j => U i j + |S i| * ((q j - U i j) / pnorm (q - U i))

end Gpy.Arcs
