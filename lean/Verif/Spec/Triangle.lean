import Verif.Model.HalfedgeEdgeMap
import Verif.Np.Vec3
import Mathlib.Data.Real.Basic

/-! Elementary triangle geometry used in the statements of properties. -/

namespace Gpy

/-- All corner indices are below `n`. -/
def InRange (F : List Tri) (n : ℕ) : Prop := ∀ t ∈ F, t.a < n ∧ t.b < n ∧ t.c < n

instance (F : List Tri) (n : ℕ) : Decidable (InRange F n) := by unfold InRange; infer_instance

/-- Heron's polynomial in the squared side lengths `x0,x1,x2` of a triangle: `16 * area²`. -/
def heron (r : Row3 ℝ) : ℝ :=
  2 * (r.x0 * r.x1 + r.x1 * r.x2 + r.x2 * r.x0) - (r.x0 ^ 2 + r.x1 ^ 2 + r.x2 ^ 2)

/-- Squared side lengths of a triangle of positive area. -/
def NonDeg (r : Row3 ℝ) : Prop := 0 ≤ r.x0 ∧ 0 ≤ r.x1 ∧ 0 ≤ r.x2 ∧ 0 < heron r

/-- One row of squared lengths per triangle, each of a triangle of positive area. -/
def LsqNonDeg (lsq : List (Row3 ℝ)) (F : List Tri) : Prop := lsq.length = F.length ∧ ∀ r ∈ lsq, NonDeg r

/-- The number of triangle corners that are vertex `i`. -/
def cornerCount (F : List Tri) (i : ℕ) : ℕ := (F.flatMap (fun t => [t.a, t.b, t.c])).count i

end Gpy
