import Mathlib.Algebra.Polynomial.Derivative
import Mathlib.Algebra.Polynomial.Degree.Defs
import Mathlib.Data.Real.Basic

/-! The cubic interpolating spline with the not-a-knot condition at equally spaced nodes of `[0,1]`
(what `scipy.interpolate.interp1d(np.linspace(0,1,K), y, kind='cubic')` documents). -/

set_option autoImplicit false
namespace Gpy

open Polynomial

/-- the `i`-th of `K` equally spaced nodes of `[0,1]` -/
noncomputable def splineNode (K i : ℕ) : ℝ := (i : ℝ) / ((K : ℝ) - 1)

/-- `s` is the not-a-knot cubic spline through the values `y 0, …, y (K-1)`: on every interval a cubic polynomial, twice continuously
differentiable at the inner nodes, the same polynomial on the first two and on the last two intervals. -/
def NotAKnot (K : ℕ) (y : ℕ → ℝ) (s : ℝ → ℝ) : Prop :=
  ∃ p : ℕ → ℝ[X],
    (∀ i, i + 1 < K → (p i).natDegree ≤ 3) ∧
    (∀ i, i + 1 < K → ∀ x, splineNode K i ≤ x → x ≤ splineNode K (i + 1) → s x = (p i).eval x) ∧
    (∀ i, i < K → s (splineNode K i) = y i) ∧
    (∀ i, i + 2 < K → (derivative (p i)).eval (splineNode K (i + 1)) = (derivative (p (i + 1))).eval (splineNode K (i + 1))) ∧
    (∀ i, i + 2 < K → (derivative (derivative (p i))).eval (splineNode K (i + 1)) = (derivative (derivative (p (i + 1)))).eval (splineNode K (i + 1))) ∧
    p 0 = p 1 ∧ p (K - 3) = p (K - 2)

end Gpy
