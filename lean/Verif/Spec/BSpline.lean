import Mathlib.MeasureTheory.Integral.IntervalIntegral.Basic

/-! Box splines: the box function convolved with itself. -/

set_option autoImplicit false
namespace Gpy
open MeasureTheory

/-- the box function: one on an interval of length one around zero -/
noncomputable def box (x : ℝ) : ℝ := if |x| ≤ 1 / 2 then 1 else 0

/-- the box function convolved `n` times with the box function -/
noncomputable def boxSpline : ℕ → ℝ → ℝ
  | 0 => box
  | n + 1 => fun x => ∫ t, box (x - t) * boxSpline n t

end Gpy
