import Verif.Np.Pt
import Mathlib.Algebra.Order.Floor.Ring
import Mathlib.Data.Real.Archimedean

/-! `catmull_rom_spline`, `linear_blend_skinning`. -/

set_option autoImplicit false
namespace Gpy
open Np

noncomputable section

/-- `np.linspace(0,1,n)`. -/
def linspace01 (n : ℕ) : List ℝ := (List.range n).map (fun k : ℕ => (k : ℝ) / ((n : ℝ) - 1))

/-- One query time of `catmull_rom_spline.py:35-59` (the code treats all times at once).  `none` = `IndexError`. -/
def catmullRomAt {d : ℕ} (P : List (Pt d)) (t : ℝ) : Option (Pt d) := do
  let n : ℤ := P.length                                                          -- line 35
  let times := linspace01 P.length                                               -- line 39
  let tau ← times[1]?                                                            -- line 40
  let b0 : ℤ := ⌊t * ((n : ℝ) - 1)⌋                                              -- line 42
  let b : ℤ := if t = 1 then b0 - 1 else b0                                      -- line 43
  let tb ← npGet? times b
  let tt := (t - tb) / tau                                                       -- line 45
  let X0 ← npGet? P b                                                            -- line 47
  let X1 ← npGet? P (b + 1)                                                      -- line 48
  let p1 ← npGet? P (min (b + 1) (n - 1))
  let p0 ← npGet? P (max (b - 1) 0)
  let tangent0 : Pt d := (1 / 2 : ℝ) • (p1 - p0)                                 -- line 50
  let tangent0 := if b = 0 then (2 : ℝ) • tangent0 else tangent0                 -- line 51
  let q1 ← npGet? P (min (b + 2) (n - 1))
  let q0 ← npGet? P (max b 0)
  let tangent1 : Pt d := (1 / 2 : ℝ) • (q1 - q0)                                 -- line 52
  let tangent1 := if b = n - 2 then (2 : ℝ) • tangent1 else tangent1             -- line 53
  some ((2 * tt ^ 3 - 3 * tt ^ 2 + 1) • X0 + (tt ^ 3 - 2 * tt ^ 2 + tt) • tangent0
    + (-2 * tt ^ 3 + 3 * tt ^ 2) • X1 + (tt ^ 3 - tt ^ 2) • tangent1)            -- line 57

/-- `catmull_rom_spline.py:35-59`. -/
def catmullRomSpline {d : ℕ} (T : List ℝ) (P : List (Pt d)) : Option (List (Pt d)) := T.mapM (catmullRomAt P)

end
end Gpy
