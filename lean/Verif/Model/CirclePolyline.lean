import Verif.Model.Generators

/-! `regular_circle_polyline.py`. -/

set_option autoImplicit false
namespace Gpy

noncomputable section

/-- `regular_circle_polyline.py:33-45`: vertices and edges; `none` = failed assertion. -/
def regularCirclePolyline (n : ℕ) : Option (List (ℝ × ℝ) × List (ℕ × ℕ)) :=
  if 3 ≤ n then
    let φ := (List.range n).map (fun i => linspace 0 (2 * Real.pi) n i)             -- line 35
    let x := φ.map Real.cos                                                         -- line 36
    let y := φ.map Real.sin                                                         -- line 37
    let V := x.zip y                                                                -- line 38
    let E := (List.range n).zip ((List.range (n - 1)).map (fun k => 1 + k) ++ [0])  -- lines 40-43
    some (V, E)
  else none

end
end Gpy
