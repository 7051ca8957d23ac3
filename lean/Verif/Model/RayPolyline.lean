import Verif.Model.Winding

/-! # `ray_polyline_intersect.py` -/

set_option autoImplicit false
namespace Gpy

noncomputable section

/-- The variables `x`, `n`, `ind`, `distance_to_hit` of the loop.  `x = none`: the initial `[inf,inf]`. -/
structure RpState where
  x : Option (Pt 2)
  n : Pt 2
  ind : Int
  dist : ℝ

/-- The edge normal, `ray_polyline_intersect.py:91-93, 98-100, 109-111`. -/
def rpNormal (a0 a1 : Pt 2) : Pt 2 :=
  let n : Pt 2 := ![-(a1 1 - a0 1), a1 0 - a0 0]
  (1 / pnorm n) • n

open Classical in
/-- One pass of the loop, `ray_polyline_intersect.py:61-111`.  `solve(A,b)` of the 2 by 2 system is given by its unique solution (Cramer). -/
def rpStep (position direction : Pt 2) (st : RpState) (i : ℕ) (a0 a1 : Pt 2) : RpState :=
  let det := direction 0 * (a1 1 - a0 1) - direction 1 * (a1 0 - a0 0)                          -- line 64
  if |det| < 1e-8 then
    let eq0 := direction 1 * (a0 0 - position 0) - direction 0 * (a0 1 - position 1)            -- line 68
    if |eq0| < 1e-8 then
      let sign0 := pdot (a0 - position) direction
      let sign1 := pdot (a1 - position) direction
      let t0 := pnorm (a0 - position) / pnorm direction                                         -- line 74
      let t1 := pnorm (a0 - position) / pnorm direction                                         -- line 75
      let hit : Option Bool := if 0 < sign0 ∧ 0 < sign1 then (if t0 < t1 then some false else some true)
        else if 0 < sign0 then some false else if 0 < sign1 then some true else none            -- lines 76-85
      match hit with
      | some false => ⟨some (position + t0 • direction), rpNormal a0 a1, (i : Int), t0⟩          -- lines 87-93
      | some true => ⟨some (position + t1 • direction), rpNormal a0 a1, (i : Int), t1⟩           -- lines 94-100
      | none => st
    else st
  else
    let b : Pt 2 := a1 - position                                                               -- lines 102-104
    let t0 := (b 0 * (a1 1 - a0 1) - (a1 0 - a0 0) * b 1) / det
    let t1 := (direction 0 * b 1 - direction 1 * b 0) / det
    if 0 < t1 ∧ t1 < 1 ∧ 0 < t0 ∧ t0 < st.dist then
      ⟨some (position + t0 • direction), rpNormal a0 a1, (i : Int), t0⟩                          -- lines 105-111
    else st

/-- the loop over the rows of `EC`, with their numbers -/
def rpLoop (position direction : Pt 2) : List (Pt 2 × Pt 2) → ℕ → RpState → RpState
  | [], _, st => st
  | e :: es, i, st => rpLoop position direction es (i + 1) (rpStep position direction st i e.1 e.2)

/-- `ray_polyline_intersect(position,direction,polyline_vertices,max_distance,EC)`, `ray_polyline_intersect.py:53-112`; `EC = none` is the
    default; `none`: an index out of range. -/
def rayPolylineIntersect (position direction : Pt 2) (V : List (Pt 2)) (maxDistance : ℝ) (EC : Option (List (List ℕ))) :
    Option (Option (Pt 2) × Pt 2 × Int) := do
  let EC := EC.getD (edgeIndices V.length true)
  let es ← EC.mapM (wnEnds V)
  let st := rpLoop position direction es 0 ⟨none, ![0, 0], -1, maxDistance⟩
  some (st.x, st.n, st.ind)

end
end Gpy
