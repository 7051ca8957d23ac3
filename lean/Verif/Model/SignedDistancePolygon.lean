import Verif.Np.Pt

/-! # `signed_distance_polygon.py`, for one query point -/

set_option autoImplicit false
namespace Gpy

noncomputable section

/-- `np.clip(x,0.0,1.0)` -/
def clip01 (x : ℝ) : ℝ := min (max x 0) 1

open Classical in
/-- One pass of the loop, `signed_distance_polygon.py:46-59`: `vi = V[i,:]`, `vj = V[j,:]`, state `(d,s)`. -/
def sdpStep (p : Pt 2) (st : ℝ × ℝ) (vivj : Pt 2 × Pt 2) : ℝ × ℝ :=
  let vi := vivj.1
  let vj := vivj.2
  let e : Pt 2 := vj - vi
  if e 0 * e 0 + e 1 * e 1 = 0 then st                                      -- lines 48-49
  else
    let w : Pt 2 := p - vi
    let t := clip01 ((w 0 * e 0 + w 1 * e 1) / (e 0 ^ 2 + e 1 ^ 2))         -- lines 51-53
    let b : Pt 2 := w - t • e
    let d := min st.1 (b 0 * b 0 + b 1 * b 1)                               -- line 54
    let c1 : Prop := vi 1 ≤ p 1                                             -- line 55
    let c2 : Prop := p 1 ≤ vj 1
    let c3 : Prop := e 1 * w 0 < e 0 * w 1
    let change : Prop := (c1 ∧ c2 ∧ c3) ∨ (¬ c1 ∧ ¬ c2 ∧ ¬ c3)              -- lines 56-58
    (d, (if change then -1 else 1) * st.2)                                  -- line 59

/-- The pairs `(V[i,:],V[j,:])` in the order of the loop, `signed_distance_polygon.py:41-45`. -/
def sdpPairs (V : List (Pt 2)) : List (Pt 2 × Pt 2) :=
  (List.range V.length).map (fun i => (V.getD i 0, V.getD (if i = 0 then V.length - 1 else i - 1) 0))

/-- `signed_distance_polygon(P,V)` for one row `p` of `P`, `signed_distance_polygon.py:37-60`; `none`: `V[0,:]` raises `IndexError`. -/
def signedDistancePolygon (p : Pt 2) (V : List (Pt 2)) : Option ℝ := do
  let v0 ← V[0]?
  let d0 := (p 0 - v0 0) * (p 0 - v0 0) + (p 1 - v0 1) * (p 1 - v0 1)      -- line 39
  let r := (sdpPairs V).foldl (sdpStep p) (d0, 1)
  some (r.2 * Real.sqrt r.1)

end
end Gpy
