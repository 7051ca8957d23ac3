import Verif.Model.SquaredDistance
import Mathlib.Analysis.SpecialFunctions.Complex.Arg

/-! # `winding_number.py` (two dimensions), `edge_indices.py`, `signed_distance.py` (two dimensions, without the C++ path) -/

set_option autoImplicit false
namespace Gpy

noncomputable section

/-- `np.arctan2(y,x)` (numpy's contract for inputs other than negative zero) -/
def npArctan2 (y x : ℝ) : ℝ := Complex.arg ⟨x, y⟩

/-- One entry of `S`, `winding_number.py:60-63`: query `o`, edge from `vs` to `vd`. -/
def wnAngle (o vs vd : Pt 2) : ℝ :=
  let o2vs : Pt 2 := (fun i => o i - vs i)
  let o2vd : Pt 2 := (fun i => o i - vd i)
  (-npArctan2 (o2vd 0 * o2vs 1 - o2vd 1 * o2vs 0) (o2vd 0 * o2vs 0 + o2vd 1 * o2vs 1))

/-- `V[F[:,0],:]`, `V[F[:,1],:]` for one row of `F`, `winding_number.py:56-57`; `none`: an index out of range, or a row with less than
    two entries. -/
def wnEnds (V : List (Pt 2)) : List ℕ → Option (Pt 2 × Pt 2)
  | i :: j :: _ => do
    let vs ← V[i]?
    let vd ← V[j]?
    some (vs, vd)
  | _ => none

/-- `winding_number(O,V,F)` for one query point in the plane, `winding_number.py:53-64`. -/
def windingNumber2 (o : Pt 2) (V : List (Pt 2)) (F : List (List ℕ)) : Option ℝ := do
  let E ← F.mapM (wnEnds V)
  some ((E.map (fun e => wnAngle o e.1 e.2)).sum / (2 * Real.pi))

/-- `np.sign` -/
def npSign (x : ℝ) : ℝ := if x < 0 then -1 else if x = 0 then 0 else 1

/-- `signed_distance(Q,V,F,use_cpp=False)` for one query point in the plane, given the box tree that
    `squared_distance(...,use_aabb=True)` builds; `signed_distance.py:76-86`. -/
def signedDistance2 (q : Pt 2) (V : List (Pt 2)) (F : List (List ℕ)) (T : List (AabbNode 2)) (fuel : ℕ) : Option (ℝ × Int × List ℝ) := do
  let s ← squaredDistanceAabb q V F T fuel
  let W ← windingNumber2 q V F
  match s.best with
  | ⊤ => none
  | (sqrD : ℝ) => some (npSign (-2 * W + 1) * Real.sqrt sqrD, s.elem, s.lmb)

end

/-- `edge_indices(n,closed)`, `edge_indices.py:40-45`, for `n > 0` (`np.linspace` raises for `n = 0`): two consecutive runs of indices, read column by column. -/
def edgeIndices (n : ℕ) (closed : Bool) : List (List ℕ) :=
  let first := if closed then List.range n else List.range (n - 1)
  let second := if closed then (List.range (n - 1)).map (· + 1) ++ [0] else (List.range (n - 1)).map (· + 1)
  (first.zip second).map (fun e => [e.1, e.2])

end Gpy
