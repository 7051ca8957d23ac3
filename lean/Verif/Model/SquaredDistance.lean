import Verif.Model.Aabb
import Verif.Np.Vec3

/-! `barycentric_coordinates.py`, `squared_distance_to_element.py`, `squared_distance.py`. -/

set_option autoImplicit false
namespace Gpy
open Np

noncomputable section

/-- `barycentric_coordinates.py:98-110`, points in space, one row.  numpy divides by `n2 = 0` (giving `nan`/`inf`) on a degenerate
triangle; here the quotient is then `0`, and the theorems exclude the case. -/
def barycentric3 (p v1 v2 v3 : V3 ℝ) : V3 ℝ :=
  let u := v2 - v1                                                    -- line 99
  let v := v3 - v1                                                    -- line 100
  let N := V3.cross u v                                               -- line 101
  let w := p - v1                                                     -- line 102
  let n2 := V3.normSq N                                               -- line 103
  let gamma := V3.dot (V3.cross u w) N / n2                           -- line 104
  let beta := V3.dot (V3.cross w v) N / n2                            -- line 105
  let alpha := 1 - beta - gamma                                       -- line 106
  ⟨alpha, beta, gamma⟩

/-- `doublearea.py:51-55` (`signed=True`, planar triangles): `r × s` with `r = V0-V2`, `s = V1-V2`. -/
def signedDoublearea2 (a b c : ℝ × ℝ) : ℝ := (a.1 - c.1) * (b.2 - c.2) - (a.2 - c.2) * (b.1 - c.1)

/-- `barycentric_coordinates.py:59-91`, points in the plane, one row. -/
def barycentric2 (p v1 v2 v3 : ℝ × ℝ) : V3 ℝ :=
  let a := signedDoublearea2 v1 v2 v3
  ⟨signedDoublearea2 p v2 v3 / a, signedDoublearea2 v1 p v3 / a, signedDoublearea2 v1 v2 p / a⟩

/-- The case distinction of `pointTriangleDistance` (`squared_distance_to_element.py:110-252`): the pair `(s,t)` and
`sqrdistance`. -/
def ptTriangle (a b c d e f : ℝ) : (ℝ × ℝ) × ℝ :=
  let det := a * c - b * b
  let s := b * e - c * d
  let t := b * d - a * e
  let edgeS0 : (ℝ × ℝ) × ℝ :=                                         -- lines 130-139 and 144-154
    if e ≥ 0 then ((0, 0), f)
    else if -e ≥ c then ((0, 1), c + 2 * e + f)
    else ((0, -e / c), e * (-e / c) + f)
  let val (s t : ℝ) : ℝ := s * (a * s + b * t + 2 * d) + t * (b * s + c * t + 2 * e) + f
  if s + t ≤ det then
    if s < 0 then
      if t < 0 then                                                   -- region 4
        if d < 0 then
          if -d ≥ a then ((1, 0), a + 2 * d + f)
          else ((-d / a, 0), d * (-d / a) + f)
        else edgeS0
      else edgeS0                                                     -- region 3
    else
      if t < 0 then                                                   -- region 5
        if d ≥ 0 then ((0, 0), f)
        else if -d ≥ a then ((1, 0), a + 2 * d + f)
        else ((-d / a, 0), d * (-d / a) + f)
      else                                                            -- region 0
        let invDet := 1 / det
        ((s * invDet, t * invDet), val (s * invDet) (t * invDet))
  else
    if s < 0 then                                                     -- region 2
      let tmp0 := b + d
      let tmp1 := c + e
      if tmp1 > tmp0 then
        let numer := tmp1 - tmp0
        let denom := a - 2 * b + c
        if numer ≥ denom then ((1, 0), a + 2 * d + f)
        else ((numer / denom, 1 - numer / denom), val (numer / denom) (1 - numer / denom))
      else if tmp1 ≤ 0 then ((0, 1), c + 2 * e + f)
      else if e ≥ 0 then ((0, 0), f)
      else ((0, -e / c), e * (-e / c) + f)
    else
      if t < 0 then                                                   -- region 6
        let tmp0 := b + e
        let tmp1 := a + d
        if tmp1 > tmp0 then
          let numer := tmp1 - tmp0
          let denom := a - 2 * b + c
          if numer ≥ denom then ((0, 1), c + 2 * e + f)
          else ((1 - numer / denom, numer / denom), val (1 - numer / denom) (numer / denom))
        else if tmp1 ≤ 0 then ((1, 0), a + 2 * d + f)
        else if d ≥ 0 then ((0, 0), f)
        else ((-d / a, 0), d * (-d / a) + f)
      else                                                            -- region 1
        let numer := c + e - b - d
        if numer ≤ 0 then ((0, 1), c + 2 * e + f)
        else
          let denom := a - 2 * b + c
          if numer ≥ denom then ((1, 0), a + 2 * d + f)
          else ((numer / denom, 1 - numer / denom), val (numer / denom) (1 - numer / denom))

variable {d : ℕ}

/-- `pointTriangleDistance`, `squared_distance_to_element.py:93-258`; returns `(sqrdistance, PP0)`.  numpy's divisions by zero on
degenerate triangles are `0` here; the theorems exclude the case. -/
def pointTriangleDistance (v0 v1 v2 p : Pt d) : ℝ × Pt d :=
  let E0 := v1 - v0                                                   -- line 97
  let E1 := v2 - v0                                                   -- line 99
  let D := v0 - p                                                     -- line 101
  let r := ptTriangle (pdot E0 E0) (pdot E0 E1) (pdot E1 E1) (pdot E0 D) (pdot E1 D) (pdot D D)
  (if r.2 < 0 then 0 else r.2, fun i => v0 i + r.1.1 * E0 i + r.1.2 * E1 i)       -- lines 254-258

/-- The segment case, `squared_distance_to_element.py:51-77`; returns `(sqrD, lmb)`.  Planar points are padded with a zero
coordinate (lines 52-54), which changes none of the sums; the padding is not modelled. -/
def pointSegmentDistance (start stop p : Pt d) : ℝ × List ℝ :=
  let lineVec := stop - start
  let pntVec := p - start
  let len := pnorm lineVec
  if len < 1e-10 then (psq (start - p), [1, 0])                       -- lines 61-65
  else
    let t := pdot (fun i => lineVec i / len) (fun i => pntVec i / len)        -- lines 67-69
    let t := if t < 0 then 0 else if t > 1 then 1 else t              -- lines 70-73
    (psq (fun i => t * lineVec i - pntVec i), [1 - t, t])             -- lines 74-77

/-- a row of a three-column array as a `V3` -/
def toV3 (h : d = 3) (x : Pt d) : V3 ℝ := ⟨x ⟨0, by omega⟩, x ⟨1, by omega⟩, x ⟨2, by omega⟩⟩

/-- `squared_distance_to_element(point,V,element)`, `squared_distance_to_element.py:43-89`.  `none` = `IndexError`, the failing
assertion of line 79, or the `UnboundLocalError` for other simplex sizes. -/
def squaredDistanceToElement (p : Pt d) (V : List (Pt d)) : List ℕ → Option (ℝ × List ℝ)
  | [i] => do
    let x ← V[i]?
    some (psq (x - p), [1])                                           -- lines 47-50
  | [i, j] => do
    let x ← V[i]?
    let y ← V[j]?
    some (pointSegmentDistance x y p)
  | [i, j, k] => do
    let x ← V[i]?
    let y ← V[j]?
    let z ← V[k]?
    if h : d = 3 then
      let r := pointTriangleDistance x y z p
      let b := barycentric3 (toV3 h r.2) (toV3 h x) (toV3 h y) (toV3 h z)     -- line 88
      some (r.1, [b.x, b.y, b.z])
    else none
  | _ => none

/-- The attributes of `closest_point_traversal` that influence the result (`squared_distance.py:9-18`); `np.inf` is `⊤`. -/
structure CpState where
  best : WithTop ℝ
  elem : Int
  lmb : List ℝ
  leftClosest : Bool

/-- `sdBox`, `squared_distance.py:20-25` (`maxval` starts at `-inf`, so after the loop it is the largest entry of `q`; here it
starts at the first entry). -/
def sdBox [NeZero d] (p C W : Pt d) : ℝ :=
  let q : Pt d := fun i => |p i - C i| - 0.5 * W i
  let maxval := (List.finRange d).foldl (fun acc i => max acc (q i)) (q 0)
  pnorm (fun i => max (q i) 0) + min maxval 0

/-- `np.sign(x)*(x**2.0)`, line 39. -/
def signedSq (x : ℝ) : ℝ := (if x < 0 then -1 else if x = 0 then 0 else 1) * x ^ 2

/-- `closest_point_traversal.traversal_function`, `squared_distance.py:26-53`. -/
def cpVisit [NeZero d] (p : Pt d) (V : List (Pt d)) (F : List (List ℕ)) (s : CpState) (n : AabbNode d) (isLeaf : Bool) :
    Option (Bool × CpState) :=
  if isLeaf then do
    let es ← npGet? F n.tri
    let r ← squaredDistanceToElement p V es
    if (r.1 : WithTop ℝ) < s.best then some (true, { s with best := r.1, lmb := r.2, elem := n.tri })     -- lines 41-46, 52
    else some (false, s)
  else do
    let sqrD := signedSq (sdBox p n.C n.W)                            -- lines 38-39
    if (sqrD : WithTop ℝ) < s.best then do
      let c ← npGet? (List.ofFn n.C) n.split
      let x ← npGet? (List.ofFn p) n.split
      some (true, { s with leftClosest := x - c < 0 })                -- lines 49-50
    else some (false, s)

/-- `closest_point_traversal.add_to_queue`, `squared_distance.py:54-63`. -/
def cpAdd (s : CpState) (queue : List Int) (n : AabbNode d) : List Int :=
  if s.leftClosest then n.ch0 :: n.ch1 :: queue else n.ch1 :: n.ch0 :: queue

/-- One query of `squared_distance` with `use_aabb=True` on the tree `T` (`squared_distance.py:189-201`). -/
def squaredDistanceAabb [NeZero d] (p : Pt d) (V : List (Pt d)) (F : List (List ℕ)) (T : List (AabbNode d)) (fuel : ℕ) :
    Option CpState :=
  traverse T (cpVisit p V F) cpAdd fuel [0] ⟨⊤, -1, [], false⟩

/-- One query of `squared_distance` with `use_aabb=False` (`squared_distance.py:205-217`): `(min_sqrd_dist, ind, best_lmb)`. -/
def squaredDistanceBrute (p : Pt d) (V : List (Pt d)) (F : List (List ℕ)) : Option (WithTop ℝ × Int × List ℝ) :=
  F.zipIdx.foldlM (fun (acc : WithTop ℝ × Int × List ℝ) x => do
    let r ← squaredDistanceToElement p V x.1
    some (if (r.1 : WithTop ℝ) < acc.1 then (r.1, x.2, r.2) else acc)) (⊤, -1, [])

end
end Gpy
