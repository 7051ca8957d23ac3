import Verif.Model.SquaredDistance

/-! `edge_edge_distance.py`, `triangle_triangle_distance.py`. -/

set_option autoImplicit false
namespace Gpy
open Np

noncomputable section
variable {d : ℕ}

/-- The repeated block `if t<=0 or isnan(t): X = P  elif t>=1: X = P + A  else: X = P + t*A` of `edge_edge_distance.py:124-129`,
`155-160`, `186-192`.  (`0/0` is `nan` in numpy and `0` here; both take the first branch.) -/
def segPoint (t : ℝ) (P A : Pt d) : Pt d :=
  if t ≤ 0 then P else if t ≥ 1 then P + A else fun i => P i + t * A i

/-- `edge_edge_distance(P1,Q1,P2,Q2)`, `edge_edge_distance.py:45-197`: `(dist, R1, R2)`. -/
def edgeEdgeDistance (P1 Q1 P2 Q2 : Pt d) : ℝ × Pt d × Pt d :=
  let P := P1
  let Q := P2
  let A := Q1 - P1                                                    -- line 47
  let B := Q2 - P2                                                    -- line 48
  let T := Q - P                                                      -- line 52
  let AA := pdot A A
  let BB := pdot B B
  let AB := pdot A B
  let AT := pdot A T
  let BT := pdot B T
  let denom := AA * BB - AB * AB                                      -- line 85
  let t := if denom = 0 then 0 else (AT * BB - BT * AB) / denom       -- lines 86-89
  let t := if t < 0 then 0 else if t > 1 then 1 else t                -- lines 91-94
  let u := if BB = 0 then 0 else (t * AB - BT) / BB                   -- lines 96-99
  let XY : Pt d × Pt d :=
    if u ≤ 0 then (segPoint (AT / AA) P A, Q)                         -- lines 121-129
    else if u ≥ 1 then (segPoint ((AT + AB) / AA) P A, Q + B)         -- lines 152-160
    else (segPoint t P A, fun i => Q i + u * B i)                     -- lines 184-192
  (pnorm (XY.1 - XY.2), XY.1, XY.2)                                   -- lines 194-197

/-- `S[i]`, `T[j]` and `(i+2)%3` for the lists of three corners. -/
def corner {α : Type} (S : α × α × α) (i : Fin 3) : α :=
  match i with
  | 0 => S.1
  | 1 => S.2.1
  | 2 => S.2.2

/-- the vectors `Sv`, `Tv` (`triangle_triangle_distance.py:49-50`) -/
def sideVec (S : Pt 3 × Pt 3 × Pt 3) (i : Fin 3) : Pt 3 := corner S (i + 1) - corner S i

/-- `np.cross` -/
def pcross (x y : Pt 3) : Pt 3 := fun i => match i with
  | 0 => x 1 * y 2 - x 2 * y 1
  | 1 => x 2 * y 0 - x 0 * y 2
  | 2 => x 0 * y 1 - x 1 * y 0

/-- Result of one round of the double loop: either the function has returned, or `(mindd, shown_disjoint)`. -/
abbrev TtLoop := ℝ ⊕ (ℝ × Bool)

/-- One round of the double loop, `triangle_triangle_distance.py:62-89` (`minP`, `minQ` are never read). -/
def ttRound (S T : Pt 3 × Pt 3 × Pt 3) (st : TtLoop) (ij : Fin 3 × Fin 3) : TtLoop :=
  match st with
  | .inl r => .inl r
  | .inr (mindd, shown) =>
    let i := ij.1
    let j := ij.2
    let PQ := edgeEdgeDistance (corner S i) (corner S i + sideVec S i) (corner T j) (corner T j + sideVec T j)
    let P := PQ.2.1
    let Q := PQ.2.2
    let V := Q - P                                                    -- lines 67-68
    let dd := pdot V V                                                -- line 69
    if dd ≤ mindd then
      let a := pdot (corner S (i + 2) - P) V                          -- lines 75-76
      let b := pdot (corner T (j + 2) - Q) V                          -- lines 77-78
      if a ≤ 0 ∧ b ≥ 0 then .inl (Real.sqrt dd)                       -- lines 79-82
      else
        let p := pdot V V                                             -- line 83
        let a := if a < 0 then 0 else a                               -- lines 84-85
        let b := if b > 0 then 0 else b                               -- lines 86-87
        .inr (dd, if p - a + b > 0 then true else shown)              -- lines 74, 88-89
    else .inr (mindd, shown)

/-- The order of the double loop (lines 56-57). -/
def ttPairs : List (Fin 3 × Fin 3) :=
  [(0, 0), (0, 1), (0, 2), (1, 0), (1, 1), (1, 2), (2, 0), (2, 1), (2, 2)]

/-- Lines 99-114 (and 142-157): the index of the corner nearest to the plane if all three are strictly on one side. -/
def ttPoint (Tp : Fin 3 → ℝ) : Option (Fin 3) :=
  if Tp 0 > 0 ∧ Tp 1 > 0 ∧ Tp 2 > 0 then
    let point : Fin 3 := if Tp 0 < Tp 1 then 0 else 1
    some (if Tp 2 < Tp point then 2 else point)
  else if Tp 0 < 0 ∧ Tp 1 < 0 ∧ Tp 2 < 0 then
    let point : Fin 3 := if Tp 0 > Tp 1 then 0 else 1
    some (if Tp 2 > Tp point then 2 else point)
  else none

/-- Lines 93-134 for the face of `S` and the corners of `T` (lines 136-173 are the same with the roles exchanged): either the
distance that is returned, or whether `shown_disjoint` has been set. -/
def ttFace (S T : Pt 3 × Pt 3 × Pt 3) : ℝ ⊕ Bool :=
  let Sn := pcross (sideVec S 0) (sideVec S 1)                        -- line 93
  let Snl := pdot Sn Sn                                               -- line 95
  if Snl > 1e-15 then                                                 -- line 97
    let Tp : Fin 3 → ℝ := fun k => pdot Sn (corner S 0 - corner T k)  -- line 99
    match ttPoint Tp with
    | none => .inr false
    | some point =>
      if pdot (corner T point - corner S 0) (pcross Sn (sideVec S 0)) > 0 ∧                -- lines 117-119
          pdot (corner T point - corner S 1) (pcross Sn (sideVec S 1)) > 0 ∧               -- lines 120-122
          pdot (corner T point - corner S 2) (pcross Sn (sideVec S 2)) > 0 then            -- lines 123-125
        let P : Pt 3 := fun i => corner T point i + Sn i * Tp point / Snl                  -- line 130
        let Q := corner T point                                                           -- line 131
        .inl (Real.sqrt (pdot (P - Q) (P - Q)))                                           -- line 134
      else .inr true                                                  -- line 116
  else .inr false

/-- `triangle_triangle_distance(s0,s1,s2,t0,t1,t2)`, `triangle_triangle_distance.py:46-181`. -/
def triangleTriangleDistance (S T : Pt 3 × Pt 3 × Pt 3) : ℝ :=
  match ttPairs.foldl (ttRound S T) (.inr (psq (corner S 0 - corner T 0) + 10, false)) with      -- lines 54-89
  | .inl r => r
  | .inr (mindd, shown) =>
    match ttFace S T with                                             -- lines 93-134
    | .inl r => r
    | .inr sh1 =>
      match ttFace T S with                                           -- lines 136-173
      | .inl r => r
      | .inr sh2 => if shown || sh1 || sh2 then Real.sqrt mindd else 0      -- lines 175-181

end
end Gpy
