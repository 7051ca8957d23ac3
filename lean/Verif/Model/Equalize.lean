import Verif.Model.SplitEdges
import Verif.Spec.EdgeMap

/-! The C++ remesher: `src/cpp/remesher/equalize_valences.cpp` (the pass that flips edges).

`igl::unique_edge_map` (line 42), `igl::adjacency_list` (line 49) and `igl::flip_edge` (line 167) are library code.  The model starts with the arrays that
`unique_edge_map` returns, `adjList` is the documented result of `adjacency_list`, and `flip_edge` is a parameter, specified by `FlipSpec` in `Spec/Flip.lean`.
Out-of-range accesses and false asserts are `none`, as in `Model/SplitEdges.lean`. -/

set_option autoImplicit false
namespace Gpy

/-- `igl::adjacency_list(E,A)`, line 49: for every vertex the vertices that it shares a row of `E` with. -/
def adjList (E : IMat) : Arr (List ℕ) where
  size := ((List.range E.rows).map (fun i => max (E.val i 0) (E.val i 1))).foldl max 0 + 1
  val v := (((List.range E.rows).filter (fun i => E.val i 0 = v)).map (fun i => E.val i 1) ++
    ((List.range E.rows).filter (fun i => E.val i 1 = v)).map (fun i => E.val i 0)).dedup

/-- `equalize_valences.cpp:52-58`: the number of triangles at every vertex. -/
def valencesInit (n : ℕ) (F : IMat) : Option (Arr ℤ) :=
  (List.range F.rows).foldlM (fun a j => do
    let v0 ← F.rd j 0
    let x ← a.rd v0
    let a ← a.wr v0 (x + 1)
    let v1 ← F.rd j 1
    let x ← a.rd v1
    let a ← a.wr v1 (x + 1)
    let v2 ← F.rd j 2
    let x ← a.rd v2
    a.wr v2 (x + 1)) ⟨n, fun _ => 0⟩

/-- `equalize_valences.cpp:62-68`: the flags of the fixed vertices (`std::vector<bool>::resize` fills with `false`). -/
def featureFlags (n : ℕ) (feature : List ℕ) : Option (Arr Bool) :=
  feature.foldlM (fun a v => a.wr v true) ⟨n, fun _ => false⟩

/-- The variables of the pass. -/
structure EqState where
  S : SplitState
  val : Arr ℤ
  A : Arr (List ℕ)

noncomputable section

/-- `(a-b).norm()` -/
def dist3 (a b : V3 ℝ) : ℝ := Real.sqrt (V3.normSq (a - b))

/-- Heron's formula, `equalize_valences.cpp:108-118`. -/
def heronSq (a b c : ℝ) : ℝ := (a + b + c) / 2 * ((a + b + c) / 2 - a) * ((a + b + c) / 2 - b) * ((a + b + c) / 2 - c)

/-- Eigen's `normalize()`, which leaves the zero vector alone. -/
def eigenNormalize (v : V3 ℝ) : V3 ℝ := if V3.normSq v > 0 then (1 / Real.sqrt (V3.normSq v)) • v else v

/-- one comparison of two normals, `equalize_valences.cpp:137-148` -/
def normalsDiffer (p q : V3 ℝ) : Prop := V3.dot (eigenNormalize p) (eigenNormalize q) < Real.sqrt (V3.normSq (eigenNormalize q)) / 2

/-- `equalize_valences.cpp:106-155`: the geometric reasons not to flip. -/
def flipBadGeom (p1 p2 p3 p4 : V3 ℝ) : Prop :=
  let areaSq1 := heronSq (dist3 p1 p3) (dist3 p1 p4) (dist3 p4 p3)                    -- lines 108-112
  let areaSq2 := heronSq (dist3 p2 p3) (dist3 p2 p4) (dist3 p4 p3)                    -- lines 114-118
  let v21 := p2 - p1                                                                  -- lines 123-129
  let v31 := p3 - p1
  let v41 := p4 - p1
  let v24 := p2 - p4
  let v34 := p3 - p4
  let v43 := p4 - p3
  let v23 := p2 - p3
  let normf10 := V3.cross v21 v31                                                     -- lines 130-135
  let normf11 := V3.cross v41 v31
  let normf12 := V3.cross v24 v34
  let normf20 := V3.cross v41 v21
  let normf21 := V3.cross v43 v23
  let normf22 := V3.cross v41 v31
  normalsDiffer normf10 normf11 ∨ normalsDiffer normf10 normf12 ∨                     -- lines 143-148
    normalsDiffer normf20 normf21 ∨ normalsDiffer normf20 normf22 ∨
    areaSq1 = 0 ∨ areaSq2 = 0                                                         -- lines 150-155

/-- The four vertices that the code reads for an edge with the sides `e0`, `e1`: `equalize_valences.cpp:88-103` and `190-197`. -/
def flipVerts (S : SplitState) (uei : ℕ) : Option (ℕ × ℕ × ℕ × ℕ) := do
  let m := S.F.rows
  let e0 ← S.uE2E.rd2 uei 0
  let e1 ← S.uE2E.rd2 uei 1
  let v1 ← S.F.rd (e0 % m) ((e0 / m + 1) % 3)
  let v2 ← S.F.rd (e0 % m) ((e0 / m + 2) % 3)
  let v4 ← S.F.rd (e0 % m) (e0 / m)
  let v3 ← S.F.rd (e1 % m) (e1 / m)
  some (v1, v2, v3, v4)

/-- The end of the lambda `flip_edge_adjacency`, `equalize_valences.cpp:166-181`.  Lines 176-177 call `std::remove_if` on an empty range, which does nothing: `A` only grows. -/
def flipCommit (flip : SplitState → ℕ → Option SplitState) (st : EqState) (uei v1 v2 v3 v4 : ℕ) (a3 : List ℕ) : Option EqState := do
  let S' ← flip st.S uei                                                              -- line 167
  let u0 ← S'.uE.rd uei 0                                                             -- lines 168-169
  let u1 ← S'.uE.rd uei 1
  if ¬ (u0 = v3 ∧ u1 = v4) then none else
  let x1 ← st.val.rd v1                                                               -- lines 171-174
  let val ← st.val.wr v1 (x1 - 1)
  let x2 ← val.rd v2
  let val ← val.wr v2 (x2 - 1)
  let x3 ← val.rd v3
  let val ← val.wr v3 (x3 + 1)
  let x4 ← val.rd v4
  let val ← val.wr v4 (x4 + 1)
  let A ← st.A.wr v3 (a3 ++ [v4])                                                     -- line 178
  let a4 ← A.rd v4
  let A ← A.wr v4 (a4 ++ [v3])                                                        -- line 179
  some ⟨S', val, A⟩

open Classical in
/-- The lambda `flip_edge_adjacency`, `equalize_valences.cpp:76-182`. -/
def flipEdgeAdjacency (flip : SplitState → ℕ → Option SplitState) (st : EqState) (uei : ℕ) : Option EqState := do
  let m := st.S.F.rows
  let l ← st.S.uE2E.rd uei
  let e0 ← st.S.uE2E.rd2 uei 0                                                        -- lines 89-93
  let e1 ← st.S.uE2E.rd2 uei 1
  if ¬ (e0 / m < 3 ∧ e1 / m < 3 ∧ e0 % m ≠ e1 % m) then none else                     -- lines 94-99
  let (v1, v2, v3, v4) ← flipVerts st.S uei                                           -- lines 100-103
  let w1 ← st.S.F.rd (e1 % m) ((e1 / m + 2) % 3)                                      -- lines 104-105
  let w2 ← st.S.F.rd (e1 % m) ((e1 / m + 1) % 3)
  if ¬ (w1 = v1 ∧ w2 = v2) then none else
  let p1 ← st.S.V.rd v1
  let p2 ← st.S.V.rd v2
  let p3 ← st.S.V.rd v3
  let p4 ← st.S.V.rd v4
  let a3 ← st.A.rd v3                                                                 -- line 157
  if flipBadGeom p1 p2 p3 p4 ∨ v4 ∈ a3 ∨ l.length ≠ 2 then some st else               -- lines 157-166
  flipCommit flip st uei v1 v2 v3 v4 a3

open Classical in
/-- Body of the loop, `equalize_valences.cpp:185-224`. -/
def eqStep (flip : SplitState → ℕ → Option SplitState) (isFeat : Arr Bool) (fe : List Edge) (st : EqState) (i : ℕ) : Option EqState := do
  let l ← st.S.uE2E.rd i
  if l.length ≠ 2 then some st else                                                   -- lines 186-188
  let (a, b, d, c) ← flipVerts st.S i                                                 -- lines 190-197
  let fa ← isFeat.rd a
  let fb ← isFeat.rd b
  let fc ← isFeat.rd c
  let fd ← isFeat.rd d
  if (∃ e ∈ fe, Undir ⟨a, b⟩ e) ∨ fa ∨ fb ∨ fc ∨ fd then some st else                 -- lines 200-205
  let xa ← st.val.rd a                                                                -- lines 209-216
  let xb ← st.val.rd b
  let xc ← st.val.rd c
  let xd ← st.val.rd d
  let pre := |xa - 6| + |xb - 6| + |xc - 6| + |xd - 6|
  let post := |xa - 1 - 6| + |xb - 6 - 1| + |xc - 6 + 1| + |xd - 6 + 1|
  if pre > post then flipEdgeAdjacency flip st i else some st                         -- lines 218-220

/-- `equalize_valences.cpp:34-228`. -/
def equalizeValences (flip : SplitState → ℕ → Option SplitState) (S : SplitState) (feature : List ℕ) (fe : List Edge) : Option SplitState := do
  let val ← valencesInit S.V.size S.F
  let isFeat ← featureFlags S.V.size feature
  let st ← (List.range S.uE.rows).foldlM (eqStep flip isFeat fe) ⟨S, val, adjList S.E⟩
  some st.S

end
end Gpy
