import Verif.Model.Relax
import Verif.Model.Equalize

/-! The C++ remesher: `src/cpp/remesher/collapse_edges.cpp` (the pass that collapses edges).

`igl::decimate` (line 287) is library code; `Spec/Collapse.lean` says what it documents.  The model has the cost callback that decides which edges may be collapsed and where
the new vertex goes, and the code after the call, which renumbers the bounds, the fixed vertices and the feature edges.  In the second part out-of-range accesses are `none`.
In the callback they are not tracked: it is only called with vertices of the mesh. -/

set_option autoImplicit false
namespace Gpy

/-- what the callback captures: `collapse_edges.cpp:66-90`.  `A` is the adjacency list of the mesh before the first collapse. -/
structure CollapseIn where
  A : ℕ → List ℕ
  high : ℕ → ℝ
  low : ℕ → ℝ
  fixed : List ℕ
  fe : List Edge

/-- `feat_deg`, `collapse_edges.cpp:79-83`: the number of ends of feature edges at a vertex -/
def featDeg (fe : List Edge) (v : ℕ) : ℕ := (fe.flatMap (fun e => [e.s, e.t])).count v

noncomputable section

/-- `collapse_edges.cpp:101-141`: is the collapse of the edge `a b` compatible with the features, and where does the new vertex go?  `none` is an infinite cost.
(`igl::shortest_edge_and_midpoint` proposes the midpoint.  `edge_key` is injective on unordered pairs of vertex numbers.) -/
def collapsePlace (C : CollapseIn) (V : ℕ → V3 ℝ) (a b : ℕ) : Option (V3 ℝ) :=
  if a ∈ C.fixed ∨ b ∈ C.fixed then none else
  let fva := featDeg C.fe a ≥ 1
  let fvb := featDeg C.fe b ≥ 1
  if fva ∧ fvb then
    if ¬ ∃ e ∈ C.fe, Undir ⟨a, b⟩ e then none else
    let cornerA := featDeg C.fe a ≠ 2
    let cornerB := featDeg C.fe b ≠ 2
    if cornerA ∧ cornerB then none else
    if cornerA then some (V a) else if cornerB then some (V b) else some (V a)
  else if fva then some (V a)
  else if fvb then some (V b)
  else some ((1 / 2 : ℝ) • (V a + V b))

/-- corner of a face after the collapse, `collapse_edges.cpp:204-217` -/
def afterCollapse (V : ℕ → V3 ℝ) (a b : ℕ) (p : V3 ℝ) (v : ℕ) : V3 ℝ := if v = a ∨ v = b then p else V v

/-- `collapse_edges.cpp:218-222`: a face turns too far; `normalized()` of the zero vector is zero -/
def faceTurns (V : ℕ → V3 ℝ) (a b : ℕ) (p : V3 ℝ) (t : Tri) : Prop :=
  let q := afterCollapse V a b p
  let nBefore := eigenNormalize (V3.cross (V t.b - V t.a) (V t.c - V t.a))
  let nAfter := eigenNormalize (V3.cross (q t.b - q t.a) (q t.c - q t.a))
  V3.dot nBefore nAfter < Real.sqrt (V3.normSq nAfter) / 2

open Classical in
/-- The cost callback, `collapse_edges.cpp:89-227`: `none` is an infinite cost, otherwise the place of the new vertex.  `N` is the list of faces that lines 160-195 collect by circulating around one end
of the edge.  (The finite value of the cost, the length of the edge, only decides about the order of the collapses.) -/
def collapseCost (C : CollapseIn) (V : ℕ → V3 ℝ) (F : List Tri) (N : List ℕ) (a b : ℕ) : Option (V3 ℝ) := do
  let p ← collapsePlace C V a b
  if dist3 (V a) (V b) > (C.low a + C.low b) / 2 then none else                                   -- lines 143-146
  if ¬ featDeg C.fe b ≥ 1 ∧ ∃ j ∈ C.A b, dist3 (V j) p > C.high b then none else                  -- lines 147-152
  if ¬ featDeg C.fe a ≥ 1 ∧ ∃ j ∈ C.A a, dist3 (V j) p > C.high a then none else                  -- lines 153-158
  if ∃ f ∈ N, ¬ (f = 0 ∨ f = N.length - 1) ∧ ∃ t, F[f]? = some t ∧ faceTurns V a b p t then none else  -- lines 196-226
  some p

end

/-- `uf_find`, `collapse_edges.cpp:42-45`.  The first argument bounds the number of iterations; a loop that does not end in this time is `none`. -/
def ufFind : ℕ → Arr ℕ → ℕ → Option (Arr ℕ × ℕ)
  | 0, _, _ => none
  | k + 1, P, x => do
    let px ← P.rd x
    if px = x then some (P, x) else
    let ppx ← P.rd px
    let P ← P.wr x ppx
    let y ← P.rd x
    ufFind k P y

/-- `uf_union`, `collapse_edges.cpp:46-49` -/
def ufUnion (P : Arr ℕ) (m : ℕ × ℕ) : Option (Arr ℕ) := do
  let (P, a) ← ufFind (P.size + 1) P m.1
  let (P, b) ← ufFind (P.size + 1) P m.2
  if a ≠ b then P.wr a b else some P

/-- `collapse_edges.cpp:299-301`: `root_new` -/
def rootStep (birth : Arr (Option ℕ)) (s : Arr ℕ × Arr (Option ℕ)) (o : ℕ) : Option (Arr ℕ × Arr (Option ℕ)) := do
  let x ← birth.rd o
  match x with
  | none => some s
  | some _ => do
    let (P, r) ← ufFind (s.1.size + 1) s.1 o
    let R ← s.2.wr r x
    some (P, R)

/-- `collapse_edges.cpp:302` -/
def birthStep (R : Arr (Option ℕ)) (s : Arr ℕ × Arr (Option ℕ)) (o : ℕ) : Option (Arr ℕ × Arr (Option ℕ)) := do
  let (P, r) ← ufFind (s.1.size + 1) s.1 o
  let x ← R.rd r
  let B ← s.2.wr o x
  some (P, B)

/-- `collapse_edges.cpp:292-302`: the map from the old to the new vertices; `-1` is `none`. -/
def birthToNew (n : ℕ) (I : List ℕ) (merges : List (ℕ × ℕ)) : Option (Arr (Option ℕ)) := do
  let P ← merges.foldlM ufUnion ⟨n, fun i => i⟩
  let birth ← I.zipIdx.foldlM (fun (B : Arr (Option ℕ)) p => B.wr p.1 (some p.2)) ⟨n, fun _ => none⟩
  let (P, R) ← (List.range n).foldlM (rootStep birth) (P, ⟨n, fun _ => none⟩)
  let (_, B) ← (List.range n).foldlM (birthStep R) (P, birth)
  some B

/-- `collapse_edges.cpp:329-335`: body of the loop over the feature edges -/
def featStep (B : Arr (Option ℕ)) (L : List Edge) (e : Edge) : Option (List Edge) := do
  let a ← B.rd e.s
  let b ← B.rd e.t
  match a, b with
  | some a, some b => if a = b then some L else if ∃ e' ∈ L, Undir ⟨a, b⟩ e' then some L else some (L ++ [⟨a, b⟩])
  | _, _ => some L

/-- the variables after the pass -/
structure CollapseOut where
  high : Arr ℝ
  low : Arr ℝ
  feature : List ℕ
  fe : List Edge

/-- `collapse_edges.cpp:289-348`: the code after the call of `igl::decimate`, which has returned `I` and the list of merges. -/
def afterDecimate (n : ℕ) (I : List ℕ) (merges : List (ℕ × ℕ)) (high low : Arr ℝ) (feature : List ℕ) (fe : List Edge) : Option CollapseOut := do
  let B ← birthToNew n I merges
  let high' ← I.mapM high.rd                                                                      -- lines 305-311
  let low' ← I.mapM low.rd
  let feature' ← feature.mapM B.rd                                                                -- lines 314-323
  let fe' ← fe.foldlM (featStep B) []                                                             -- lines 326-341
  some ⟨⟨I.length, fun s => high'.getD s 0⟩, ⟨I.length, fun s => low'.getD s 0⟩, feature'.filterMap id, fe'⟩

end Gpy
