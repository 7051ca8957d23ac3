import Verif.Np.Pt
import Mathlib.LinearAlgebra.Matrix.Notation
import Mathlib.Tactic.Abel

/-!
# `cpp/upper_envelope.cpp`, called from `upper_envelope.py`

Real arithmetic, for at least two materials (with one, `igl::nchoosek` is asked for pairs out of one element).  Positions and soft labels of a vertex
are kept together (the code keeps `VT` and `DT` in step).  Reading or writing outside an array, which is undefined in C++, is `none`.
-/

set_option autoImplicit false
namespace Gpy

/-- A row of `FT`. -/
structure UTet where
  a : ℕ
  b : ℕ
  c : ℕ
  d : ℕ
deriving DecidableEq

/-- The entries of a row of `FT`. -/
def UTet.corners (t : UTet) : List ℕ := [t.a, t.b, t.c, t.d]

/-- The rows with which `FT` and `CFTarray` are padded, `upper_envelope.cpp:403`, `449`. -/
def UTet.zero : UTet := ⟨0, 0, 0, 0⟩

/-- A row of `VT` together with the row of `DT`. -/
abbrev UVert (m : ℕ) := Pt 3 × Pt m

variable {m : ℕ}

/-- The variables of `upper_envelope`: the first `idxV` rows of `VT` and `DT` (the rest is padding that is never read), the number of rows of `VT`, and
`FT`, `LT` with their padding, and `idxF`. -/
structure UState (m : ℕ) where
  V : List (UVert m)
  capV : ℕ
  F : List UTet
  L : List (Fin m → Bool)
  idxF : ℕ

noncomputable section

/-- The rows of `VT`/`DT` of the corners of a tet; `none` if an index is out of range. -/
def cornerRows (V : List (UVert m)) (t : UTet) : Option (List (UVert m)) := t.corners.mapM (fun c => V[c]?)

open Classical in
/-- `remove_material_quick`, `upper_envelope.cpp:125-147`, for one row of `LT` (all true before).  `amax` is `maxCoeff(&i)` of a row.  The routine
called for the other rows, `remove_unused_material2` (`upper_envelope.cpp:149-188`), discards the result of `select`, so it changes nothing. -/
def uQuick (amax : Pt m → Fin m) (V : List (UVert m)) (t : UTet) : Option (Fin m → Bool) := do
  let xs ← cornerRows V t
  let I := xs.map (fun x => amax x.2)
  let i0 ← I.head?
  some (if m ≠ 1 ∧ ∀ i ∈ I, i = i0 then fun j => decide (j = i0) else fun _ => true)

/-- `igl::sort(EF_unsorted,2,true,EF)` for one row, `upper_envelope.cpp:284`. -/
def sortPair (e : ℕ × ℕ) : ℕ × ℕ := if e.1 ≤ e.2 then e else (e.2, e.1)

/-- The six sorted edges, `upper_envelope.cpp:277-284`. -/
def uTetEdges (t : UTet) : List (ℕ × ℕ) := [(t.a, t.b), (t.a, t.c), (t.a, t.d), (t.b, t.c), (t.b, t.d), (t.c, t.d)].map sortPair

/-- The order of `igl::sortrows(E_tmp,true,E)`, `upper_envelope.cpp:306`. -/
def rowLe (e f : ℕ × ℕ) : Bool := decide (e.1 < f.1 ∨ (e.1 = f.1 ∧ e.2 ≤ f.2))

open Classical in
/-- The edges that are cut: the difference `d` of the two labels changes sign and is larger than the threshold at both ends,
`upper_envelope.cpp:286-306`. -/
def uCutEdges (d : ℕ → ℝ) (t : UTet) : List (ℕ × ℕ) :=
  ((uTetEdges t).filter (fun e => decide (((d e.1 < 0 ∧ 0 < d e.2) ∨ (0 < d e.1 ∧ d e.2 < 0)) ∧ ¬ |d e.1| ≤ 1 / 10 ^ 5 ∧ ¬ |d e.2| ≤ 1 / 10 ^ 5))).mergeSort rowLe

/-- `BB(ibb)`, `upper_envelope.cpp:324-328`. -/
def uWeight (e : ℕ × ℕ) (mu : ℝ) (c : ℕ) : ℝ := if c = e.2 then mu else if c = e.1 then 1 - mu else 0

/-- The new vertex on an edge, `upper_envelope.cpp:317-332` with `VertexInterp` (`197-220`, whose shortcuts are not taken because both differences exceed
the threshold): the position is interpolated along the edge, the labels with the weights `BB`. -/
def uNewVertex (V : List (UVert m)) (d : ℕ → ℝ) (t : UTet) (e : ℕ × ℕ) : Option (UVert m) := do
  let x ← V[e.1]?
  let y ← V[e.2]?
  let xs ← cornerRows V t
  let mu := (0 - d e.1) / (d e.2 - d e.1)
  some (fun k => x.1 k + mu * (y.1 k - x.1 k), fun j => ((t.corners.zip xs).map (fun p => uWeight e mu p.1 * p.2.2 j)).sum)

/-- One pass of the loop over the cut edges, `upper_envelope.cpp:310-337`; `mids` are the positive entries of `uE2V`, `ids` is `vids`. -/
def uMidStep (capV : ℕ) (d : ℕ → ℝ) (t : UTet) (s : List (UVert m) × List ((ℕ × ℕ) × ℕ) × List ℕ) (e : ℕ × ℕ) :
    Option (List (UVert m) × List ((ℕ × ℕ) × ℕ) × List ℕ) :=
  match s.2.1.lookup e with
  | some v => some (s.1, s.2.1, s.2.2 ++ [v])
  | none => if s.1.length < capV then
      (uNewVertex s.1 d t e).map (fun z => (s.1 ++ [z], (e, s.1.length) :: s.2.1, s.2.2 ++ [s.1.length]))
    else none

/-- `tet_contains_edge`, `upper_envelope.cpp:193-195`. -/
def uContains (t : UTet) (e : ℕ × ℕ) : Bool := decide (e.1 ∈ t.corners ∧ e.2 ∈ t.corners)

/-- `split_2_edge`, `upper_envelope.cpp:223-233`. -/
def uSplit2 (t : UTet) (e : ℕ × ℕ) (v : ℕ) : Option (List UTet) :=
  match t.corners.filter (fun c => !(decide (c = e.1) || decide (c = e.2))) with
  | [x, y] => some [⟨e.1, v, x, y⟩, ⟨e.2, v, x, y⟩]
  | _ => none

/-- The inner loop of `split_2_edge_array`, `upper_envelope.cpp:248-262`. -/
def uSplitEdge (tt : List UTet) (ev : (ℕ × ℕ) × ℕ) : Option (List UTet) :=
  (tt.mapM (fun t => if uContains t ev.1 then uSplit2 t ev.1 ev.2 else some [t])).map List.flatten

/-- `split_2_edge_array`, `upper_envelope.cpp:235-268`. -/
def uSplitAll (t : UTet) (evs : List ((ℕ × ℕ) × ℕ)) : Option (List UTet) := evs.foldlM uSplitEdge [t]

/-- Six times `igl::volume` of four points. -/
def vol6 (p q r s : Pt 3) : ℝ :=
  -((p 0 - s 0) * ((q 1 - s 1) * (r 2 - s 2) - (q 2 - s 2) * (r 1 - s 1)) + (p 1 - s 1) * ((q 2 - s 2) * (r 0 - s 0) - (q 0 - s 0) * (r 2 - s 2)) +
    (p 2 - s 2) * ((q 0 - s 0) * (r 1 - s 1) - (q 1 - s 1) * (r 0 - s 0)))

/-- The position of a vertex. -/
def uPos (V : List (UVert m)) (c : ℕ) : Pt 3 := ((V[c]?).map (fun x => x.1)).getD (fun _ => 0)

/-- `igl::volume`, `upper_envelope.cpp:347`. -/
def uVol (V : List (UVert m)) (t : UTet) : ℝ := vol6 (uPos V t.a) (uPos V t.b) (uPos V t.c) (uPos V t.d) / 6

open Classical in
/-- `upper_envelope.cpp:348-355` -/
def uOrient (V : List (UVert m)) (t : UTet) : UTet := if uVol V t < 0 then ⟨t.a, t.b, t.d, t.c⟩ else t

/-- `X.block(idx,0,rows.rows(),X.cols()) = rows`; `none` if the block does not fit. -/
def setBlock {α : Type} (l : List α) (idx : ℕ) (rows : List α) : Option (List α) :=
  if idx + rows.length ≤ l.length then some (l.take idx ++ rows ++ l.drop (idx + rows.length)) else none

/-- The enlargement of the arrays, `upper_envelope.cpp:436-452`. -/
def uGrow (nV nF : ℕ) (s : UState m) : UState m :=
  let s := if s.V.length + 10 + 1 > s.capV then { s with capV := s.capV + nV } else s
  if s.idxF + 10 + 1 > s.F.length then
    { s with F := s.F ++ List.replicate nF UTet.zero, L := s.L ++ List.replicate nF (fun _ => false) } else s

/-- `inD`, `upper_envelope.cpp:433`; only entries of `V0`, the vertices at the start of the pass, exist. -/
def labelDiff (V0 : List (UVert m)) (i j : Fin m) (c : ℕ) : ℝ := ((V0[c]?).map (fun x => x.2 i - x.2 j)).getD 0

/-- The rows written for a split tet, `upper_envelope.cpp:343-365`. -/
def uWrite (s : UState m) (tetid : ℕ) (V : List (UVert m)) (tt : List UTet) : Option (UState m) := do
  let tt := tt.map (uOrient V)
  let t0 ← tt.head?
  let l ← s.L[tetid]?
  let F ← setBlock (s.F.set tetid t0) s.idxF tt.tail
  let L ← setBlock s.L s.idxF (List.replicate tt.tail.length l)
  some ⟨V, s.capV, F, L, s.idxF + tt.tail.length⟩

open Classical in
/-- One tet of a pass, `upper_envelope.cpp:435-456` with `propogate_split_func` (`191-367`). -/
def uStep (nV nF : ℕ) (V0 : List (UVert m)) (i j : Fin m) (s : UState m × List ((ℕ × ℕ) × ℕ)) (tetid : ℕ) : Option (UState m × List ((ℕ × ℕ) × ℕ)) := do
  let st := uGrow nV nF s.1
  let t ← st.F[tetid]?
  let _ ← cornerRows V0 t
  let d := labelDiff V0 i j
  if (∀ c ∈ t.corners, 0 ≤ d c) ∨ (∀ c ∈ t.corners, d c ≤ 0) ∨ uCutEdges d t = [] then some (st, s.2) else do
    let r ← (uCutEdges d t).foldlM (uMidStep st.capV d t) (st.V, s.2, [])
    let tt ← uSplitAll t ((uCutEdges d t).zip r.2.2)
    let st ← uWrite st tetid r.1 tt
    some (st, r.2.1)

/-- The pass for one pair of materials, `upper_envelope.cpp:416-458`; `none` if `FT` has fewer than `idxF` rows. -/
def uPass (nV nF : ℕ) (s : UState m) (i j : Fin m) : Option (UState m) :=
  if s.F.length < s.idxF then none else
    ((List.range s.idxF).foldlM (uStep nV nF s.V i j) (s, [])).map Prod.fst

open Classical in
/-- Whether a tet is carved out for material `mid`, `upper_envelope.cpp:63-98`. -/
def uCarved (amax : Pt m → Fin m) (mid : Fin m) (xs : List (UVert m)) : Bool :=
  decide ((∀ x ∈ xs, amax x.2 = mid) ∨
    ∀ j, j ≠ mid → (∀ x ∈ xs, x.2 j - x.2 mid ≤ 0) ∨ ∀ x ∈ xs, 0 < x.2 j - x.2 mid → |x.2 j - x.2 mid| < 1 / 10 ^ 5)

/-- The flags `CT`, `upper_envelope.cpp:60-98`: rows from `idxF-1` on are never carved. -/
def uFlags (amax : Pt m → Fin m) (mid : Fin m) (s : UState m) : Option (List Bool) :=
  if s.F.length < s.idxF - 1 then none else
    ((List.range s.F.length).zip s.F).mapM (fun p => if p.1 < s.idxF - 1 then (cornerRows s.V p.2).map (uCarved amax mid) else some false)

/-- `igl::slice_mask(X,mask,1)`. -/
def sliceMask {α : Type} (l : List α) (mask : List Bool) : List α := ((l.zip mask).filter (fun p => p.2)).map Prod.fst

/-- `carve_out_material`, `upper_envelope.cpp:58-114`: the new state and the carved rows. -/
def uCarve (amax : Pt m → Fin m) (mid : Fin m) (s : UState m) : Option (UState m × List UTet) := do
  let CT ← uFlags amax mid s
  let F := sliceMask s.F (CT.map not)
  some (⟨s.V, s.capV, F, sliceMask s.L (CT.map not), if UTet.zero ∈ F then F.idxOf UTet.zero else s.idxF⟩, sliceMask s.F CT)

/-- Whether some row of `LT` has both labels, `upper_envelope.cpp:410`, `416`. -/
def uBoth (s : UState m) (i j : Fin m) : Bool := s.L.any (fun l => l i && l i) && s.L.any (fun l => l i && l j)

/-- One material, `upper_envelope.cpp:407-506`. -/
def uMaterial (amax : Pt m → Fin m) (nV nF : ℕ) (s : UState m × List UTet × List (Fin m → Bool)) (mid : Fin m) : Option (UState m × List UTet × List (Fin m → Bool)) := do
  let L0 := s.1
  let st ← ((List.finRange m).filter (fun j => decide (mid < j))).foldlM (fun st j => if uBoth L0 mid j then uPass nV nF st mid j else some st) s.1
  let r ← uCarve amax mid st
  some (r.1, s.2.1 ++ r.2, s.2.2 ++ List.replicate r.2.length (fun j => decide (j = mid)))

/-- `upper_envelope(V,T,D)`, `upper_envelope.py:43-50`, `upper_envelope.cpp:369-519`: the returned vertices, tets and labels.  An empty `T` makes the
loop `upper_envelope.cpp:487-493` run forever (`none`). -/
def upperEnvelope (amax : Pt m → Fin m) (V : List (UVert m)) (T : List UTet) : Option (List (Pt 3) × List UTet × List (Fin m → Bool)) := do
  if T = [] then none else do
    let L ← T.mapM (uQuick amax V)
    let r ← (List.finRange m).foldlM (uMaterial amax V.length T.length) ((⟨V, V.length, T, L, T.length⟩ : UState m), [UTet.zero], [fun _ => false])
    some (r.1.V.map (fun x => x.1), r.2.1.dropLast, r.2.2.dropLast)

end

end Gpy
