import Verif.Model.Edges
import Verif.Np.Sparse

/-! `adjacency_matrix`, `connected_components`. -/

set_option autoImplicit false
namespace Gpy
open Np

/-- `np.max` of the entries of an `(e,2)` integer array, plus one (`adjacency_matrix.py:37`). -/
def vertexCount (E : List Edge) : ℕ := (E.map (fun e => max e.s e.t)).foldl max 0 + 1

/-- `adjacency_matrix.py:37-44`: the entries are `np.ones(2*len(E))` at `(E0,E1)` and `(E1,E0)`. -/
def adjacencyOfEdges (E : List Edge) : Option (Csr ℤ) :=
  csrMatrix (List.replicate (2 * E.length) 1) (E.map (·.s) ++ E.map (·.t)) (E.map (·.t) ++ E.map (·.s))
    (vertexCount E) (vertexCount E)

/-- `adjacency_matrix.py:28-44` for an `(e,2)` array of polyline edges.  `none` = exception: for an empty `F`, line 29 calls
`scipy.sparse.csr_matrix()` without its mandatory argument (`TypeError`). -/
def adjacencyMatrixPoly (E : List Edge) : Option (Csr ℤ) :=
  if E.length = 0 then none                                  -- lines 28-29
  else adjacencyOfEdges E                                    -- lines 30-31, 37-44

/-- `adjacency_matrix.py:28-44` for an `(m,3)` array of triangles. -/
def adjacencyMatrixTri (F : List Tri) : Option (Csr ℤ) :=
  if F.length = 0 then none                                  -- lines 28-29
  else do
    let r ← edges F                                          -- lines 32-33
    adjacencyOfEdges r.E                                     -- lines 37-44

/-- The column indices stored in row `v` (CSR `indices[indptr[v]:indptr[v+1]]`), here in the order of the triples; the order
does not influence which labels come out. -/
def csrRow (A : Csr ℤ) (v : ℕ) : List ℕ := (A.trip.filter (fun t => t.1 = v)).map (fun t => t.2.1)

/-- The row indices stored in column `v` (a row of the transposed matrix). -/
def csrCol (A : Csr ℤ) (v : ℕ) : List ℕ := (A.trip.filter (fun t => t.2.1 = v)).map (fun t => t.1)

/-- State of the depth first search of `scipy.sparse.csgraph.connected_components`. -/
structure CcState where
  /-- the label of a vertex, once it was popped -/
  lab : ℕ → Option ℕ
  /-- whether a vertex was pushed already -/
  seen : ℕ → Bool
  stack : List ℕ

/-- push the neighbours that were not pushed before -/
def ccPush (st : CcState) (w : ℕ) : CcState :=
  if st.seen w then st else { st with seen := Function.update st.seen w true, stack := w :: st.stack }

/-- One component: pop a vertex, label it, push its unseen neighbours, until the stack is empty (`none`: out of fuel). -/
def ccLoop (nb : ℕ → List ℕ) (label : ℕ) : ℕ → CcState → Option CcState
  | _, ⟨lab, seen, []⟩ => some ⟨lab, seen, []⟩
  | 0, ⟨_, _, _ :: _⟩ => none
  | fuel + 1, ⟨lab, seen, v :: s⟩ =>
    ccLoop nb label fuel ((nb v).foldl ccPush ⟨Function.update lab v (some label), seen, s⟩)

/-- The outer loop over the vertices; each unlabelled vertex starts a new component. -/
def ccOuter (nb : ℕ → List ℕ) (n : ℕ) : List ℕ → ℕ → CcState → Option (ℕ × CcState)
  | [], label, st => some (label, st)
  | v :: vs, label, st =>
    match st.lab v with
    | some _ => ccOuter nb n vs label st
    | none => do
      let st' ← ccLoop nb label n ⟨st.lab, Function.update st.seen v true, [v]⟩
      ccOuter nb n vs (label + 1) st'

/-- `scipy.sparse.csgraph.connected_components(A)` (default arguments: weak connectivity, i.e. edges are followed in both
directions): number of components and labels.  This is the algorithm of SciPy's `_connected_components_undirected`. -/
def csgraphConnectedComponents (A : Csr ℤ) : Option (ℕ × List ℕ) := do
  let (k, st) ← ccOuter (fun v => csrRow A v ++ csrCol A v) A.nrows (List.range A.nrows) 0
    ⟨fun _ => none, fun _ => false, []⟩
  let C ← (List.range A.nrows).mapM st.lab
  return (k, C)

/-- `connected_components.py:33-46` with `return_face_indices=True`: the pair `(C, CF)`. -/
def connectedComponents (F : List Tri) : Option (List ℕ × List ℕ) :=
  if F.length = 0 then some ([], [])                         -- lines 33-35
  else do
    let A ← adjacencyMatrixTri F                             -- line 39
    let r ← csgraphConnectedComponents A                     -- line 40
    let CF ← npTakeN r.2 (F.map (·.a))                       -- line 41
    return (r.2, CF)

end Gpy
