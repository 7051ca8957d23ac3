import Verif.Np.Sparse
import Verif.Model.Edges
import Verif.Model.ArrayCorrespondence
import Verif.Model.RemoveUnreferenced

/-! `cut_edges.py`. -/

set_option autoImplicit false
namespace Gpy
open Np

/-- The contract of `scipy.sparse.csgraph.connected_components(A, return_labels=True)[1]` for an `N × N` matrix of entries `A`: one label per
node; two nodes have the same label iff they are connected through non-zero entries (in either direction); the labels in use are
`0, 1, …, k-1`. -/
structure IsConnectedComponents (cc : ℕ → (ℕ → ℕ → ℕ) → List ℕ) : Prop where
  length : ∀ N A, (cc N A).length = N
  connected : ∀ N A i j, i < N → j < N →
    ((cc N A)[i]? = (cc N A)[j]? ↔ Relation.EqvGen (fun a b => a < N ∧ b < N ∧ A a b ≠ 0) i j)
  consecutive : ∀ N A l, l ∈ cc N A → ∀ l', l' < l → l' ∈ cc N A

/-- The matrix whose entries are all one at the given positions, `csr_matrix((np.ones(k),(rows,cols)),shape=(r,c))`. -/
def csrOnes (rows cols : List ℕ) (r c : ℕ) : Option (Csr ℕ) := csrMatrix (List.replicate rows.length 1) rows cols r c

/-- `FF[:,c]`, `I[:,c]` for the `(m,3)` array `np.arange(3*m).reshape((-1,3),order='F')` (lines 65, 80). -/
def ffCol (m c : ℕ) : List ℕ := (List.range m).map (fun f => c * m + f)

/-- `cut_edges.py:82-84`: the rows and columns of `VV_to_EE`. -/
def vvToEeRows (m : ℕ) : List ℕ := ffCol m 0 ++ ffCol m 1 ++ ffCol m 2 ++ ffCol m 0 ++ ffCol m 1 ++ ffCol m 2
def vvToEeCols (m : ℕ) : List ℕ := ffCol m 1 ++ ffCol m 2 ++ ffCol m 0 ++ ffCol m 2 ++ ffCol m 0 ++ ffCol m 1

/-- `I.ravel()` (line 88): row-major order of the array of corner numbers; also `FF.ravel()`. -/
def ffRavel (m : ℕ) : List ℕ := (List.range m).flatMap (fun f => [0 * m + f, 1 * m + f, 2 * m + f])

/-- `F.ravel()` (row-major) and `F.flatten(order='F')` (column-major). -/
def ravelC (F : List Tri) : List ℕ := F.flatMap (fun t => [t.a, t.b, t.c])
def ravelF (F : List Tri) : List ℕ := F.map (·.a) ++ F.map (·.b) ++ F.map (·.c)

/-- The entry `A[p,q]` of `cut_edges.py:91-92`:
`(VV_to_EE * (unique_he_to_EE.T * noncut * unique_he_to_EE) * VV_to_EE.T).multiply(VV_to_V * VV_to_V.T)`. -/
def cutA (VE UE N VV : Csr ℕ) (p q : ℕ) : ℕ :=
  (∑ e ∈ Finset.range VE.ncols, ∑ e' ∈ Finset.range VE.ncols,
      VE.get p e * (∑ u ∈ Finset.range UE.nrows, ∑ u' ∈ Finset.range UE.nrows, UE.get u e * N.get u u' * UE.get u' e') * VE.get q e') *
    ∑ v ∈ Finset.range VV.ncols, VV.get p v * VV.get q v

/-- `cut_edges.py:45-96`: the labels of the corners.  `cc` is scipy's `connected_components`.  `none` = a failed assert or exception:
line 49 (`F.size[0]` on an `int`) raises `TypeError` for an empty `E`.  `unique_he_to_F` (lines 58-63) is never used. -/
def cutLabels (cc : ℕ → (ℕ → ℕ → ℕ) → List ℕ) (F : List Tri) (E : List Edge) : Option (List ℕ) := do
  let m := F.length
  let mx ← npMaxInt ((ravelC F).map (fun k : ℕ => (k : Int)))         -- lines 45, 47
  let n := (mx + 1).toNat
  if E = [] then none else                                            -- lines 48-49
  let he ← halfedges F                                                -- line 53
  let sortedHe := (flattenHe he).map Edge.sort                        -- lines 54-55
  let uniqueHe := npUnique sortedHe                                   -- lines 56-57
  let inv := npUniqueInverse sortedHe
  let corr ← arrayCorrespondence (uniqueHe.map Edge.sort) (E.map Edge.sort)       -- lines 66-69
  let notE := npWhere (corr.map (fun x => decide (x < 0)))
  let N ← csrOnes notE notE uniqueHe.length uniqueHe.length           -- lines 70-74
  let UE ← csrOnes inv (List.range (3 * m)) uniqueHe.length (3 * m)   -- lines 75-79
  let VE ← csrOnes (vvToEeRows m) (vvToEeCols m) (3 * m) (3 * m)      -- lines 80-86
  let VV ← csrOnes (ffRavel m) (ravelC F) (3 * m) n                   -- lines 87-90
  some (cc (3 * m) (cutA VE UE N VV))                                 -- lines 91-92, 96

/-- `cut_edges.py:94-104`, given the labels of the corners: `(G,I)`.  Line 98 assigns into `I` while reading it; its right hand side is read
before the assignment, as numpy does for overlapping operands.  `G` is the row-major list of the entries of the `(m,3)` array. -/
def cutRelabel (F : List Tri) (labels : List ℕ) : Option (List Int × List ℕ) := do
  let m := F.length
  let labelsI := labels.map (fun k : ℕ => (k : Int))
  let VVd ← npPut (List.replicate (3 * m) 0) labelsI labels           -- lines 95, 97
  let I1 ← npPut (ravelF F) labelsI (ravelF F)                        -- lines 94, 98
  let FF ← npTakeN labels (ffRavel m)                                 -- line 99
  let r ← removeUnreferenced (some VVd) (FF.map (fun k : ℕ => (k : Int)))   -- line 100
  let W ← r.1
  let IM := r.2.2.1
  if IM.length ≠ I1.length then none else                             -- line 101: boolean index of the wrong length
  let I := npMask I1 (IM.map (fun x => decide (x < (W.length : Int) ∧ x ≥ 0)))
  let G ← npTakeN IM FF                                               -- line 102
  some (G, I)

/-- `cut_edges(F,E)`. -/
def cutEdges (cc : ℕ → (ℕ → ℕ → ℕ) → List ℕ) (F : List Tri) (E : List Edge) : Option (List Int × List ℕ) :=
  (cutLabels cc F E).bind (cutRelabel F)

end Gpy
