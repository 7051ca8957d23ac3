import Verif.Model.Quadtree
import Mathlib.Data.List.MinMax

/-! `quadtree_gradient.py`, `quadtree_laplacian.py`. -/

set_option autoImplicit false
namespace Gpy
open Np

section
variable {K : Type} {dim : ℕ}

/-- `children = np.nonzero(CH[:,1]==-1)[0]`, `quadtree_gradient.py:76`, `quadtree_laplacian.py:76`. -/
def qLeaves (Q : Quad K dim) : List ℕ := (List.range Q.cells.length).filter (fun i => (Q.cells[i]?).any isLeafCell)

/-- `j_neighbors = (A[child,:]==j).nonzero()[1]`, `quadtree_gradient.py:101`, `quadtree_laplacian.py:101`. -/
def qNbs (Q : Quad K dim) (child j : ℕ) : List ℕ := (List.range Q.cells.length).filter (fun k => Q.A child k == j)

/-- `D[x]`. -/
def qDepth (Q : Quad K dim) (x : ℕ) : ℕ := ((Q.cells[x]?).map (fun c => c.D)).getD 0

/-- `CH[x,1]==-1`. -/
def qIsLeaf (Q : Quad K dim) (x : ℕ) : Bool := (Q.cells[x]?).any isLeafCell

variable [Field K]

/-- `W[x]`. -/
def qWidth (Q : Quad K dim) (x : ℕ) : K := ((Q.cells[x]?).map (fun c => c.W)).getD 0

/-- Neighbours that are all at most as deep as the cell, `quadtree_gradient.py:110-118`, `quadtree_laplacian.py:110-118`. -/
def qSideCoarse (Q : Quad K dim) (child m : ℕ) : Option (K × List (ℕ × K)) :=
  if qIsLeaf Q m then some ((qWidth Q child + qWidth Q m) / 2, [(m, 1)]) else none

/-- Some neighbour is deeper, `quadtree_gradient.py:119-134`, `quadtree_laplacian.py:119-134`. -/
def qSideFine (Q : Quad K dim) (child j : ℕ) : Option (K × List (ℕ × K)) :=
  match (qNbs Q child j).filter (fun k => qDepth Q k == qDepth Q child + 1) with
  | [x, y] => if qIsLeaf Q x && qIsLeaf Q y then some ((qWidth Q child + qWidth Q y) / 2, [(x, 1 / 2), (y, 1 / 2)]) else none
  | _ => none

/-- One direction: the entry `l[j]` and the cells with their weights, `quadtree_gradient.py:100-136`, `quadtree_laplacian.py:100-136` (the sign of the
weights is added by the callers).  `np.argmax` returns the first deepest neighbour. -/
def qSide (Q : Quad K dim) (child j : ℕ) : Option (K × List (ℕ × K)) :=
  match (qNbs Q child j).argmax (qDepth Q) with
  | none => some (0, [])
  | some m => if qDepth Q m ≤ qDepth Q child then qSideCoarse Q child m else qSideFine Q child j

/-- The triplets of one row of the sparse matrix: row, column, value. -/
abbrev Triplets (K : Type) := List (ℕ × ℕ × K)

/-- `cell_to_children`, `quadtree_gradient.py:78-79`, `quadtree_laplacian.py:78-79`. -/
def qCol (Q : Quad K dim) (x : ℕ) : ℕ := (qLeaves Q).idxOf x

/-- The entries of a list of directions before they are scaled: direction, column, value. -/
def qEntries (Q : Quad K dim) (sides : List (ℕ × K × List (ℕ × K))) : List (ℕ × ℕ × K) :=
  sides.flatMap (fun s => s.2.2.map (fun e => (s.1, qCol Q e.1, e.2)))

/-- `csr_matrix((vals,(I,J)))`: duplicates are added. -/
def cooGet (t : Triplets K) (i j : ℕ) : K := ((t.filter (fun e => e.1 == i && e.2.1 == j)).map (fun e => e.2.2)).sum

variable [LinearOrder K]

/-- The rows of `G` for one leaf, `quadtree_gradient.py:86-176`; `l 1 + l 2 = 0` and `l 3 + l 4 = 0` are Python's `ZeroDivisionError`. -/
def gradTriplets (Q : Quad K dim) (n i child : ℕ) : Option (Triplets K) := do
  let s1 ← qSide Q child 1
  let s2 ← qSide Q child 2
  let s3 ← qSide Q child 3
  let s4 ← qSide Q child 4
  if s1.1 + s2.1 = 0 ∨ s3.1 + s4.1 = 0 then none else
    let sides := [(1, s1), (2, s2), (3, s3), (4, s4)]
    let all := qEntries Q sides ++ (sides.filter (fun s => s.2.1 == 0)).map (fun s => (s.1, i, 1))
    some (all.map (fun e =>
      if e.1 = 1 then (i, e.2.1, -e.2.2 / (s1.1 + s2.1)) else if e.1 = 2 then (i, e.2.1, e.2.2 / (s1.1 + s2.1))
      else if e.1 = 3 then (i + n, e.2.1, -e.2.2 / (s3.1 + s4.1)) else (i + n, e.2.1, e.2.2 / (s3.1 + s4.1))))

/-- `quadtree_gradient(C,W,CH,D,A)`, `quadtree_gradient.py:76-181`: the entries of `G`, which has two rows per leaf. -/
def quadtreeGradient (Q : Quad K dim) : Option (ℕ → ℕ → K) :=
  let L := qLeaves Q
  (((List.range L.length).zip L).mapM (fun p => gradTriplets Q L.length p.1 p.2)).map (fun ts => cooGet ts.flatten)

/-- The denominator of `quadtree_laplacian.py:141-161` for a distance `a` and the distance `b` on the opposite side. -/
def lapDen (a b : K) : K := if b = 0 then a * (a + a) else a * (a + b)

/-- Directions 5 and 6 in three dimensions: `l` has five entries only, so the first neighbour found raises `IndexError`, `quadtree_laplacian.py:90`,
`111`, `126`. -/
def lapExtra (Q : Quad K dim) (child : ℕ) : Bool := (List.range (2 * dim - 4)).all (fun k => (qNbs Q child (5 + k)).isEmpty)

/-- The row of the matrix for one leaf, `quadtree_laplacian.py:86-167`. -/
def lapTriplets (Q : Quad K dim) (i child : ℕ) : Option (Triplets K) := do
  let s1 ← qSide Q child 1
  let s2 ← qSide Q child 2
  let s3 ← qSide Q child 3
  let s4 ← qSide Q child 4
  if lapExtra Q child = false then none else
    let all := qEntries Q [(1, s1), (2, s2), (3, s3), (4, s4)]
    some (all.map (fun e => (i, e.2.1, -e.2.2 / (if e.1 = 1 then lapDen s1.1 s2.1 else if e.1 = 2 then lapDen s2.1 s1.1
      else if e.1 = 3 then lapDen s3.1 s4.1 else lapDen s4.1 s3.1))))

/-- `quadtree_laplacian(C,W,CH,D,A)`, `quadtree_laplacian.py:76-174`: the entries of `L`.  With a single leaf `squeeze` leaves a 0-dimensional array, which
`diags` refuses. -/
def quadtreeLaplacian (Q : Quad K dim) : Option (ℕ → ℕ → K) :=
  let L := qLeaves Q
  if L.length = 1 then none else
    (((List.range L.length).zip L).mapM (fun p => lapTriplets Q p.1 p.2)).map (fun ts i j =>
      -2 * cooGet ts.flatten i j - (if i = j then ((List.range L.length).map (fun k => -2 * cooGet ts.flatten i k)).sum else 0))

/-- `stored_at = C[children,:]`, `quadtree_gradient.py:180`, `quadtree_laplacian.py:173`. -/
def quadStoredAt (Q : Quad K dim) : List (Fin dim → K) := (qLeaves Q).filterMap (fun i => (Q.cells[i]?).map (fun c => c.C))

end
end Gpy
