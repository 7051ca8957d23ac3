import Verif.Np.Basic
import Mathlib.Algebra.Field.Basic
import Mathlib.Algebra.Order.Field.Basic

/-! `subdivide_quad.py`, `initialize_quadtree.py`, `in_quadtree.py`, `quadtree_children.py`, `quadtree_boundary.py`. -/

set_option autoImplicit false
namespace Gpy
open Np

/-- One row of the parallel arrays `C, W, CH, PAR, D`. -/
structure QuadCell (K : Type) (dim : ℕ) where
  C : Fin dim → K
  W : K
  CH : List Int
  PAR : Int
  D : ℕ

/-- A quadtree: the rows, and the entries of the sparse matrix `A` (zero where nothing is stored). -/
structure Quad (K : Type) (dim : ℕ) where
  cells : List (QuadCell K dim)
  A : ℕ → ℕ → ℕ

/-- `lookup_a`, `subdivide_quad.py:71-79`, with the shift of line 79. -/
def lookupA : List (ℕ × List ℕ) :=
  [(1, [2, 4, 8, 6]), (2, [1, 3, 5, 7]), (3, [3, 4, 7, 8]), (4, [1, 2, 5, 6]), (5, [5, 6, 7, 8]), (6, [1, 2, 3, 4])].map
    (fun r => (r.1, r.2.map (· - 1)))

/-- `lookup_b`, `subdivide_quad.py:84-110`, with the shift of line 110. -/
def lookupB : List (ℕ × ℕ × ℕ) :=
  [(1, 1, 2), (1, 3, 4), (1, 5, 6), (1, 7, 8), (2, 2, 1), (2, 4, 3), (2, 6, 5), (2, 8, 7), (3, 1, 3), (3, 2, 4), (3, 5, 7), (3, 6, 8),
    (4, 3, 1), (4, 4, 2), (4, 7, 5), (4, 8, 6), (5, 3, 7), (5, 4, 8), (5, 1, 5), (5, 2, 6), (6, 7, 3), (6, 8, 4), (6, 5, 1), (6, 6, 2)].map
    (fun r => (r.1, r.2.1 - 1, r.2.2 - 1))

/-- The offsets of the children's centres, `subdivide_quad.py:128-151`. -/
def quadOffsets (dim : ℕ) : List (List Int) :=
  if dim = 2 then [[-1, -1], [1, -1], [-1, 1], [1, 1]]
  else [[-1, -1, -1], [1, -1, -1], [-1, 1, -1], [1, 1, -1], [-1, -1, 1], [1, -1, 1], [-1, 1, 1], [1, 1, 1]]

/-- `square_mat` of `subdivide_quad.py:169-174`. -/
def squareMat2 : List (List ℕ) := [[0, 2, 4, 0], [1, 0, 0, 4], [3, 0, 0, 2], [0, 3, 1, 0]]

/-- `square_mat`, `subdivide_quad.py:169-179`. -/
def squareMat (dim i j : ℕ) : ℕ :=
  let sq := fun i j => (squareMat2.getD i []).getD j 0
  if dim = 3 then
    if i < 4 then (if j < 4 then sq i j else if i = j - 4 then 6 else 0)
    else (if j < 4 then (if i - 4 = j then 5 else 0) else sq (i - 4) (j - 4))
  else sq i j

/-- `transpose_orientation` on one entry, `subdivide_quad.py:253-264`. -/
def oppCode (a : ℕ) : ℕ :=
  if a = 1 then 2 else if a = 2 then 1 else if a = 3 then 4 else if a = 4 then 3 else if a = 5 then 6 else if a = 6 then 5 else a

/-- `a_ind.nonzero()[0]` for the column `A[:,ind]` of an `n × n` matrix (lines 182, 242). -/
def quadNeighbors (A : ℕ → ℕ → ℕ) (n ind : ℕ) : List ℕ := (List.range n).filter (fun j => A j ind != 0)

/-- `CH[q,1]==-1` (`none`: `IndexError`). -/
def isLeafCell {K : Type} {dim : ℕ} (c : QuadCell K dim) : Bool := c.CH[1]? == some (-1)

section
variable {K : Type} {dim : ℕ}

/-- The `while` loop of `subdivide_quad.py:220-224`; `none` = failed assertion, or not done within `fuel` rounds (the assertion of line 222
makes `n_depth` decrease in every round, so `n_depth` rounds are enough). -/
def quadClimb (cells : List (QuadCell K dim)) (d : ℕ) : ℕ → Int → ℕ → Int → Option (Int × Int)
  | fuel, nInd, nDepth, nPar =>
    if nDepth > d + 1 then
      match fuel with
      | 0 => none
      | fuel + 1 => do
        let c ← npGet? cells nPar                                     -- line 221
        if nDepth ≠ c.D + 1 then none else                            -- line 222
        quadClimb cells d fuel nPar c.D c.PAR                         -- lines 223-224
    else some (nInd, nPar)

/-- The rows, columns and value that the neighbour `nb` with code `wh = A[nb,ind]` adds to `rect_mat`, `subdivide_quad.py:186-233`: the row is
`nb`, the value is `wh`, the columns are returned.  `d` is the depth of the cell being subdivided. -/
def quadRect (cells : List (QuadCell K dim)) (d nb wh : ℕ) : Option (List ℕ) := do
  let c ← cells[nb]?
  if c.D ≤ d then                                                     -- line 197
    let r ← lookupA.lookup wh                                         -- line 204
    some (r.take (2 ^ (dim - 1)))
  else
    let p ← quadClimb cells d c.D nb c.D c.PAR                        -- lines 217-224
    let par ← npGet? cells p.2
    match (List.range par.CH.length).filter (fun k => par.CH[k]? == some p.1) with       -- line 225
    | [wc] =>
      if d ≠ par.D then none else                                     -- line 228
      match (lookupB.filter (fun r => r.1 == wh && r.2.1 == wc)).map (fun r => r.2.2) with     -- lines 231-232
      | [k] => some [k]
      | _ => none
    | _ => none

/-- Entry `(i,k)` of the sum of the matrices `csr_matrix((vals,(J,I)))` of line 233: `trips` are the `(row, columns, value)`. -/
def rectGet (trips : List (ℕ × List ℕ × ℕ)) (i k : ℕ) : ℕ :=
  ((trips.filter (fun t => t.1 == i)).map (fun t => t.2.1.count k * t.2.2)).sum

variable [Field K]

/-- The new rows, `subdivide_quad.py:128-165`. -/
def quadChild (c : QuadCell K dim) (ind k : ℕ) : QuadCell K dim :=
  { C := fun j => c.C j + 1 / 4 * c.W * ((((quadOffsets dim).getD k []).getD j 0 : Int) : K)
    W := 1 / 2 * c.W
    CH := List.replicate (2 ^ dim) (-1)
    PAR := ind
    D := c.D + 1 }

/-- `subdivide_quad(ind,...,graded=False)`: `subdivide_quad.py:116-237`. -/
def subdivideOnce (Q : Quad K dim) (ind : ℕ) : Option (Quad K dim) := do
  let c ← Q.cells[ind]?
  if ¬ isLeafCell c then none else                                    -- line 116
  let n := Q.cells.length
  let trips ← (quadNeighbors Q.A n ind).mapM (fun nb =>
    (quadRect Q.cells c.D nb (Q.A nb ind)).map (fun I => (nb, I, Q.A nb ind)))         -- lines 182-233
  let parent := { c with CH := (List.range (2 ^ dim)).map (fun k : ℕ => ((n + k : ℕ) : Int)) }      -- line 162
  some {
    cells := Q.cells.set ind parent ++ (List.range (2 ^ dim)).map (quadChild c ind)     -- lines 128-165
    A := fun i j =>                                                   -- lines 234-237
      if i < n then (if j < n then Q.A i j else rectGet trips i (j - n))
      else (if j < n then oppCode (rectGet trips j (i - n)) else squareMat dim (i - n) (j - n)) }

/-- `subdivide_quad(ind,C1,W1,CH1,PAR1,D1,A1,graded)`, `subdivide_quad.py:116-248`; `fuel` bounds the depth of the recursion. -/
def subdivideQuad (graded : Bool) : ℕ → Quad K dim → ℕ → Option (Quad K dim)
  | 0, _, _ => none
  | fuel + 1, Q, ind => do
    let c ← Q.cells[ind]?
    let Q2 ← subdivideOnce Q ind
    if graded then
      (quadNeighbors Q2.A Q2.cells.length ind).foldlM (fun Q' nb => do              -- lines 240-243
        let b ← Q'.cells[nb]?
        if isLeafCell b && decide (b.D < c.D) then subdivideQuad graded fuel Q' nb  -- lines 244-247
        else some Q') Q2
    else some Q2

/-- `subdivide_quad(ind,C1,W1,CH1,PAR1,D1,A1,graded)`: the recursion is at most as deep as the cell (`C20_recursion_depth`). -/
def subdivideQuadTop (graded : Bool) (Q : Quad K dim) (ind : ℕ) : Option (Quad K dim) := do
  let c ← Q.cells[ind]?
  subdivideQuad graded (c.D + 1) Q ind

variable [LinearOrder K]

/-- `is_in_quad` for one query point (`in_quadtree.py:87-94`, `initialize_quadtree.py:90-97`). -/
def isInQuad (p : Fin dim → K) (c : QuadCell K dim) : Bool :=
  decide (∀ j, c.C j - c.W * (1 / 2) ≤ p j ∧ p j ≤ c.C j + c.W * (1 / 2))

/-- The root cell, `initialize_quadtree.py:63-70`. -/
def quadInit (c0 : Fin dim → K) (w0 : K) : Quad K dim :=
  { cells := [{ C := c0, W := w0, CH := List.replicate (2 ^ dim) (-1), PAR := -1, D := 1 }], A := fun _ _ => 0 }

/-- The loop of `initialize_quadtree.py:74-83`. -/
def quadLoop (P : List (Fin dim → K)) (maxDepth minDepth : ℕ) (graded : Bool) : ℕ → ℕ → Quad K dim → Option (Quad K dim)
  | fuel, i, Q =>
    if Q.cells.length ≤ i then some Q
    else match fuel with
    | 0 => none
    | fuel + 1 => do
      let c ← Q.cells[i]?
      if (decide (c.D < minDepth) || P.any (fun p => isInQuad p c)) && decide (c.D < maxDepth) && isLeafCell c then do
        let Q' ← subdivideQuadTop graded Q i
        quadLoop P maxDepth minDepth graded fuel (i + 1) Q'
      else quadLoop P maxDepth minDepth graded fuel (i + 1) Q

/-- `np.amin(P,axis=0)`, `np.amax(P,axis=0)` for a nonempty list of points. -/
def colMin (p : Fin dim → K) (P : List (Fin dim → K)) : Fin dim → K := fun j => P.foldl (fun acc x => min acc (x j)) (p j)
def colMax (p : Fin dim → K) (P : List (Fin dim → K)) : Fin dim → K := fun j => P.foldl (fun acc x => max acc (x j)) (p j)

/-- `initialize_quadtree(P,max_depth,min_depth,graded,vmin,vmax)`, `initialize_quadtree.py:58-84`. -/
def initializeQuadtree [NeZero dim] (P : List (Fin dim → K)) (maxDepth minDepth : ℕ) (graded : Bool)
    (vmin vmax : Option (Fin dim → K)) (fuel : ℕ) : Option (Quad K dim) := do
  let lo ← vmin <|> (match P with | [] => none | p :: P => some (colMin p P))       -- lines 59-60
  let hi ← vmax <|> (match P with | [] => none | p :: P => some (colMax p P))       -- lines 61-62
  let w := (List.finRange dim).foldl (fun acc j => max acc (hi j - lo j)) (hi 0 - lo 0)      -- line 66
  quadLoop P maxDepth minDepth graded fuel 0 (quadInit (fun j => (lo j + hi j) / 2) w)

/-- `CH[q,4]`, …, `CH[q,7]` in three dimensions (`in_quadtree.py:72-76`). -/
def octRest (dim : ℕ) (CH : List Int) : Option (List Int) := if dim = 3 then [4, 5, 6, 7].mapM (fun k : ℕ => CH[k]?) else some []

/-- The loop of `in_quadtree.py:53-76`: `(i, others)`. -/
def inQuadtreeLoop (p : Fin dim → K) (Q : Quad K dim) : ℕ → List Int → List Int → Option (Int × List Int)
  | _, [], others => some (-1, others)
  | 0, _ :: _, _ => none
  | fuel + 1, q :: queue, others => do
    let c ← npGet? Q.cells q
    if isInQuad p c then
      if isLeafCell c then some (q, others ++ [q])
      else do
        let k4 ← [0, 1, 2, 3].mapM (fun k : ℕ => c.CH[k]?)            -- lines 68-71
        let k8 ← octRest dim c.CH                                      -- lines 72-76
        inQuadtreeLoop p Q fuel (queue ++ k4 ++ k8) (others ++ [q])
    else inQuadtreeLoop p Q fuel queue others

/-- `in_quadtree(point,C,W,CH)`, `in_quadtree.py:48-77`. -/
def inQuadtree (p : Fin dim → K) (Q : Quad K dim) (fuel : ℕ) : Option (Int × List Int) := inQuadtreeLoop p Q fuel [0] []

/-- `quadtree_children(CH)`, `quadtree_children.py:44`. -/
def quadtreeChildren (Q : Quad K dim) : List ℕ :=
  (List.range Q.cells.length).filter (fun i => match Q.cells[i]? with | some c => (match c.CH[0]? with | some x => decide (x < 0) | none => false) | none => false)

/-- `quadtree_boundary(CH,A)`, `quadtree_boundary.py:56-73`: `(children_boundary, other_boundary)`. -/
def quadtreeBoundary (Q : Quad K dim) : List ℕ × List ℕ :=
  let n := Q.cells.length
  let other := (List.range n).filter (fun i => [1, 2, 3, 4].any (fun j => (List.range n).all (fun k => Q.A i k != j)))
  (other.filter (fun i => match Q.cells[i]? with | some c => c.CH[0]? == some (-1) | none => false), other)

end
end Gpy
