import Verif.Model.RemoveDuplicate

/-! # `marching_squares.py` -/

set_option autoImplicit false
namespace Gpy
open Np

variable {K : Type} [Field K] [LinearOrder K]

/-- The case number of a cell, `marching_squares.py:70-78`. -/
def msCase (a b c d : K) : ℕ :=
  (if 0 < a then 1 else 0) + (if 0 < b then 2 else 0) + (if 0 < c then 4 else 0) + (if 0 < d then 8 else 0)

/-- One cell, `marching_squares.py:65-178`: the vertices appended and the edges appended, an edge as the two numbers `(p,q)` standing for
    `[len(verts)-p, len(verts)-q]`.  `a b c d` are the samples at the corners `(i,j) (i+1,j) (i+1,j+1) (i,j+1)`. -/
def msCell (i j a b c d : K) : List (K × K) × List (ℕ × ℕ) :=
  let flip : Bool := decide (7 < msCase a b c d)                           -- lines 80-83
  let k := if flip then 15 - msCase a b c d else msCase a b c d
  let bottom : K × K := (i - a / (b - a), j)
  let left : K × K := (i, j - a / (d - a))
  let right : K × K := (i + 1, j - b / (c - b))
  let top : K × K := (i - d / (c - d), j + 1)
  let e := fun (p q : ℕ) => if flip then (q, p) else (p, q)
  match k with
  | 1 => ([bottom, left], [e 1 2])                                          -- lines 86-98
  | 2 => ([bottom, right], [e 2 1])                                         -- lines 99-110
  | 3 => ([left, right], [e 2 1])                                           -- lines 111-121
  | 4 => ([right, top], [e 2 1])                                            -- lines 122-132
  | 5 => ([bottom, left, right, top], [e 3 4, e 2 1])                       -- lines 133-154
  | 6 => ([bottom, top], [e 2 1])                                           -- lines 155-165
  | 7 => ([top, left], [e 1 2])                                             -- lines 166-176
  | _ => ([], [])

/-- `S = np.reshape(S,(nx,ny),order='F')`, `S[i,j]`, `marching_squares.py:57` -/
def msSample (S : List K) (nx i j : ℕ) : K := S.getD (i + nx * j) 0

/-- The cells in the order of the two loops, `marching_squares.py:62-63`. -/
def msCells (nx ny : ℕ) : List (ℕ × ℕ) := (List.range (nx - 1)).flatMap (fun i => (List.range (ny - 1)).map (fun j => (i, j)))

/-- what cell `(i,j)` appends -/
def msCellAt (S : List K) (nx : ℕ) (ij : ℕ × ℕ) : List (K × K) × List (ℕ × ℕ) :=
  msCell (ij.1 : K) (ij.2 : K) (msSample S nx ij.1 ij.2) (msSample S nx (ij.1 + 1) ij.2) (msSample S nx (ij.1 + 1) (ij.2 + 1))
    (msSample S nx ij.1 (ij.2 + 1))

/-- One pass of the loop body: append. -/
def msStep (S : List K) (nx : ℕ) (s : List (K × K) × List (ℕ × ℕ)) (ij : ℕ × ℕ) : List (K × K) × List (ℕ × ℕ) :=
  let o := msCellAt S nx ij
  let verts := s.1 ++ o.1
  (verts, s.2 ++ o.2.map (fun e => (verts.length - e.1, verts.length - e.2)))

/-- `verts` and `edge_list` after the loops, `marching_squares.py:59-178`. -/
def msLoop (S : List K) (nx ny : ℕ) : List (K × K) × List (ℕ × ℕ) := (msCells nx ny).foldl (msStep S nx) ([], [])

/-- `GV.min(axis=0)` of a nonempty array -/
def gvMin : List (K × K) → K × K
  | [] => (0, 0)
  | p :: ps => ps.foldl (fun m q => (min m.1 q.1, min m.2 q.2)) p

/-- `GV.max(axis=0)` of a nonempty array -/
def gvMax : List (K × K) → K × K
  | [] => (0, 0)
  | p :: ps => ps.foldl (fun m q => (max m.1 q.1, max m.2 q.2)) p

/-- Lines 199-201: from grid coordinates to the bounding box of `GV`. -/
def msPlace (GV : List (K × K)) (nx ny : ℕ) (v : List K) : List K :=
  [v.getD 0 0 / ((nx : K) - 1) * ((gvMax GV).1 - (gvMin GV).1) + (gvMin GV).1,
   v.getD 1 0 / ((ny : K) - 1) * ((gvMax GV).2 - (gvMin GV).2) + (gvMin GV).2]

variable [IsStrictOrderedRing K] [FloorRing K]

/-- `np.sqrt(np.finfo(np.float64).eps)` -/
def msEps : K := 1 / 2 ^ 26

/-- `marching_squares(S,GV,nx,ny)`, `marching_squares.py:57-203`; `none`: the sizes do not fit, or `GV` is empty. -/
def marchingSquares (S : List K) (GV : List (K × K)) (nx ny : ℕ) : Option (List (List K) × List (ℕ × ℕ)) :=
  if S.length ≠ nx * ny then none
  else
    let raw := msLoop S nx ny
    if raw.1 = [] then some ([], [])                                         -- lines 185-187
    else do
      let (verts, _, SVJ) ← removeDuplicateVertices (raw.1.map (fun p => [p.1, p.2])) msEps
      let edges ← raw.2.mapM (fun e => do some ((← SVJ[e.1]?), (← SVJ[e.2]?)))
      let edges := edges.filter (fun e => decide (e.1 ≠ e.2))                -- line 193
      if GV = [] then none else some (verts.map (msPlace GV nx ny), edges)

end Gpy
