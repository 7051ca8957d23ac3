import Verif.Model.DualGrid

/-!
# From cells to a mesh: `extract_mesh_from_cells`, `contouring.cpp:472-727`

The overload of lines 472-727, which is the one `contouring` calls.  Cells are addressed by `cellIndex3D`; the loops over cells are in the order of their indices.
-/

set_option autoImplicit false
namespace Gpy.Dual

noncomputable section
open Classical

/-- a row of `F` -/
structure Quad where
  a : ℕ
  b : ℕ
  c : ℕ
  d : ℕ
deriving DecidableEq

/-- `verts` and `cellVertexIndex`, `contouring.cpp:494-516`; `none` is `-1` -/
def collect (cells : List Cell) : List (Pt 3) × List (Option ℕ) :=
  cells.foldl (fun s c => if c.has then (s.1 ++ [c.vertex], s.2 ++ [some s.1.length]) else (s.1, s.2 ++ [none])) ([], [])

/-- `getCellVert`, `contouring.cpp:528-534` -/
def getCellVert (g : Grid) (index : List (Option ℕ)) (i j k : ℕ) : Option ℕ :=
  if i < g.nx - 1 ∧ j < g.ny - 1 ∧ k < g.nz - 1 then index.getD (cellIdx g.nx g.ny i j k).toNat none else none

/-- `is_point_on_edge`, `contouring.cpp:451-469` -/
def isPointOnEdge (p v0 v1 : Pt 3) : Bool :=
  let edge := v1 - v0
  if psq edge < 1 / 10 ^ 12 then decide (pnorm (p - v0) < 1 / 10 ^ 6)
  else
    let t := pdot (p - v0) edge / psq edge
    if t < -(1 / 1000) ∨ 1001 / 1000 < t then false
    else decide (pnorm (p - (v0 + t • edge)) < 1 / 10 ^ 6)

/-- `find_and_push_hermite_normal_for_edge`, `contouring.cpp:545-585`, for a cell within bounds: `none` is the exception of lines 578-582.  The normal itself is stored, but never read. -/
def hasNormal (cells : List Cell) (g : Grid) (x0 x1 : Pt 3) (i j k : ℕ) : Option Unit :=
  match cells[(cellIdx g.nx g.ny i j k).toNat]? with
  | none => none
  | some c => if (List.range 12).any (fun e => match c.pos e with | some p => isPointOnEdge p x0 x1 | none => false) then some () else none

/-- does the winding have to be flipped?  `contouring.cpp:612-629` -/
def flipped (V : List (Pt 3)) (n : Pt 3) (q : Quad) : Bool :=
  let pa := V.getD q.a 0
  let pb := V.getD q.b 0
  let pc := V.getD q.c 0
  let pd := V.getD q.d 0
  let m := cross3 (pb - pa) (pd - pa)
  let m := if psq m < 1 / 10 ^ 24 then cross3 (pc - pa) (pd - pa) else m
  decide (0 < psq n ∧ 0 < psq m ∧ pdot m n < 0)

/-- the edge of the grid from `(i,j,k)` to `(i',j',k')` with the four cells around it, `contouring.cpp:600-634` (and `:644-672`, `:682-710`).  `none`: an exception; `some none`: no quad. -/
def quadAt (g : Grid) (cells : List Cell) (V : List (Pt 3)) (index : List (Option ℕ)) (u u' : ℕ × ℕ × ℕ) (c0 c1 c2 c3 : ℕ × ℕ × ℕ) : Option (Option Quad) :=
  if g.s u.1 u.2.1 u.2.2 * g.s u'.1 u'.2.1 u'.2.2 < 0 then
    match getCellVert g index c0.1 c0.2.1 c0.2.2, getCellVert g index c1.1 c1.2.1 c1.2.2, getCellVert g index c2.1 c2.2.1 c2.2.2, getCellVert g index c3.1 c3.2.1 c3.2.2 with
    | some a, some b, some c, some d =>
      let n := gradientAt g u.1 u.2.1 u.2.2 + gradientAt g u'.1 u'.2.1 u'.2.2
      let q : Quad := ⟨a, b, c, d⟩
      (hasNormal cells g (g.x u.1 u.2.1 u.2.2) (g.x u'.1 u'.2.1 u'.2.2) c0.1 c0.2.1 c0.2.2).map (fun _ => some (if flipped V n q then ⟨a, d, c, b⟩ else q))
    | _, _, _, _ => some none
  else some none

/-- the edges along the first axis with the cells around them, in the order of the loops, `contouring.cpp:596-608` -/
def edgesX (g : Grid) : List ((ℕ × ℕ × ℕ) × (ℕ × ℕ × ℕ) × (ℕ × ℕ × ℕ) × (ℕ × ℕ × ℕ) × (ℕ × ℕ × ℕ) × (ℕ × ℕ × ℕ)) :=
  (List.range (g.nx - 1)).flatMap (fun i => (List.range' 1 (g.ny - 2)).flatMap (fun j => (List.range' 1 (g.nz - 2)).map (fun k =>
    ((i, j, k), (i + 1, j, k), (i, j - 1, k - 1), (i, j, k - 1), (i, j, k), (i, j - 1, k)))))

/-- the edges along the second axis, `contouring.cpp:640-651` -/
def edgesY (g : Grid) : List ((ℕ × ℕ × ℕ) × (ℕ × ℕ × ℕ) × (ℕ × ℕ × ℕ) × (ℕ × ℕ × ℕ) × (ℕ × ℕ × ℕ) × (ℕ × ℕ × ℕ)) :=
  (List.range' 1 (g.nx - 2)).flatMap (fun i => (List.range (g.ny - 1)).flatMap (fun j => (List.range' 1 (g.nz - 2)).map (fun k =>
    ((i, j, k), (i, j + 1, k), (i - 1, j, k - 1), (i, j, k - 1), (i, j, k), (i - 1, j, k)))))

/-- the edges along the third axis, `contouring.cpp:678-689` -/
def edgesZ (g : Grid) : List ((ℕ × ℕ × ℕ) × (ℕ × ℕ × ℕ) × (ℕ × ℕ × ℕ) × (ℕ × ℕ × ℕ) × (ℕ × ℕ × ℕ) × (ℕ × ℕ × ℕ)) :=
  (List.range' 1 (g.nx - 2)).flatMap (fun i => (List.range' 1 (g.ny - 2)).flatMap (fun j => (List.range (g.nz - 1)).map (fun k =>
    ((i, j, k), (i, j, k + 1), (i - 1, j - 1, k), (i, j - 1, k), (i, j, k), (i - 1, j, k)))))

/-- `extract_mesh_from_cells`, `contouring.cpp:472-727`; `none`: an exception -/
def extract (g : Grid) (cells : List Cell) : Option (List (Pt 3) × List Quad) :=
  let r := collect cells
  ((edgesX g ++ edgesY g ++ edgesZ g).mapM (fun e => quadAt g cells r.1 r.2 e.1 e.2.1 e.2.2.1 e.2.2.2.1 e.2.2.2.2.1 e.2.2.2.2.2)).map (fun q => (r.1, q.reduceOption))

end

end Gpy.Dual
