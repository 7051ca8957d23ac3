import Verif.Np.Basic
import Mathlib.Algebra.BigOperators.Group.List.Basic

/-! `grid_neighbors.py`. -/

set_option autoImplicit false

namespace Np

/-- `np.unravel_index(c, gs, order='F')`: the first index runs fastest. -/
def unravelF : List ℕ → ℕ → List ℕ
  | [], _ => []
  | g :: gs, c => c % g :: unravelF gs (c / g)

/-- `np.ravel_multi_index(idx, dims=gs, mode='wrap', order='F')`. -/
def ravelWrapF : List ℕ → List ℤ → ℕ
  | g :: gs, i :: is => (i % (g : ℤ)).toNat + g * ravelWrapF gs is
  | _, _ => 0

end Np

namespace Gpy
open Np

/-- One row of the arrays `neighbor_rows` and `out_of_bounds`, as functions of the column (= cell).  The arrays have one column per cell
throughout (`grid_neighbors.py:39`). -/
structure GRow where
  nb : ℕ → ℕ
  oob : ℕ → Bool

/-- the offsets `(dy,dx)` of the rows of `neigh_idy`, `neigh_idx` in 2D, `grid_neighbors.py:43-50`. -/
def gnOffs2 (diag self : Bool) : List (List ℤ) :=
  (if self then [[0, 0]] else []) ++ [[0, -1], [0, 1], [-1, 0], [1, 0]] ++
    (if diag then [[-1, -1], [1, -1], [-1, 1], [1, 1]] else [])

/-- the offsets `(dz,dy,dx)` in 3D, `grid_neighbors.py:58-78`. -/
def gnOffs3 (diag self : Bool) : List (List ℤ) :=
  (if self then [[0, 0, 0]] else []) ++ [[0, 0, -1], [0, 0, 1], [0, -1, 0], [0, 1, 0], [-1, 0, 0], [1, 0, 0]] ++
    (if diag then
      [[-1, -1, -1], [0, -1, -1], [1, -1, -1], [-1, 0, -1], [1, 0, -1], [-1, 1, -1], [0, 1, -1], [1, 1, -1],
       [-1, -1, 0], [1, -1, 0], [-1, 1, 0], [1, 1, 0],
       [-1, -1, 1], [0, -1, 1], [1, -1, 1], [-1, 0, 1], [1, 0, 1], [-1, 1, 1], [0, 1, 1], [1, 1, 1]] else [])

/-- some coordinate is out of the grid, `grid_neighbors.py:52` and `:80` -/
def gnOut : List ℕ → List ℤ → Bool
  | g :: gs, i :: is => decide (i < 0) || decide ((g : ℤ) ≤ i) || gnOut gs is
  | _, _ => false

/-- one row, `grid_neighbors.py:42-55` and `:57-81` -/
def gnRow (gs : List ℕ) (off : List ℤ) : GRow :=
  let idx : ℕ → List ℤ := fun c => List.zipWith (fun (i : ℕ) (o : ℤ) => (i : ℤ) + o) (unravelF gs c) off
  ⟨fun c => ravelWrapF gs (idx c), fun c => gnOut gs (idx c)⟩

/-- body of the `while`, `grid_neighbors.py:87-101` -/
def gnStep (rows : List GRow) : List GRow :=
  rows ++ rows.flatMap (fun ri => rows.map (fun rk => ⟨fun c => rk.nb (ri.nb c), fun c => ri.oob c || rk.oob (ri.nb c)⟩))

/-- `current_order = 1; while current_order < order: …`, `grid_neighbors.py:84-104` -/
def gnLoop : ℕ → List GRow → List GRow
  | 0, rows => rows
  | n + 1, rows => gnLoop n (gnStep rows)

/-- `grid_neighbors(gs,order,include_diagonals,include_self,output_unique)`, `grid_neighbors.py:38-114`, as the list of the rows of `N`, each
a function of the cell.  `none`: neither 2 nor 3 dimensions (`UnboundLocalError`). -/
def gridNeighbors (gs : List ℕ) (order : ℕ) (diag self uniq : Bool) : Option (List (ℕ → ℤ)) := do
  let offs ← if gs.length = 2 then some (gnOffs2 diag self) else if gs.length = 3 then some (gnOffs3 diag self) else none
  let rows := gnLoop (order - 1) (offs.map (gnRow gs))
  let rows := if uniq then (npUniqueIndex (rows.map (fun r => r.nb 0))).filterMap (fun k => rows[k]?) else rows     -- lines 106-109
  some (rows.map (fun r c => if r.oob c then -1 else (r.nb c : ℤ)))                                            -- lines 112-114

end Gpy
