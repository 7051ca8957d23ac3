import Verif.Model.DualRefine

/-!
# Hermite data shared by cells: `hermite_update.cpp`

`compute_local_mesh` is not called; `edge_ordinal`, `V_global`, `F_global` are not read.
-/

set_option autoImplicit false
namespace Gpy.Dual

noncomputable section
open Classical

/-- `get_corner_offsets`, `hermite_update.cpp:28-33` -/
def cornerOffset (c : ℕ) : ℤ × ℤ × ℤ := (if c % 4 = 1 ∨ c % 4 = 2 then 1 else 0, if c % 4 = 2 ∨ c % 4 = 3 then 1 else 0, if 4 ≤ c then 1 else 0)

/-- `get_edge_idx_from_grid_vertices`, `hermite_update.cpp:35-85`, for the offsets of the two grid vertices within the cell; `none` is `-1` -/
def edgeOfOffsets (o0 o1 : ℤ × ℤ × ℤ) : Option ℕ :=
  (List.range 12).find? (fun e =>
    let a := cornerOffset (edgePairs.getD e (0, 0)).1
    let b := cornerOffset (edgePairs.getD e (0, 0)).2
    decide (o0 = a ∧ o1 = b ∨ o0 = b ∧ o1 = a))

/-- the same for a cell and two grid vertices -/
def edgeOfVerts (c : Cell) (u u' : ℕ × ℕ × ℕ) : Option ℕ :=
  edgeOfOffsets ((u.1 : ℤ) - c.ix, (u.2.1 : ℤ) - c.iy, (u.2.2 : ℤ) - c.iz) ((u'.1 : ℤ) - c.ix, (u'.2.1 : ℤ) - c.iy, (u'.2.2 : ℤ) - c.iz)

/-- `get_face_normals_from_edge_idx`, `Cell.cpp:8-27` -/
def edgeFaces : List (ℕ × ℕ) := [(3, 5), (0, 5), (2, 5), (1, 5), (3, 4), (0, 4), (2, 4), (1, 4), (1, 3), (0, 3), (0, 2), (1, 2)]

/-- `inside_grid`, `hermite_update.cpp:182-186` -/
def insideGrid (g : Grid) (u : ℕ × ℕ × ℕ) : Prop := 0 < u.1 ∧ u.1 < g.nx - 1 ∧ 0 < u.2.1 ∧ u.2.1 < g.ny - 1 ∧ 0 < u.2.2 ∧ u.2.2 < g.nz - 1

/-- `process_edge`, `hermite_update.cpp:165-332`: the four cells around an edge and the number of the edge in each, or nothing.  (The indices of edges that are not found would be `-1`.) -/
def processEdge (g : Grid) (cells : List Cell) (u u' : ℕ × ℕ × ℕ) : Option (List (ℕ × Option ℕ)) :=
  if ¬ insideGrid g u ∧ ¬ insideGrid g u' then none
  else
    let ci := cellIdx g.nx g.ny u.1 u.2.1 u.2.2
    if ci < 0 ∨ (cells.length : ℤ) ≤ ci then none
    else match cells[ci.toNat]? with
      | none => none
      | some cell =>
        match edgeOfVerts cell u u' with
        | none => none
        | some e =>
          match cell.pos e with
          | none => none
          | some _ =>
            let d1 := dirs.getD (edgeFaces.getD e (0, 0)).1 (0, 0, 0)
            let d2 := dirs.getD (edgeFaces.getD e (0, 0)).2 (0, 0, 0)
            let n1 := cellIdx g.nx g.ny (cell.ix + d1.1) (cell.iy + d1.2.1) (cell.iz + d1.2.2)
            let n2 := cellIdx g.nx g.ny (cell.ix + d2.1) (cell.iy + d2.2.1) (cell.iz + d2.2.2)
            let n3 := cellIdx g.nx g.ny (cell.ix + d1.1 + d2.1) (cell.iy + d1.2.1 + d2.2.1) (cell.iz + d1.2.2 + d2.2.2)
            if n1 < 0 ∨ (cells.length : ℤ) ≤ n1 ∨ n2 < 0 ∨ (cells.length : ℤ) ≤ n2 ∨ n3 < 0 ∨ (cells.length : ℤ) ≤ n3 then none
            else match cells[n1.toNat]?, cells[n2.toNat]?, cells[n3.toNat]? with
              | some a1, some a2, some a3 =>
                if cell.has ∧ a1.has ∧ a2.has ∧ a3.has then
                  some [(ci.toNat, edgeOfVerts cell u u'), (n1.toNat, edgeOfVerts a1 u u'), (n2.toNat, edgeOfVerts a2 u u'), (n3.toNat, edgeOfVerts a3 u u')]
                else none
              | _, _, _ => none

/-- the edges of the grid in the order of the loops, `hermite_update.cpp:354-402` and `:466-514` -/
def allEdges (g : Grid) : List ((ℕ × ℕ × ℕ) × (ℕ × ℕ × ℕ)) :=
  (List.range g.nz).flatMap (fun k => (List.range g.ny).flatMap (fun j => (List.range g.nx).flatMap (fun i =>
    (if i < g.nx - 1 then [((i, j, k), (i + 1, j, k))] else []) ++ (if j < g.ny - 1 then [((i, j, k), (i, j + 1, k))] else []) ++
      (if k < g.nz - 1 then [((i, j, k), (i, j, k + 1))] else []))))

/-- `edge_cells` and `edge_local_edge_idxs` -/
def edgeCells (g : Grid) (cells : List Cell) : List (List (ℕ × Option ℕ)) := (allEdges g).filterMap (fun p => processEdge g cells p.1 p.2)

/-- write one entry of the Hermite normals of cell `ci` -/
def setNormal (n : Pt 3) (cells : List Cell) (s : ℕ × Option ℕ) : List Cell :=
  match s.2 with
  | none => cells
  | some e => cells.modify s.1 (fun c => { c with nrm := Function.update c.nrm e (some n) })

/-- `avg_normal` of the loop `hermite_update.cpp:410-439` as a list: the normals that are not zero; a normal that is missing would be an uninitialised vector -/
def normalsOf (cells : List Cell) (l : List (ℕ × Option ℕ)) : List (Pt 3) := l.filterMap (fun s => match s.2, cells[s.1]? with
    | some e, some c => if 0 < pnorm ((c.nrm e).getD 0) then some ((c.nrm e).getD 0) else none
    | _, _ => none)

/-- one round of the loop `hermite_update.cpp:410-439` -/
def averageOne (cells : List Cell) (l : List (ℕ × Option ℕ)) : List Cell :=
  if normalsOf cells l = [] then cells else l.foldl (setNormal (normalized (normalsOf cells l).sum)) cells

/-- `average_hermite_normals`, `hermite_update.cpp:334-440` -/
def averageNormals (g : Grid) (cells : List Cell) : List Cell := (edgeCells g cells).foldl averageOne cells

/-- the vertex of cell `n` -/
def vertexOf (cells : List Cell) (n : ℕ) : Pt 3 := match cells[n]? with
  | some c => c.vertex
  | none => 0

/-- the plane through four cell vertices, `hermite_update.cpp:516-563`: its normal (`pca` is the last column of `V` of the singular value decomposition) and its point; `s` is the first of the four cells with the edge -/
def edgePlane (pca : List (Pt 3) → Pt 3) (cells : List Cell) (l : List (ℕ × Option ℕ)) (c0 : Cell) (e0 : ℕ) : Pt 3 × Pt 3 :=
  let vs : List (Pt 3) := l.map (fun s => vertexOf cells s.1)
  let m := (1 / 4 : ℝ) • vs.sum
  let n := normalized (pca (vs.map (fun v => v - m)))
  let a := (edgePairs.getD e0 (0, 0)).1
  let b := (edgePairs.getD e0 (0, 0)).2
  let dir := (if c0.sdf a < 0 then (-1 : ℝ) else 1) • normalized (c0.corners b - c0.corners a)
  (if 0 < pdot n dir then -n else n, m)

/-- the new normal of one of the four cells, `hermite_update.cpp:567-584` -/
def blendNormal (w : ℝ) (n : Pt 3) (cells : List Cell) (s : ℕ × Option ℕ) : List Cell :=
  match s.2 with
  | none => cells
  | some e => cells.modify s.1 (fun c => match c.nrm e with
    | none => c
    | some old => if 0 < pnorm n then { c with nrm := Function.update c.nrm e (some (normalized ((1 - w) • old + w • n))) } else c)

/-- the new position in one of the four cells, `hermite_update.cpp:605-611`; a missing position would be an uninitialised vector -/
def blendPos (w : ℝ) (x : Pt 3) (cells : List Cell) (s : ℕ × Option ℕ) : List Cell :=
  match s.2 with
  | none => cells
  | some e => cells.modify s.1 (fun c => { c with pos := Function.update c.pos e (some ((1 - w) • (c.pos e).getD 0 + w • x)) })

/-- where the edge meets the plane, `hermite_update.cpp:586-603` -/
def planeHit (c0 : Cell) (e0 : ℕ) (n m : Pt 3) : Option (Pt 3) :=
  let pA := c0.corners (edgePairs.getD e0 (0, 0)).1
  let pB := c0.corners (edgePairs.getD e0 (0, 0)).2
  let dir := normalized (pB - pA)
  let denom := pdot n dir
  if 1 / 10 ^ 6 < |denom| then
    let t := pdot n (m - pA) / denom
    if t < 0 ∨ pnorm (pB - pA) < t then none else some (pA + max 0 (min t (pnorm (pB - pA))) • dir)
  else none

/-- one round of the loop `hermite_update.cpp:516-614` -/
def updateOne (pca : List (Pt 3) → Pt 3) (wn wp : ℝ) (cells : List Cell) (l : List (ℕ × Option ℕ)) : List Cell :=
  match l.head? with
  | some (ci, some e0) =>
    match cells[ci]? with
    | none => cells
    | some c0 =>
      let r := edgePlane pca cells l c0 e0
      let cells' := l.foldl (blendNormal wn r.1) cells
      match planeHit c0 e0 r.1 r.2 with
      | none => cells'
      | some x => l.foldl (blendPos wp x) cells'
  | _ => cells

/-- `update_hermite_points_and_normals`, `hermite_update.cpp:443-615`, with `update_points_too` -/
def updateHermite (pca : List (Pt 3) → Pt 3) (wn wp : ℝ) (g : Grid) (cells : List Cell) : List Cell := (edgeCells g cells).foldl (updateOne pca wn wp) cells

end

end Gpy.Dual
