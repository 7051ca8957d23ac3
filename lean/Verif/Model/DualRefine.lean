import Verif.Model.DualExtract
import Verif.Model.DualQef
import Mathlib.Algebra.Order.Floor.Ring
import Mathlib.Data.Real.Archimedean

/-!
# Spheres, points on faces of cells and the local mesh of a cell: `contouring.cpp:774-916,1064-1166` and `vertex_refinement.cpp`
-/

set_option autoImplicit false
namespace Gpy.Dual

noncomputable section
open Classical

/-- `orient_triangles_for_quad` for one triangle `(a,b,c)`, `contouring.cpp:26-72`: the second and third corner are swapped if the normal is opposite to the one of the quad -/
def orient (V : List (Pt 3)) (q : Quad) (t : ℕ × ℕ × ℕ) : ℕ × ℕ × ℕ :=
  let P := fun i : ℕ => V.getD i 0
  let n := cross3 (P q.b - P q.a) (P q.d - P q.a)
  let n := if psq n < 1 / 10 ^ 24 then cross3 (P q.c - P q.a) (P q.d - P q.a) else n
  if psq n < 1 / 10 ^ 24 then t
  else if pdot (cross3 (P t.2.1 - P t.1) (P t.2.2 - P t.1)) n < 0 then (t.1, t.2.2, t.2.1) else t

/-- `triangulate_v1`, `contouring.cpp:74-99` -/
def triangulate (V : List (Pt 3)) (F : List Quad) : List (ℕ × ℕ × ℕ) := F.flatMap (fun q => [orient V q (q.a, q.b, q.c), orient V q (q.a, q.c, q.d)])

/-- `GV.col(a).minCoeff()` and `maxCoeff()` of a grid that is not empty -/
def minCoeff (g : Grid) (a : Fin 3) : ℝ := ((g.GV.map (fun x => x a)).min?).getD 0
def maxCoeff (g : Grid) (a : Fin 3) : ℝ := ((g.GV.map (fun x => x a)).max?).getD 0

/-- `dx`, `dy`, `dz` of `cell_diagonal`, `contouring.cpp:781-783` -/
def spacing (g : Grid) : Pt 3 :=
  ![(maxCoeff g 0 - minCoeff g 0) / ((g.nx : ℝ) - 1), (maxCoeff g 1 - minCoeff g 1) / ((g.ny : ℝ) - 1), (maxCoeff g 2 - minCoeff g 2) / ((g.nz : ℝ) - 1)]

/-- `cell_diagonal`, `contouring.cpp:774-790` -/
def cellDiag (g : Grid) : ℝ := min (min (spacing g 0) (spacing g 1)) (spacing g 2) * Real.sqrt 3

/-- the samples that are used, `contouring.cpp:813-837`; `shuffle` is `std::shuffle` with a random device -/
def batch (shuffle : List ℕ → List ℕ) (g : Grid) (size : ℕ) : List ℕ :=
  let near := (List.range g.GV.length).filter (fun v => |g.S.getD v 0| < 3 * cellDiag g)
  let far := (List.range g.GV.length).filter (fun v => ¬ |g.S.getD v 0| < 3 * cellDiag g)
  near ++ (shuffle far).take (min size g.GV.length - near.length)

/-- the cell of a point, `contouring.cpp:878-888` -/
def cellOf (g : Grid) (C : Pt 3) : ℤ :=
  let w := fun (a : Fin 3) (n : ℕ) => max 0 (min ⌊(C a - minCoeff g a) / spacing g a⌋ ((n : ℤ) - 2))
  cellIdx g.nx g.ny (w 0 g.nx) (w 1 g.ny) (w 2 g.nz)

/-- the sphere of sample `v` and the cell it is assigned to, if any: `contouring.cpp:858-895`; `closest p` is the squared distance and the closest point of `igl::point_mesh_squared_distance` -/
def sphereOf (g : Grid) (closest : Pt 3 → ℝ × Pt 3) (v : ℕ) : Option (ℤ × Sphere) :=
  let sdf := g.S.getD v 0
  let r := closest (g.GV.getD v 0)
  if cellDiag g ≤ Real.sqrt r.1 - |sdf| then none
  else some (cellOf g r.2, ⟨|sdf|, if 0 ≤ sdf then 1 else -1, g.GV.getD v 0⟩)

/-- `assign_spheres_to_cells`, `contouring.cpp:793-916`; `sort` is `std::sort` by the radius -/
def assignSpheres (shuffle : List ℕ → List ℕ) (sort : List Sphere → List Sphere) (closest : List (Pt 3) → List (ℕ × ℕ × ℕ) → Pt 3 → ℝ × Pt 3) (g : Grid) (V : List (Pt 3)) (F : List Quad)
    (size : ℕ) (cells : List Cell) : List Cell :=
  if V = [] ∨ F = [] then cells
  else
    let new := (batch shuffle g size).filterMap (sphereOf g (closest V (triangulate V F)))
    cells.zipIdx.map (fun p => { p.1 with spheres := sort (p.1.spheres ++ (new.filter (fun s => s.1 = (p.2 : ℤ))).map (fun s => s.2)) })

/-- `dirs`, `contouring.cpp:1072-1076` and `hermite_update.cpp:241-245` -/
def dirs : List (ℤ × ℤ × ℤ) := [(1, 0, 0), (-1, 0, 0), (0, 1, 0), (0, -1, 0), (0, 0, 1), (0, 0, -1)]

/-- the axis of a direction -/
def dirAxis (d : ℕ) : Fin 3 := if d < 2 then 0 else if d < 4 then 1 else 2

/-- the point of the segment to the neighbour in direction `d` on the plane of the common face, `contouring.cpp:1115-1150` -/
def crossing (c : Cell) (nv : Pt 3) (d : ℕ) : Option (Pt 3) :=
  let a := dirAxis d
  let plane := if d % 2 = 0 then c.corners 6 a else c.corners 0 a
  let num := plane - c.vertex a
  let den := (nv - c.vertex) a
  if |den| < 1 / 10 ^ 9 then none
  else if -(1 / 10 ^ 6) ≤ num / den ∧ num / den ≤ 1 + 1 / 10 ^ 6 then some (c.vertex + (num / den) • (nv - c.vertex)) else none

/-- the neighbour in direction `d`, `contouring.cpp:1097-1113` -/
def neighbour (g : Grid) (cells : List Cell) (c : Cell) (d : ℕ) : Option Cell :=
  let o := dirs.getD d (0, 0, 0)
  let i := (c.ix : ℤ) + o.1
  let j := (c.iy : ℤ) + o.2.1
  let k := (c.iz : ℤ) + o.2.2
  if i < 0 ∨ (g.nx : ℤ) - 1 ≤ i ∨ j < 0 ∨ (g.ny : ℤ) - 1 ≤ j ∨ k < 0 ∨ (g.nz : ℤ) - 1 ≤ k then none
  else match cells[(cellIdx g.nx g.ny i j k).toNat]? with
    | none => none
    | some n => if n.has then some n else none

/-- `compute_face_cell_intersections`, `contouring.cpp:1064-1166`: the loop reads only vertices and writes only `face_intersections` of its own cell -/
def faceIntersections (g : Grid) (weight : ℝ) (cells : List Cell) : List Cell :=
  cells.map (fun c => if c.has then
      { c with fip := fun d => if d < 6 then
          (match (neighbour g cells c d).bind (fun n => crossing c n.vertex d) with
            | none => c.fip d
            | some x => match c.fip d with
              | none => some x
              | some y => some (weight • x + (1 - weight) • y))
        else c.fip d }
    else c)

/-- `FACE_CORNERS`, `vertex_refinement.cpp:14-21` -/
def faceCorners : List (List ℕ) := [[1, 5, 6, 2], [0, 3, 7, 4], [2, 6, 7, 3], [0, 4, 5, 1], [4, 7, 6, 5], [0, 1, 2, 3]]

/-- `get_edge_index`, `vertex_refinement.cpp:23-34` -/
def edgeIndex (a b : ℕ) : Option ℕ := (List.range 12).find? (fun e => edgePairs.getD e (0, 0) = (a, b) ∨ edgePairs.getD e (0, 0) = (b, a))

/-- the edges of face `d` in the order of `corner_pairs`, `vertex_refinement.cpp:237-246` -/
def faceEdges (d : ℕ) : List ℕ :=
  let f := fun i : ℕ => (faceCorners.getD d []).getD i 0
  [(f 0, f 1), (f 1, f 2), (f 2, f 3), (f 3, f 0)].filterMap (fun p => edgeIndex p.1 p.2)

/-- the triangles of the local mesh, `vertex_refinement.cpp:201-256`: the cell vertex, a Hermite point and a point on a face with that edge.  (The code stores the corners in a list and the triangles as indices into it.) -/
def localMesh (c : Cell) : List (Pt 3 × Pt 3 × Pt 3) :=
  (List.range 6).flatMap (fun d => match c.fip d with
    | none => []
    | some x => (faceEdges d).filterMap (fun e => (c.pos e).map (fun p => (c.vertex, p, x))))

/-- `compute_barycentric_coords`, `vertex_refinement.cpp:37-67` -/
def barycentric (P V0 V1 V2 : Pt 3) : ℝ × ℝ × ℝ :=
  let e1 := V1 - V0
  let e2 := V2 - V0
  let e := P - V0
  let d11 := pdot e1 e1
  let d12 := pdot e1 e2
  let d22 := pdot e2 e2
  let dP1 := pdot e e1
  let dP2 := pdot e e2
  let denom := d11 * d22 - d12 * d12
  if |denom| < 1 / 10 ^ 12 then (1, 0, 0)
  else
    let beta := (d22 * dP1 - d12 * dP2) / denom
    let gamma := (d11 * dP2 - d12 * dP1) / denom
    (1 - beta - gamma, beta, gamma)

/-- `compute_sphere_to_mesh_closest_points`, `vertex_refinement.cpp:107-195`; `query M c` is the triangle and the closest point of `igl::AABB::squared_distance` -/
def closestInfos (query : List (Pt 3 × Pt 3 × Pt 3) → Pt 3 → ℕ × Pt 3) (spheres : List Sphere) (M : List (Pt 3 × Pt 3 × Pt 3)) : List Info :=
  spheres.zipIdx.map (fun s =>
    let r := query M s.1.center
    let T := M.getD r.1 (0, 0, 0)
    let rho := pnorm (r.2 - s.1.center)
    let q := if rho < 1 / 10 ^ 9 then s.1.center else s.1.center + (s.1.radius / rho) • (r.2 - s.1.center)
    ⟨T.2.1, q, s.1.center, T.2.2, barycentric r.2 T.1 T.2.1 T.2.2, s.2⟩)

/-- `refine_vertex_from_face_intersections`, `vertex_refinement.cpp:198-277` -/
def refineVertex (query : List (Pt 3 × Pt 3 × Pt 3) → Pt 3 → ℕ × Pt 3) (c : Cell) : Cell :=
  if c.has = false ∨ localMesh c = [] then c else { c with infos := closestInfos query c.spheres (localMesh c) }

/-- the inner loop, `contouring.cpp:1262-1275` -/
def innerLoop (svd : Svd) (query : List (Pt 3 × Pt 3 × Pt 3) → Pt 3 → ℕ × Pt 3) (mu dcWeight threshold : ℝ) : ℕ → Cell → Cell
  | 0, c => c
  | n + 1, c =>
    let c := refineVertex query { c with prev := c.vertex }
    let c := if c.infos = [] then c else minimizeQef svd mu dcWeight 1 threshold c
    if pnorm (c.vertex - c.prev) < 1 / 10 ^ 6 then c else innerLoop svd query mu dcWeight threshold n c

/-- `clean`, `Cell.cpp:584-591` -/
def clean (c : Cell) : Cell := { c with infos := [], spheres := [] }

end

end Gpy.Dual
