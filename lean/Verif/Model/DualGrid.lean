import Verif.Np.Pt
import Verif.Model.Rotation

/-!
# The cells of `dual_contouring_of_signed_distance_data`

`cpp/dual_contouring_of_signed_distance_data/Cell.cpp` and `contouring.cpp:14-21,127-257`, in exact arithmetic.  Paths are relative to `src/`.  `Eigen::Vector3d` is `Pt 3`; the maps from edges (0-11) and from faces (0-5) of a
cell are functions to `Option`, which are traversed in the order of the keys.  Not modelled: `cornerNormals` (computed, never read), `energy` (only printed), `closest_faces`, `hermite_spheres`, `local_mesh_vertices`,
`local_mesh_faces`, `inner_iter`, `prev_outer_vertex` (never read) and the branch with a true signed distance function (`contouring.cpp:1336-1341` passes none).
-/

set_option autoImplicit false
namespace Gpy.Dual

noncomputable section
open Classical

/-- the arguments of `dual_contouring_of_signed_distance_data`: sizes, samples (with the isovalue subtracted) and grid positions -/
structure Grid where
  nx : ℕ
  ny : ℕ
  nz : ℕ
  S : List ℝ
  GV : List (Pt 3)

/-- `index3D`, `contouring.cpp:14-16` -/
def Grid.idx (g : Grid) (i j k : ℕ) : ℕ := i + g.nx * (j + g.ny * k)

/-- `S(index3D(i,j,k))` -/
def Grid.s (g : Grid) (i j k : ℕ) : ℝ := g.S.getD (g.idx i j k) 0

/-- `GV.row(index3D(i,j,k))` -/
def Grid.x (g : Grid) (i j k : ℕ) : Pt 3 := g.GV.getD (g.idx i j k) 0

/-- `cellIndex3D`, `contouring.cpp:18-21` and `hermite_update.cpp:13-16`, for any integers -/
def cellIdx (nx ny : ℕ) (i j k : ℤ) : ℤ := i + ((nx : ℤ) - 1) * (j + ((ny : ℤ) - 1) * k)

/-- `Vector3d::normalized` -/
def normalized (v : Pt 3) : Pt 3 := if 0 < psq v then (1 / pnorm v) • v else v

/-- `gradientAt`, `contouring.cpp:127-193` -/
def gradientAt (g : Grid) (i j k : ℕ) : Pt 3 :=
  let im := i - 1
  let ip := min (g.nx - 1) (i + 1)
  let jm := j - 1
  let jp := min (g.ny - 1) (j + 1)
  let km := k - 1
  let kp := min (g.nz - 1) (k + 1)
  let dx := g.x ip j k 0 - g.x im j k 0
  let dy := g.x i jp k 1 - g.x i jm k 1
  let dz := g.x i j kp 2 - g.x i j km 2
  let v : Pt 3 := ![if 1 / 10 ^ 12 < |dx| then (g.s ip j k - g.s im j k) / dx else 0,
    if 1 / 10 ^ 12 < |dy| then (g.s i jp k - g.s i jm k) / dy else 0,
    if 1 / 10 ^ 12 < |dz| then (g.s i j kp - g.s i j km) / dz else 0]
  if 0 < pnorm v then (1 / pnorm v) • v else v

/-- `EDGE_PAIRS`, `Cell.h:26-30` -/
def edgePairs : List (ℕ × ℕ) := [(0, 1), (1, 2), (2, 3), (3, 0), (4, 5), (5, 6), (6, 7), (7, 4), (0, 4), (1, 5), (2, 6), (3, 7)]

/-- `off`, `contouring.cpp:218-227` -/
def off : List (ℕ × ℕ × ℕ) := [(0, 0, 0), (1, 0, 0), (1, 1, 0), (0, 1, 0), (0, 0, 1), (1, 0, 1), (1, 1, 1), (0, 1, 1)]

/-- `Sphere`, `Sphere.h` -/
structure Sphere where
  radius : ℝ
  sign : ℤ
  center : Pt 3

/-- `ClosestPointInfo`, `Cell.h:38-45` -/
structure Info where
  p : Pt 3
  q : Pt 3
  c : Pt 3
  fip : Pt 3
  bary : ℝ × ℝ × ℝ
  sphere : ℕ

/-- `Cell`, `Cell.h:47-121` -/
structure Cell where
  ix : ℕ
  iy : ℕ
  iz : ℕ
  corners : ℕ → Pt 3
  sdf : ℕ → ℝ
  pos : ℕ → Option (Pt 3)
  nrm : ℕ → Option (Pt 3)
  spheres : List Sphere
  infos : List Info
  fip : ℕ → Option (Pt 3)
  vertex : Pt 3
  prev : Pt 3
  has : Bool

/-- the values of a map from edges in the order of the keys -/
def values (m : ℕ → Option (Pt 3)) : List (Pt 3) := (List.range 12).filterMap m

/-- the constructor, `Cell.cpp:39-59` -/
def newCell (i j k : ℕ) (corners : ℕ → Pt 3) (sdf : ℕ → ℝ) : Cell :=
  { ix := i, iy := j, iz := k, corners := corners, sdf := sdf, pos := fun _ => none, nrm := fun _ => none, spheres := [], infos := [], fip := fun _ => none, vertex := 0, prev := 0,
    has := (List.range 8).any (fun c => decide (sdf c < 0)) && (List.range 8).any (fun c => decide (0 < sdf c)) }

/-- `clamp01`, `Cell.cpp:101` -/
def clamp01 (t : ℝ) : ℝ := max 0 (min 1 t)

/-- `gradientAtPointUsingTrilinear`, `Cell.cpp:62-137` -/
def trilinearGrad (sdf : ℕ → ℝ) (corners : ℕ → Pt 3) (p : Pt 3) : Pt 3 :=
  let S000 := sdf 0
  let S100 := sdf 1
  let S110 := sdf 2
  let S010 := sdf 3
  let S001 := sdf 4
  let S101 := sdf 5
  let S111 := sdf 6
  let S011 := sdf 7
  let dx := corners 1 0 - corners 0 0
  let dy := corners 3 1 - corners 0 1
  let dz := corners 4 2 - corners 0 2
  let u := clamp01 (if 1 / 10 ^ 12 < |dx| then (p 0 - corners 0 0) / dx else 1 / 2)
  let v := clamp01 (if 1 / 10 ^ 12 < |dy| then (p 1 - corners 0 1) / dy else 1 / 2)
  let w := clamp01 (if 1 / 10 ^ 12 < |dz| then (p 2 - corners 0 2) / dz else 1 / 2)
  let du := (S100 - S000) * (1 - v) * (1 - w) + (S110 - S010) * v * (1 - w) + (S101 - S001) * (1 - v) * w + (S111 - S011) * v * w
  let dv := (S010 - S000) * (1 - u) * (1 - w) + (S110 - S100) * u * (1 - w) + (S011 - S001) * (1 - u) * w + (S111 - S101) * u * w
  let dw := (S001 - S000) * (1 - u) * (1 - v) + (S101 - S100) * u * (1 - v) + (S011 - S010) * (1 - u) * v + (S111 - S110) * u * v
  ![if 1 / 10 ^ 12 < |dx| then du / dx else 0, if 1 / 10 ^ 12 < |dy| then dv / dy else 0, if 1 / 10 ^ 12 < |dz| then dw / dz else 0]

/-- `lerp_t`, `Cell.cpp:31-34` -/
def lerpT (fa fb : ℝ) : ℝ := (fa - 0) / (fa - fb + 1 / 10 ^ 16)

/-- the Hermite position on an edge, `Cell.cpp:169-182` -/
def hermitePos (c : Cell) (e : ℕ) : Pt 3 :=
  let a := (edgePairs.getD e (0, 0)).1
  let b := (edgePairs.getD e (0, 0)).2
  let t := lerpT (c.sdf a) (c.sdf b)
  (1 - t) • c.corners a + t • c.corners b

/-- `fill_hermite_data`, `Cell.cpp:144-194` -/
def fillHermite (c : Cell) : Cell :=
  if c.has then
    let crossing := fun e : ℕ => e < 12 ∧ ¬ 0 < c.sdf (edgePairs.getD e (0, 0)).1 * c.sdf (edgePairs.getD e (0, 0)).2
    { c with
      pos := fun e => if crossing e then some (hermitePos c e) else none
      nrm := fun e => if crossing e then some (normalized (trilinearGrad c.sdf c.corners (hermitePos c e))) else none }
  else { c with pos := fun _ => none, nrm := fun _ => none }

/-- one cell of `generate_cells`, `contouring.cpp:212-251` -/
def genCell (g : Grid) (i j k : ℕ) : Cell :=
  fillHermite (newCell i j k (fun c => g.x (i + (off.getD c (0, 0, 0)).1) (j + (off.getD c (0, 0, 0)).2.1) (k + (off.getD c (0, 0, 0)).2.2))
    (fun c => g.s (i + (off.getD c (0, 0, 0)).1) (j + (off.getD c (0, 0, 0)).2.1) (k + (off.getD c (0, 0, 0)).2.2)))

/-- `generate_cells`, `contouring.cpp:196-257` -/
def generateCells (g : Grid) : List Cell :=
  (List.range (g.nz - 1)).flatMap (fun k => (List.range (g.ny - 1)).flatMap (fun j => (List.range (g.nx - 1)).map (fun i => genCell g i j k)))

end

end Gpy.Dual
