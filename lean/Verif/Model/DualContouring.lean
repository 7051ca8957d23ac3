import Verif.Model.DualHermite

/-!
# `contouring.cpp:1182-1342` and `dual_contouring_of_signed_distance_data.py`
-/

set_option autoImplicit false
namespace Gpy.Dual

noncomputable section
open Classical

/-- `ContouringOptions`, `contouring.h:19-31`; `sphere_weight` is always 1 (`binding_dcsdd.cpp:59`) -/
structure Options where
  outer : ℕ
  inner : ℕ
  batch : ℕ
  hermite : Bool
  mu : ℝ
  dcWeight : ℝ
  threshold : ℝ
  posWeight : ℝ
  faceWeight : ℝ
  normalWeight : ℝ

/-- what comes from Eigen, libigl and the random device -/
structure Ext where
  svd : Svd
  pca : List (Pt 3) → Pt 3
  shuffle : ℕ → List ℕ → List ℕ
  sort : List Sphere → List Sphere
  closest : List (Pt 3) → List (ℕ × ℕ × ℕ) → Pt 3 → ℝ × Pt 3
  query : List (Pt 3 × Pt 3 × Pt 3) → Pt 3 → ℕ × Pt 3

/-- the cells after one round of the outer loop, `contouring.cpp:1232-1278`; `n` is the number of the round -/
def outerCells (x : Ext) (o : Options) (g : Grid) (n : ℕ) (V : List (Pt 3)) (F : List Quad) (cells : List Cell) : List Cell :=
  let cells := assignSpheres (x.shuffle n) x.sort x.closest g V F o.batch cells
  let cells := faceIntersections g o.faceWeight cells
  let cells := if o.hermite ∧ 0 < n then updateHermite x.pca o.normalWeight o.posWeight g cells else cells
  cells.map (fun c => if c.has then clean (innerLoop x.svd x.query o.mu o.dcWeight o.threshold o.inner c) else c)

/-- `k` more rounds of the outer loop, from round `n` on, `contouring.cpp:1224-1285` -/
def outerLoop (x : Ext) (o : Options) (g : Grid) : ℕ → ℕ → List (Pt 3) × List Quad → List Cell → Option (List (Pt 3) × List Quad)
  | 0, _, m, _ => some m
  | k + 1, n, m, cells =>
    let cells' := outerCells x o g n m.1 m.2 cells
    (extract g cells').bind (fun m' => outerLoop x o g k (n + 1) m' cells')

/-- the cells before the first extraction, `contouring.cpp:1204-1214` -/
def firstCells (x : Ext) (g : Grid) : List Cell := averageNormals g ((averageNormals g (generateCells g)).map (update x.svd))

/-- `contouring`, `contouring.cpp:1182-1290` -/
def contouring (x : Ext) (o : Options) (g : Grid) : Option (List (Pt 3) × List Quad) :=
  let cells := firstCells x g
  (extract g cells).bind (fun m =>
    let cells := cells.map (fun c => if c.has then { c with vertex := centroid c } else c)
    if o.outer = 0 then extract g cells else outerLoop x o g o.outer 0 m cells)

/-- `dual_contouring_of_signed_distance_data`, `dual_contouring_of_signed_distance_data.py:100-152`, and `binding_dcsdd.cpp:65-66`; `none`: an exception.  The counts are natural numbers, so the checks of lines 125-130 do not
fail. -/
def dualContouring (x : Ext) (o : Options) (S : List ℝ) (GV : List (Pt 3)) (nx ny nz : ℕ) (isovalue : ℝ) : Option (List (Pt 3) × List Quad) :=
  if nx < 2 ∨ ny < 2 ∨ nz < 2 then none
  else if S.length ≠ GV.length then none
  else if S.length ≠ nx * ny * nz then none
  else if o.batch = 0 then none
  else contouring x o ⟨nx, ny, nz, S.map (fun s => s - isovalue), GV⟩

end

end Gpy.Dual
