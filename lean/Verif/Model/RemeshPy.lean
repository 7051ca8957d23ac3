import Verif.Model.Remesh
import Verif.Model.Normals
import Verif.Model.Edges

/-! `remesh_botsch.py`: the Python wrapper of the remesher. -/

set_option autoImplicit false
namespace Gpy
open Np

noncomputable section

/-- `theta > thresh`; a comparison with `nan` is false (`remesh_botsch.py:77-78`) -/
def sharper (thr : ℝ) (θ : Option ℝ) : Bool := match θ with
  | some θ => decide (θ > thr)
  | none => false

/-- `remesh_botsch.py:80-85`: the sides with number `c` of the triangles whose entry in column `c` is large; `t.side c` is `(F[:,(c+1)%3], F[:,(c+2)%3])` -/
def sharpSides (F : List Tri) (Θ : List (Row3 (Option ℝ))) (thr : ℝ) (c : Fin 3) : List Edge :=
  (npMask F (Θ.map (fun r => sharper thr (r.get c)))).map (fun t => t.side c)

/-- `remesh_botsch.py:73-90`: detection of sharp edges.  The threshold is in degrees. -/
def detectFeatureEdges (V : List (V3 ℝ)) (F : List Tri) (fe : List Edge) (deg : ℝ) : Option (List Edge) := do
  let Θ ← dihedralAngles V F                                                    -- line 75
  let thr := deg * (Real.pi / 180)                                              -- line 76
  let fe := fe ++ (sharpSides F Θ thr 0 ++ sharpSides F Θ thr 1 ++ sharpSides F Θ thr 2)  -- lines 79-87
  return npUnique (fe.map Edge.sort)                                            -- lines 88-90

/-- `np.argsort` of different integers -/
def argsortNat (l : List ℕ) : List ℕ := (List.range l.length).insertionSort (fun i j => l.getD i 0 ≤ l.getD j 0)

/-- `remesh_botsch.py:104-106`: the distinct entries in the order of first occurrence -/
def uniqueInOrder (l : List ℕ) : List ℕ := (argsortNat (npUniqueIndex l)).map (fun i => (npUnique l).getD i 0)

/-- `remesh_botsch.py:109-113`: the new order of the vertices; `np.delete` raises `IndexError` if an index is too large -/
def newOrder (n : ℕ) (fs : List ℕ) : Option (List ℕ) :=
  if ∀ v ∈ fs, v < n then some (fs ++ (List.range n).filter (fun v => v ∉ fs)) else none

/-- the mesh that is handed to C++ -/
structure PyMesh where
  V : List (V3 ℝ)
  F : List Tri
  feature : List ℕ
  fe : List Edge

/-- `t[F]` for an array `t` and a triangle -/
def Tri.look (t : Arr ℕ) (f : Tri) : Option Tri := do
  let a ← t.rd f.a
  let b ← t.rd f.b
  let c ← t.rd f.c
  some ⟨a, b, c⟩

/-- `t[feature_edges]`, one row -/
def Edge.look (t : Arr ℕ) (e : Edge) : Option Edge := do
  let a ← t.rd e.s
  let b ← t.rd e.t
  some ⟨a, b⟩

/-- `remesh_botsch.py:104-126`: the fixed vertices are moved to the front.  `junk` is the content of the array returned by `np.empty`. -/
def moveToFront (junk : ℕ → ℕ) (V : List (V3 ℝ)) (F : List Tri) (feature : List ℕ) (fe : List Edge) : Option PyMesh := do
  let fs := uniqueInOrder feature
  let order ← newOrder V.length fs
  let tmp ← (order.zip (List.range V.length)).foldlM (fun (t : Arr ℕ) p => t.wr p.1 p.2) ⟨V.length, junk⟩  -- lines 115-116
  let V' ← order.mapM (fun v => V[v]?)                                          -- line 119
  let F' ← F.mapM (Tri.look tmp)                                                -- line 121
  let fe' ← fe.mapM (Edge.look tmp)                                             -- lines 123-124
  some ⟨V', F', (List.range V.length).take fs.length, fe'⟩                      -- line 126

/-- `np.mean(halfedge_lengths(V, F))`, `remesh_botsch.py:66` -/
def meanHalfedge (V : List (V3 ℝ)) (F : List Tri) : Option ℝ := do
  let l ← halfedgeLengthsSquared V F
  let l := l.flatMap (fun r => [Real.sqrt r.x0, Real.sqrt r.x1, Real.sqrt r.x2])
  some (l.sum / l.length)

/-- `remesh_botsch.py:65-66`: the target length -/
def targetLength (V : List (V3 ℝ)) (F : List Tri) : Option ℝ → Option ℝ
  | some h => some h
  | none => meanHalfedge V F

/-- `remesh_botsch.py:73-90` -/
def chooseFeatureEdges (V : List (V3 ℝ)) (F : List Tri) (fe : List Edge) (detect : Bool) (deg : ℝ) : Option (List Edge) :=
  if detect then detectFeatureEdges V F fe deg else some fe

/-- `remesh_botsch.py:102-126` -/
def arrangeMesh (junk : ℕ → ℕ) (V : List (V3 ℝ)) (F : List Tri) (feature : List ℕ) (fe : List Edge) : Option PyMesh :=
  if feature ≠ [] then moveToFront junk V F feature fe else some ⟨V, F, feature, fe⟩

/-- `remesh_botsch.py:60-139`.  `feature_edges` must already be an integer array with two columns; fixed vertices must be non-negative.  Warnings (lines 93-97, 129-130) are not modelled.  The binding
copies the matrices, calls the C++ function with a constant target length and returns the new vertices and faces (`binding_remesher_botsch.cpp:15-24`). -/
def remeshBotsch (L : Libigl) (junk : ℕ → ℕ) (V : List (V3 ℝ)) (F : List Tri) (iters : ℕ) (h : Option ℝ) (project : Bool) (feature : List ℕ) (fe : List Edge) (detect : Bool) (deg : ℝ) :
    Option (Arr (V3 ℝ) × List Tri) := do
  let h ← targetLength V F h                                                    -- lines 65-66
  let fe ← chooseFeatureEdges V F fe detect deg                                 -- lines 73-90
  let bd ← boundaryVertices F
  let P ← arrangeMesh junk V F (feature ++ bd) fe                               -- lines 99-126
  let ne ← nonManifoldEdges P.F                                                 -- lines 133-136
  if ne ≠ [] then none else do
  let M ← remeshBotschCpp L ⟨P.V.length, fun i => P.V.getD i 0⟩ P.F ⟨P.V.length, fun _ => h⟩ iters P.feature P.fe project  -- line 138
  some (M.V, M.F)

end
end Gpy
