import Verif.Model.Grad
import Verif.Model.HalfedgeEdgeMap
import Verif.Model.Winding

/-! `per_face_normals`, `per_vertex_normals`, `dihedral_angles`.  A row that numpy fills with `nan` is modelled by `none`. -/

set_option autoImplicit false
namespace Gpy
open Np

noncomputable section

/-- `N / np.linalg.norm(N)` of one row in space; `none` = `nan` (division of zero by zero). -/
def unitRow3 (n : V3 ℝ) : Option (V3 ℝ) :=
  if n.norm = 0 then none else some ⟨n.x / n.norm, n.y / n.norm, n.z / n.norm⟩

/-- `per_face_normals.py:49-60`, `dim = 3`.  The outer `none` is an `IndexError`. -/
def perFaceNormals (V : List (V3 ℝ)) (F : List Tri) (unitNorm : Bool) : Option (List (Option (V3 ℝ))) := do
  let X ← F.mapM (cornersOf V)                                                  -- lines 50-52
  let N := X.map (fun x => V3.cross (x.2.1 - x.1) (x.2.2 - x.1))                 -- line 55
  return if unitNorm then N.map unitRow3 else N.map some                        -- lines 57-60

/-- `per_face_normals.py:40-47`, `dim = 2`: the edge vector rotated clockwise; lines 57-60 normalise it (`none` = `nan`). -/
def perFaceNormals2 (V : List (ℝ × ℝ)) (E : List Edge) (unitNorm : Bool) : Option (List (Option (ℝ × ℝ))) :=
  E.mapM (fun e => do
    let v0 ← V[e.s]?
    let v1 ← V[e.t]?
    let ex := v1.1 - v0.1                                                       -- line 45
    let ey := v1.2 - v0.2
    let n : ℝ × ℝ := (ey, -ex)                                                  -- line 47
    if unitNorm then
      let l := Real.sqrt (n.1 * n.1 + n.2 * n.2)
      return if l = 0 then none else some (n.1 / l, n.2 / l)                     -- line 58
    else return some n)

/-- A stored entry of the weight matrix times a row of face normals (`nan` stays `nan`). -/
def weighted (w : ℝ) (n : Option (V3 ℝ)) : Option (V3 ℝ) := n.map (fun n => w • n)

/-- Sum of rows, `nan` if one of them is. -/
def sumRows (l : List (Option (V3 ℝ))) : Option (V3 ℝ) :=
  l.foldl (fun s x => do let s ← s; let x ← x; some (s + x)) (some 0)

/-- `per_vertex_normals.py:36-54`, `dim = 3`.  `weight_mat @ face_normals` multiplies only stored entries. -/
def perVertexNormals (V : List (V3 ℝ)) (F : List Tri) : Option (List (Option (V3 ℝ))) := do
  let N ← perFaceNormals V F true                                               -- line 38
  let lsq ← halfedgeLengthsSquared V F                                          -- line 40
  let areas ← doubleareaIntrinsic lsq F
  let vals := areas ++ areas ++ areas                                           -- line 41
  let J := List.range F.length                                                  -- lines 42-44
  let I := F.map (·.a) ++ F.map (·.b) ++ F.map (·.c)                            -- line 45
  let W ← csrMatrix vals I (J ++ J ++ J) V.length F.length                      -- line 48
  return (List.range V.length).map (fun v => do
    let s ← sumRows ((W.trip.filter (fun t => t.1 = v)).map (fun t => weighted t.2.2 (N.getD t.2.1 none)))  -- line 50
    unitRow3 s)                                                                 -- line 52

/-- `np.arctan2(|n1 × n2|, n1 · n2)` of two unit normals (`dihedral_angles.py:59-64`). -/
def angleBetween (n1 n2 : V3 ℝ) : ℝ := npArctan2 (V3.cross n1 n2).norm (V3.dot n1 n2)

/-- `dihedral_angles.py:46-66`: row `f`, column `i` is the angle across side `i` of triangle `f`; `none` = `nan`. -/
def dihedralAngles (V : List (V3 ℝ)) (F : List Tri) : Option (List (Row3 (Option ℝ))) := do
  let N ← perFaceNormals V F true                                               -- line 50
  let (TT, _) ← triangleTriangleAdjacency F                                     -- line 51
  let entry := fun (n1 : Option (V3 ℝ)) (nb : Int) => (show Option ℝ from
    if 0 ≤ nb then do                                                           -- lines 55-58
      let n1 ← n1
      let n2 ← N.getD nb.toNat none
      some (angleBetween n1 n2)                                                 -- lines 59-64
    else none)                                                                  -- line 53
  return (N.zip TT).map (fun p => ⟨entry p.1 p.2.x0, entry p.1 p.2.x1, entry p.1 p.2.x2⟩)

end
end Gpy
