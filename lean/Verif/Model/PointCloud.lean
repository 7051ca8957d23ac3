import Verif.Np.Pt

/-!
# `point_cloud_to_mesh.py`, `cpp/binding_point_cloud_to_mesh.cpp` and `cpp/point_cloud_to_mesh.cpp`

Kazhdan's reconstruction (the class `Implicit` and its `extractLevelSet`) is a parameter: a function of the options, the points and the normals it is given.  Numbers are exact.
-/

set_option autoImplicit false
namespace Gpy.PointCloud

noncomputable section

/-- what is passed to the reconstruction: `solver_params.depth`, `solver_params.pointWeight` and whether the boundary condition is Dirichlet (`cpp/point_cloud_to_mesh.cpp:138-141,173-176`) -/
structure Params where
  depth : ℤ
  weight : ℝ
  dirichlet : Bool

/-- Kazhdan's reconstruction: vertices and faces (segments in 2D, triangles in 3D) -/
abbrev Recon (d : ℕ) := Params → List (Pt d) → List (Pt d) → List (Pt d) × List (Fin d → ℤ)

/-- `mins`, `cpp/point_cloud_to_mesh.cpp:151-156`; `lo`, `hi` are the column-wise extrema -/
def mins {d : ℕ} (lo hi : Pt d) : Pt d := fun k => lo k - 1.1 * (hi k - lo k + 1 / 10 ^ 6) - 1 / 10 ^ 6

/-- `maxs`, `cpp/point_cloud_to_mesh.cpp:152-157` -/
def maxs {d : ℕ} (lo hi : Pt d) : Pt d := fun k => hi k + 1.1 * (hi k - lo k + 1 / 10 ^ 6) + 1 / 10 ^ 6

/-- `scale`, `cpp/point_cloud_to_mesh.cpp:159` -/
def scale {d : ℕ} (lo hi : Pt d) : ℝ := ((List.ofFn (fun k => maxs lo hi k - mins lo hi k)).max?).getD 0

/-- `cloud_points`, `cpp/point_cloud_to_mesh.cpp:160` -/
def normalise {d : ℕ} (lo hi : Pt d) (p : Pt d) : Pt d := fun k => (p k - mins lo hi k) / scale lo hi

/-- `V`, `cpp/point_cloud_to_mesh.cpp:189-192` -/
def denormalise {d : ℕ} (lo hi : Pt d) (v : Pt d) : Pt d := fun k => v k * scale lo hi + mins lo hi k

/-- `point_cloud_to_mesh` of `cpp/point_cloud_to_mesh.cpp:104-197` -/
def reconstruct {d : ℕ} (R : Recon d) (prm : Params) (P N : List (Pt d)) : Option (List (Pt d) × List (Fin d → ℤ)) :=
  match npAmin P, npAmax P with
  | some lo, some hi =>
    let r := R prm (P.map (normalise lo hi)) N
    some (r.1.map (denormalise lo hi), r.2)
  | _, _ => none

/-- `point_cloud_to_mesh.py:57-91` with the choice of the boundary condition in `cpp/binding_point_cloud_to_mesh.cpp:32-70`; `none`: an assertion fails -/
def pointCloudToMesh {d : ℕ} (R : Recon d) (method : String) (weight : ℝ) (depth : ℤ) (boundary : String) (P N : List (Pt d)) : Option (List (Pt d) × List (Fin d → ℤ)) :=
  open Classical in
  if P.length ≠ N.length then none                                                       -- line 58
  else if P.length ≤ 1 then none                                                         -- line 59
  else if d ≠ 2 ∧ d ≠ 3 then none                                                        -- line 61
  else if method ≠ "PSR" then none                                                       -- line 89
  else if depth ≤ 0 then none                                                            -- line 70
  else if weight < 0 then none                                                           -- line 71
  else reconstruct R ⟨min 12 depth, weight, boundary = "Dirichlet" ∨ boundary = "dirichlet"⟩ P N    -- lines 78-87

end

end Gpy.PointCloud
