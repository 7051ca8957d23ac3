import Verif.Model.Ray

/-! `ray_mesh_intersect.py` with `use_embree=True` (the default), `ray_mesh_intersect_aabb.cpp`, `ray_mesh_intersect_precompute.py`, `binding_ray_mesh_intersector.cpp`.

Embree is a parameter: `embree V F o dir tnear` is `none` or the hit `(id, t, u, v)`.  `f32` is the rounding of `cast<float>()`. -/

set_option autoImplicit false
namespace Gpy
open Np

noncomputable section

/-- `EmbreeIntersector::intersectRay`: triangle, parameter, and the two weights `u`, `v` -/
abbrev EmbreeLib := List (Pt 3) → List (List ℕ) → Pt 3 → Pt 3 → ℝ → Option (ℕ × ℝ × ℝ × ℝ)

/-- one row of `ts`, `ids`, `lambdas`, `ray_mesh_intersect_aabb.cpp:17-33` and `binding_ray_mesh_intersector.cpp:34-51`; `tnear` is `1e-4` -/
def embreeRow (h : Option (ℕ × ℝ × ℝ × ℝ)) : RmState :=
  match h with
  | some (e, t, u, v) => ⟨(t : ℝ), e, ⟨1 - u - v, u, v⟩⟩
  | none => ⟨⊤, -1, ⟨0, 0, 0⟩⟩

/-- the object made by `ray_mesh_intersect_precompute`: its own copies of both arrays (`binding_ray_mesh_intersector.cpp:22-26`) -/
structure RmiObj where
  V : List (Pt 3)
  F : List (List ℕ)

/-- `ray_mesh_intersect_precompute.__init__`, lines 47-54; `none`: the `ValueError` of line 50 -/
def rmiPrecompute (V : List (Pt 3)) (F : List (List ℕ)) : Option RmiObj :=
  if (F.head?.map List.length).getD 0 = 3 then some ⟨V, F⟩ else none

/-- `ray_mesh_intersect.py:113-122`, all rays, given as pairs of origin and direction -/
def rayMeshEmbree (embree : EmbreeLib) (f32 : ℝ → ℝ) (rays : List (Pt 3 × Pt 3)) (V : List (Pt 3)) (F : List (List ℕ)) (obj : Option RmiObj) : List RmState :=
  rays.map (fun r =>
    let m := obj.getD ⟨V, F⟩                                                 -- line 115 (own object) or 122
    embreeRow (embree (m.V.map (fun x i => f32 (x i))) m.F (fun i => f32 (r.1 i)) (fun i => f32 (r.2 i)) 1e-4))

end
end Gpy
