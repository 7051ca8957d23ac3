import Verif.Spec.Tet
import Verif.Spec.Mesh

/-! Faces of tetrahedral meshes, as triangles. -/

set_option autoImplicit false
namespace Gpy

/-- The four faces of a tetrahedron; face `i` is opposite to corner `i`, and all are oriented consistently. -/
def Tet.tris (t : Tet) : List Tri := [⟨t.b, t.c, t.d⟩, ⟨t.d, t.c, t.a⟩, ⟨t.d, t.a, t.b⟩, ⟨t.b, t.a, t.c⟩]

/-- All faces of all tetrahedra (with multiplicity). -/
def tetFaces (T : List Tet) : List Tri := T.flatMap Tet.tris

/-- Same triangle, irrespective of the orientation: the same three corners. -/
def SameTri (f g : Tri) : Prop := [g.a, g.b, g.c].Perm [f.a, f.b, f.c]

instance (f g : Tri) : Decidable (SameTri f g) := by unfold SameTri; infer_instance

/-- Same triangle with the same orientation: equal up to a cyclic rotation. -/
def SameOr (f g : Tri) : Prop := g = f ∨ g = ⟨f.b, f.c, f.a⟩ ∨ g = ⟨f.c, f.a, f.b⟩

instance (f g : Tri) : Decidable (SameOr f g) := by unfold SameOr; infer_instance

/-- The triangle with the other orientation. -/
def Tri.rev (f : Tri) : Tri := ⟨f.a, f.c, f.b⟩

/-- Number of faces of tetrahedra that have the corners of `f`. -/
def faceIncid (T : List Tet) (f : Tri) : ℕ := ((tetFaces T).filter (fun g => SameTri f g)).length

/-- A consistently oriented tetrahedral mesh: corners of a tetrahedron are distinct, and no oriented face belongs to two tetrahedra (so a face
    has at most two tetrahedra, which see it with opposite orientations). -/
def OrientedTets (T : List Tet) : Prop :=
  (∀ t ∈ T, t.a ≠ t.b ∧ t.a ≠ t.c ∧ t.a ≠ t.d ∧ t.b ≠ t.c ∧ t.b ≠ t.d ∧ t.c ≠ t.d) ∧ (tetFaces T).Pairwise (fun f g => ¬ SameOr f g)

instance (T : List Tet) : Decidable (OrientedTets T) := by unfold OrientedTets; infer_instance

end Gpy
