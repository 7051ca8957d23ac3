import Verif.Spec.Mesh

/-! Corners of a triangle list that stay together when edges are cut. -/

set_option autoImplicit false
namespace Gpy

/-- The corners `x = (face, corner)` and `y` are at the same vertex, and their triangles share an (undirected) edge at this vertex that is
not in the cut list `E`. (Side `i` of a triangle is the one opposite to corner `i`, so it contains corner `c` iff `i ≠ c`.) -/
def CutAdj (F : List Tri) (E : List Edge) (x y : ℕ × Fin 3) : Prop :=
  ∃ t t' : Tri, F[x.1]? = some t ∧ F[y.1]? = some t' ∧ t.corner x.2 = t'.corner y.2 ∧
    ∃ i j : Fin 3, i ≠ x.2 ∧ j ≠ y.2 ∧ Undir (t.side i) (t'.side j) ∧ ∀ e ∈ E, ¬ Undir e (t.side i)

end Gpy
