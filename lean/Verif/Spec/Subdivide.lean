import Verif.Spec.Triangle
import Mathlib.Algebra.Field.Defs

/-! Notions used in the statements about `subdivide`. -/

set_option autoImplicit false
namespace Gpy

/-- The two triangles have the same set of corners. -/
def SameCorners (t u : Tri) : Prop := ∀ v : ℕ, (v = t.a ∨ v = t.b ∨ v = t.c) ↔ (v = u.a ∨ v = u.b ∨ v = u.c)

/-- No two triangles of the list have the same three corners. -/
def NoTwin (F : List Tri) : Prop := F.Pairwise (fun t u => ¬ SameCorners t u)

/-- Coordinates of the bivector `(y-x) ∧ (z-x)`: twice the signed area of the projection of the triangle `x y z` to the coordinate plane
`p q`. -/
def wedge {K : Type} [CommRing K] {d : ℕ} (x y z : Fin d → K) (p q : Fin d) : K :=
  (y p - x p) * (z q - x q) - (y q - x q) * (z p - x p)

/-- The number of undirected edges of the mesh. -/
def IsEdgeList (F : List Tri) (E : List Edge) : Prop :=
  E.Pairwise (fun e e' => ¬ Undir e e') ∧ ∀ e : Edge, (∃ e' ∈ E, Undir e' e) ↔ (∃ e' ∈ sides F, Undir e' e)

/-- `e` is a side of exactly one triangle, oriented along it (in a consistently oriented mesh). -/
def IsBdrySide (F : List Tri) (e : Edge) : Prop := e ∈ sides F ∧ e.flip ∉ sides F

/-- `v` is a vertex of the mesh that is on no boundary edge. -/
def IsInteriorVertex (F : List Tri) (v : ℕ) : Prop := 0 < cornerCount F v ∧ ∀ e, IsBdrySide F e → e.s ≠ v ∧ e.t ≠ v

/-- The ends of the triangle sides that start at `v`; for an interior vertex of a consistently oriented mesh: its neighbours. -/
def nbrs (F : List Tri) (v : ℕ) : List ℕ := ((sides F).filter (fun h => h.s = v)).map (·.t)

/-- Warren's weight of the neighbours of an interior vertex with `n` neighbours. -/
def loopWeight (K : Type) [Field K] (n : ℕ) : K := if n = 3 then 3 / 16 else 3 / (8 * (n : K))

end Gpy
