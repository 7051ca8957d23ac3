import Verif.Np.Pt
import Verif.Spec.Mesh
import Mathlib.Data.Real.Basic
import Mathlib.Logic.Relation

/-! Linear elasticity in the plane on a triangle mesh: specification. -/

set_option autoImplicit false
namespace Gpy
open Np

/-- `g` is the gradient on triangle `t` of the linear function with the values `u` at its corners. -/
def IsTriGrad (V : List (Pt 2)) (t : Tri) (u : ℕ → ℝ) (g : Pt 2) : Prop :=
  u t.b - u t.a = g 0 * (V.getD t.b 0 0 - V.getD t.a 0 0) + g 1 * (V.getD t.b 0 1 - V.getD t.a 0 1) ∧
  u t.c - u t.a = g 0 * (V.getD t.c 0 0 - V.getD t.a 0 0) + g 1 * (V.getD t.c 0 1 - V.getD t.a 0 1)

/-- twice the signed area -/
def wedge2 (V : List (Pt 2)) (t : Tri) : ℝ :=
  (V.getD t.b 0 0 - V.getD t.a 0 0) * (V.getD t.c 0 1 - V.getD t.a 0 1) - (V.getD t.b 0 1 - V.getD t.a 0 1) * (V.getD t.c 0 0 - V.getD t.a 0 0)

/-- the vector of unknowns of the displacement field with components `u`, `v`: first all first components, then all second components -/
def dofs (n : ℕ) (u v : ℕ → ℝ) (i : ℕ) : ℝ := if i < n then u i else v (i - n)

/-- the energy density of linear elasticity with Lamé parameters `l`, `mu` for displacement gradients `g = ∇u`, `h = ∇v` -/
def elasticDensity (l mu : ℝ) (g h : Pt 2) : ℝ := l * (g 0 + h 1) ^ 2 + 2 * mu * (g 0 ^ 2 + h 1 ^ 2) + mu * (g 1 + h 0) ^ 2

/-- an infinitesimal rigid motion: a translation plus a rotation -/
def IsRigid (V : List (Pt 2)) (u v : ℕ → ℝ) : Prop := ∃ a b w : ℝ, ∀ i < V.length, u i = a - w * V.getD i 0 1 ∧ v i = b + w * V.getD i 0 0

/-- the volumes used for the elements: those given, or the areas -/
noncomputable def volumesOr (V : List (Pt 2)) (F : List Tri) (volumes : Option (List ℝ)) : List ℝ := volumes.getD (F.map (fun t => |wedge2 V t| / 2))

/-- two triangles have an edge in common -/
def ShareEdge (s t : Tri) : Prop := ∃ i j, i ≠ j ∧ i ∈ [s.a, s.b, s.c] ∧ j ∈ [s.a, s.b, s.c] ∧ i ∈ [t.a, t.b, t.c] ∧ j ∈ [t.a, t.b, t.c]

/-- one can walk from any triangle to any other across common edges -/
def EdgeConnected (F : List Tri) : Prop := ∀ s ∈ F, ∀ t ∈ F, Relation.ReflTransGen (fun x y => x ∈ F ∧ y ∈ F ∧ ShareEdge x y) s t

end Gpy
