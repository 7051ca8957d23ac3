import Verif.Np.Vec3
import Mathlib.Data.Real.Basic

/-! Tetrahedra. -/

set_option autoImplicit false
namespace Gpy

/-- A row of a tetrahedron list. -/
structure Tet where
  a : ℕ
  b : ℕ
  c : ℕ
  d : ℕ
deriving DecidableEq, Repr

/-- All indices address one of `n` vertices. -/
def TetInRange (n : ℕ) (T : List Tet) : Prop := ∀ t ∈ T, t.a < n ∧ t.b < n ∧ t.c < n ∧ t.d < n

/-- Six times the signed volume. -/
def sixVol {K : Type} [Add K] [Sub K] [Mul K] (a b c d : V3 K) : K := V3.dot (b - a) (V3.cross (c - a) (d - a))

/-- `p` is the combination of `a`, `b`, `c`, `d` with the weights `w0 .. w3`. -/
def Bary3 (p a b c d : V3 ℝ) (w0 w1 w2 w3 : ℝ) : Prop :=
  w0 + w1 + w2 + w3 = 1 ∧ p.x = w0 * a.x + w1 * b.x + w2 * c.x + w3 * d.x ∧ p.y = w0 * a.y + w1 * b.y + w2 * c.y + w3 * d.y ∧
    p.z = w0 * a.z + w1 * b.z + w2 * c.z + w3 * d.z

/-- `p` is a point of the closed tetrahedron. -/
def InTet (p a b c d : V3 ℝ) : Prop := ∃ w0 w1 w2 w3 : ℝ, 0 ≤ w0 ∧ 0 ≤ w1 ∧ 0 ≤ w2 ∧ 0 ≤ w3 ∧ Bary3 p a b c d w0 w1 w2 w3

/-- `p` is an interior point of the tetrahedron. -/
def InsideTet (p a b c d : V3 ℝ) : Prop := ∃ w0 w1 w2 w3 : ℝ, 0 < w0 ∧ 0 < w1 ∧ 0 < w2 ∧ 0 < w3 ∧ Bary3 p a b c d w0 w1 w2 w3

/-- An oriented triangular face, as three vertex numbers. -/
abbrev Face := ℕ × ℕ × ℕ

/-- Same oriented face: equal up to a cyclic rotation. -/
def SameFace {α : Type} (f g : α × α × α) : Prop := g = f ∨ g = (f.2.1, f.2.2, f.1) ∨ g = (f.2.2, f.1, f.2.1)

instance {α : Type} [DecidableEq α] (f g : α × α × α) : Decidable (SameFace f g) := by unfold SameFace; infer_instance

/-- The face with the other orientation. -/
def revFace {α : Type} (f : α × α × α) : α × α × α := (f.1, f.2.2, f.2.1)

/-- The four faces of a tetrahedron, oriented consistently (by the side on which the fourth corner lies). -/
def Tet.faces (t : Tet) : List Face := [(t.b, t.c, t.d), (t.a, t.d, t.c), (t.a, t.b, t.d), (t.a, t.c, t.b)]

/-- A face on the boundary of the unit cube: all three corners lie in one of its six planes. -/
def OnCubeBoundary (V : List (V3 ℝ)) (f : Face) : Prop := ∃ a b c : V3 ℝ, V[f.1]? = some a ∧ V[f.2.1]? = some b ∧ V[f.2.2]? = some c ∧
  ((a.x = 0 ∧ b.x = 0 ∧ c.x = 0) ∨ (a.x = 1 ∧ b.x = 1 ∧ c.x = 1) ∨ (a.y = 0 ∧ b.y = 0 ∧ c.y = 0) ∨ (a.y = 1 ∧ b.y = 1 ∧ c.y = 1) ∨
   (a.z = 0 ∧ b.z = 0 ∧ c.z = 0) ∨ (a.z = 1 ∧ b.z = 1 ∧ c.z = 1))

end Gpy
