import Verif.Spec.Mesh
import Mathlib.Data.Sym.Sym2
import Mathlib.Data.Finset.Card
import Mathlib.Data.Finset.Dedup
import Mathlib.Data.Real.Basic

/-! Combinatorial topology of triangle lists, and points of plane triangles. -/

set_option autoImplicit false
namespace Gpy

/-- Number of vertices that are corners of some triangle of the list. -/
def numUsed (F : List Tri) : ℕ := (F.flatMap (fun t => [t.a, t.b, t.c])).toFinset.card

/-- Number of undirected edges of a triangle list. -/
def numEdges (F : List Tri) : ℕ := ((sides F).map (fun e => s(e.s, e.t))).toFinset.card

/-- All indices address one of `n` vertices. -/
def TriInRange (n : ℕ) (F : List Tri) : Prop := ∀ t ∈ F, t.a < n ∧ t.b < n ∧ t.c < n

/-- A boundary side: the side of a triangle that no triangle traverses in the other direction. -/
def IsBoundarySide (F : List Tri) (e : Edge) : Prop := e ∈ sides F ∧ e.flip ∉ sides F

/-- Signed area of a plane triangle (positive: counterclockwise). -/
noncomputable def signedArea (a b c : ℝ × ℝ) : ℝ := ((b.1 - a.1) * (c.2 - a.2) - (b.2 - a.2) * (c.1 - a.1)) / 2

/-- `p` is the combination of `a`, `b`, `c` with the weights `u`, `v`, `w`. -/
def Bary2 (p a b c : ℝ × ℝ) (u v w : ℝ) : Prop :=
  u + v + w = 1 ∧ p.1 = u * a.1 + v * b.1 + w * c.1 ∧ p.2 = u * a.2 + v * b.2 + w * c.2

/-- `p` is a point of the closed triangle. -/
def InTri2 (p a b c : ℝ × ℝ) : Prop := ∃ u v w : ℝ, 0 ≤ u ∧ 0 ≤ v ∧ 0 ≤ w ∧ Bary2 p a b c u v w

/-- `p` is an interior point of the triangle. -/
def InsideTri2 (p a b c : ℝ × ℝ) : Prop := ∃ u v w : ℝ, 0 < u ∧ 0 < v ∧ 0 < w ∧ Bary2 p a b c u v w

end Gpy
