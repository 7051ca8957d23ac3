import Verif.Spec.Mesh
import Mathlib.Order.Defs.LinearOrder
import Mathlib.Tactic.Common

/-! Lexicographic order on rows of two integers, the order in which `np.unique(..., axis=0)` sorts rows. -/

namespace Gpy

instance : LE Edge := ⟨fun x y => x.s < y.s ∨ (x.s = y.s ∧ x.t ≤ y.t)⟩
instance : LT Edge := ⟨fun x y => x.s < y.s ∨ (x.s = y.s ∧ x.t < y.t)⟩
theorem Edge.le_def (x y : Edge) : x ≤ y ↔ x.s < y.s ∨ (x.s = y.s ∧ x.t ≤ y.t) := Iff.rfl
theorem Edge.lt_def (x y : Edge) : x < y ↔ x.s < y.s ∨ (x.s = y.s ∧ x.t < y.t) := Iff.rfl
instance (x y : Edge) : Decidable (x ≤ y) := by rw [Edge.le_def]; infer_instance
instance (x y : Edge) : Decidable (x < y) := by rw [Edge.lt_def]; infer_instance

instance : LinearOrder Edge where
  le_refl x := by rw [Edge.le_def]; omega
  le_trans x y z := by rw [Edge.le_def, Edge.le_def, Edge.le_def]; omega
  lt_iff_le_not_ge x y := by rw [Edge.le_def, Edge.le_def, Edge.lt_def]; omega
  le_antisymm x y := by
    rw [Edge.le_def, Edge.le_def]; intro h1 h2
    cases x; cases y; simp_all; omega
  le_total x y := by rw [Edge.le_def, Edge.le_def]; omega
  toDecidableLE := inferInstance
  toDecidableLT := inferInstance
  toDecidableEq := inferInstance

end Gpy
