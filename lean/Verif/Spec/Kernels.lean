import Mathlib.Data.Real.Basic
import Mathlib.Data.Fintype.BigOperators

/-! Covariance functions. -/

set_option autoImplicit false
namespace Gpy

/-- `k` is a covariance function: symmetric, and every matrix `k(x_i, x_j)` is positive semidefinite. -/
structure PsdKernel {α : Type} (k : α → α → ℝ) : Prop where
  symm : ∀ x y, k x y = k y x
  nonneg : ∀ (n : ℕ) (x : Fin n → α) (w : Fin n → ℝ), 0 ≤ ∑ i, ∑ j, w i * w j * k (x i) (x j)

end Gpy
