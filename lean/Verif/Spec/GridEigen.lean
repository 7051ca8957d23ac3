import Mathlib.Analysis.Calculus.Deriv.Basic
import Mathlib.Analysis.SpecialFunctions.Trigonometric.Basic
import Mathlib.Algebra.BigOperators.Fin

/-! What "eigenfunction of the Laplacian with Neumann boundary conditions on a box" means (C95). -/

set_option autoImplicit false
namespace Gpy
open Finset

/-- `u` along coordinate `k`, all other coordinates fixed at `x` -/
def along {d : ℕ} (u : (Fin d → ℝ) → ℝ) (x : Fin d → ℝ) (k : Fin d) : ℝ → ℝ := fun t => u (Function.update x k t)

/-- `u` solves `Δu = -λu`, its derivative across each face of the box `∏ [0, l k]` vanishes on the face, and it is not zero -/
structure IsNeumannMode {d : ℕ} (l : Fin d → ℝ) (lam : ℝ) (u : (Fin d → ℝ) → ℝ) : Prop where
  smooth : ∀ x k, Differentiable ℝ (along u x k) ∧ Differentiable ℝ (deriv (along u x k))
  eq : ∀ x, ∑ k, deriv (deriv (along u x k)) (x k) = -lam * u x
  faces : ∀ x k, deriv (along u x k) 0 = 0 ∧ deriv (along u x k) (l k) = 0
  ne : u 0 ≠ 0

/-- the products of cosines: mode number `n k` along axis `k` -/
noncomputable def cosMode {d : ℕ} (l : Fin d → ℝ) (n : Fin d → ℕ) (x : Fin d → ℝ) : ℝ := ∏ k, Real.cos (n k * Real.pi * x k / l k)

/-- the eigenvalue of a mode -/
noncomputable def modeVal {d : ℕ} (l : Fin d → ℝ) (n : Fin d → ℕ) : ℝ := ∑ k, (n k * Real.pi / l k) ^ 2

/-- weights of the trapezoidal rule on `g` points -/
noncomputable def trapW (g i : ℕ) : ℝ := if i = 0 ∨ i + 1 = g then 1 / 2 else 1

end Gpy
