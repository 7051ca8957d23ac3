import Verif.Model.SpsrSubspace
import Verif.Proofs.SpsrVar
import Mathlib.Data.Matrix.Diagonal
import Mathlib.Tactic.FieldSimp

/-! The subspace solver of `stochastic_poisson_surface_reconstruction`. -/

set_option autoImplicit false
namespace Gpy.Spsr
open Np Finset

variable {m n s : ℕ} (G : Matrix (Fin m) (Fin n) ℝ)

/-- the energy of a multiple of one function -/
theorem energy_line (v : Fin m → ℝ) (u : Fin n → ℝ) (r : ℝ) :
    energy G v (r • u) = r ^ 2 * (u ⬝ᵥ (system G).mulVec u) - 2 * r * (G.mulVec u ⬝ᵥ v) + v ⬝ᵥ v := by
  have h1 : u ⬝ᵥ (system G).mulVec u = G.mulVec u ⬝ᵥ G.mulVec u + eps * (u ⬝ᵥ u) := by
    rw [system_mulVec, dotProduct_add, dotProduct_smul, smul_eq_mul, Matrix.dotProduct_mulVec u, Matrix.vecMul_transpose]
  rw [h1]
  unfold energy
  rw [Matrix.mulVec_smul]
  generalize G.mulVec u = g
  simp only [dotProduct, Finset.mul_sum, mul_add, Pi.smul_apply, smul_eq_mul]
  have e1 : ∀ i, (r * g i - v i) ^ 2 = r ^ 2 * (g i * g i) - 2 * r * (g i * v i) + v i * v i := fun i => by ring
  have e2 : ∀ i, eps * (r * u i) ^ 2 = r ^ 2 * (eps * (u i * u i)) := fun i => by ring
  simp only [e1, e2, Finset.sum_add_distrib, Finset.sum_sub_distrib]
  ring

theorem system_pos (u : Fin n → ℝ) (hu : ∃ j, u j ≠ 0) : 0 < u ⬝ᵥ (system G).mulVec u := by
  have h1 : u ⬝ᵥ (system G).mulVec u = G.mulVec u ⬝ᵥ G.mulVec u + eps * (u ⬝ᵥ u) := by
    rw [system_mulVec, dotProduct_add, dotProduct_smul, smul_eq_mul, Matrix.dotProduct_mulVec u, Matrix.vecMul_transpose]
  obtain ⟨j, hj⟩ := hu
  have h2 : 0 < u ⬝ᵥ u := by
    rw [← dot_sq]
    exact Finset.sum_pos' (fun i _ => sq_nonneg _) ⟨j, Finset.mem_univ _, by positivity⟩
  have h3 : 0 ≤ G.mulVec u ⬝ᵥ G.mulVec u := by
    rw [← dot_sq]
    exact Finset.sum_nonneg (fun i _ => sq_nonneg _)
  rw [h1]
  have := mul_pos eps_pos h2
  linarith

/-- the best multiple of one function -/
theorem energy_line_min (v : Fin m → ℝ) (u : Fin n → ℝ) (hu : ∃ j, u j ≠ 0) (c : ℝ) (hc : ∀ r : ℝ, energy G v (c • u) ≤ energy G v (r • u)) :
    c = (G.mulVec u ⬝ᵥ v) / (u ⬝ᵥ (system G).mulVec u) := by
  have hp := system_pos G u hu
  have h := hc ((G.mulVec u ⬝ᵥ v) / (u ⬝ᵥ (system G).mulVec u))
  rw [energy_line, energy_line] at h
  generalize u ⬝ᵥ (system G).mulVec u = a at *
  generalize G.mulVec u ⬝ᵥ v = b at *
  have h2 : a * (c - b / a) ^ 2 ≤ 0 := by
    have : a * (c - b / a) ^ 2 = (c ^ 2 * a - 2 * c * b) - ((b / a) ^ 2 * a - 2 * (b / a) * b) := by field_simp; ring
    rw [this]; linarith
  have h3 : (c - b / a) ^ 2 = 0 := by
    have := sq_nonneg (c - b / a)
    nlinarith
  have := pow_eq_zero_iff (two_ne_zero) |>.mp h3
  linarith

/-- the diagonal entries of the projected system -/
theorem sub_vals (U : Matrix (Fin n) (Fin s) ℝ) (t : Fin s) : (∑ j, (U.transpose * system G) t j * U.transpose t j) = (fun j => U j t) ⬝ᵥ (system G).mulVec (fun j => U j t) := by
  have e : ∀ j, (U.transpose * system G) t j = Matrix.vecMul (fun j => U j t) (system G) j := fun j => rfl
  simp only [e, Matrix.transpose_apply]
  rw [Matrix.dotProduct_mulVec]
  rfl

theorem diagonal_solve {a : Fin s → ℝ} (ha : ∀ t, a t ≠ 0) {S B : Matrix (Fin s) (Fin s) ℝ} (h : Matrix.diagonal a * S = B) : S = Matrix.diagonal (fun t => (a t)⁻¹) * B := by
  rw [← h, ← Matrix.mul_assoc, Matrix.diagonal_mul_diagonal]
  have : (fun t => (a t)⁻¹ * a t) = fun _ => (1 : ℝ) := funext (fun t => inv_mul_cancel₀ (ha t))
  rw [this, Matrix.diagonal_one, Matrix.one_mul]

/-- the variance from the subspace -/
theorem varSubspace_spec {solve : LinSolver ℝ} (hc : solve.Correct) {sigmaN : ℝ} {C : Matrix (Fin m) (Fin m) ℝ} {U : Matrix (Fin n) (Fin s) ℝ} (hU : ∀ t, ∃ j, U j t ≠ 0) {y : Fin n → ℝ}
    (h : varSubspace solve sigmaN G C U = some y) :
    ∃ w : Fin n → Fin m → ℝ, (∀ (v : Fin m → ℝ) (c : Fin s → ℝ), (∀ t, ∀ r : ℝ, energy G v (c t • fun j => U j t) ≤ energy G v (r • fun j => U j t)) → ∀ j, ∑ t, c t * U j t = ∑ e, w j e * v e) ∧
      (∃ j0 : Fin n, ∀ j, (∑ e, ∑ e', w j0 e * C e e' * w j0 e') ≤ (∑ e, ∑ e', w j e * C e e' * w j e') ∧
        y j = (∑ e, ∑ e', w j e * C e e' * w j e') - (∑ e, ∑ e', w j0 e * C e e' * w j0 e') + sigmaN * sigmaN + eps) := by
  generalize ha : (fun t => ∑ j, (U.transpose * system G) t j * U.transpose t j) = a
  have ha' : ∀ t, a t = (fun j => U j t) ⬝ᵥ (system G).mulVec (fun j => U j t) := fun t => by rw [← ha]; exact sub_vals G U t
  have hp : ∀ t, a t ≠ 0 := fun t => by rw [ha']; exact (system_pos G _ (hU t)).ne'
  set Wm : Matrix (Fin n) (Fin m) ℝ := U * Matrix.diagonal (fun t => (a t)⁻¹) * (G * U).transpose with hW
  refine ⟨fun j e => Wm j e, ?_, ?_⟩
  · intro v c hcm j
    have hct : ∀ t, c t = (a t)⁻¹ * ((G * U).transpose.mulVec v) t := by
      intro t
      rw [energy_line_min G v _ (hU t) (c t) (hcm t), ← ha' t, div_eq_inv_mul]
      rfl
    have e1 : ∑ e, Wm j e * v e = Wm.mulVec v j := rfl
    rw [e1, hW, ← Matrix.mulVec_mulVec, ← Matrix.mulVec_mulVec]
    have e2 : (Matrix.diagonal (fun t => (a t)⁻¹)).mulVec ((G * U).transpose.mulVec v) = c := by
      funext t
      rw [Matrix.mulVec_diagonal, hct]
    rw [e2]
    exact Finset.sum_congr rfl (fun t _ => mul_comm _ _)
  · unfold varSubspace at h
    simp only [ha] at h
    cases hD : solveCols solve (Matrix.diagonal a) (U.transpose * (G.transpose * C * G) * U) with
    | none => simp [hD] at h
    | some D =>
      simp only [hD, Option.bind_eq_bind, Option.bind_some] at h
      cases hS : solveCols solve (Matrix.diagonal a) D.transpose with
      | none => simp [hS] at h
      | some S =>
        simp only [hS, Option.bind_some] at h
        cases hl : (List.ofFn (fun j => ∑ t, (U * S) j t * U j t)).min? with
        | none => simp [hl] at h
        | some lo =>
          simp only [hl, Option.bind_some, Option.some.injEq] at h
          subst h
          have d1 := diagonal_solve hp (solveCols_correct hc hD)
          have d2 := diagonal_solve hp (solveCols_correct hc hS)
          have hd : ∀ j, (∑ t, (U * S) j t * U j t) = ∑ e, ∑ e', Wm j e * C e e' * Wm j e' := by
            intro j
            have f1 : (∑ t, (U * S) j t * U j t) = (U * S * U.transpose) j j := rfl
            have f2 : U * S * U.transpose = (Wm * C * Wm.transpose).transpose := by
              rw [d2, d1, hW]
              simp only [Matrix.transpose_mul, Matrix.transpose_transpose, Matrix.diagonal_transpose, Matrix.mul_assoc]
            rw [f1, f2, Matrix.transpose_apply, Matrix.mul_apply]
            simp only [Matrix.mul_apply, Matrix.transpose_apply, Finset.sum_mul]
            rw [Finset.sum_comm]
          obtain ⟨l1, l2⟩ := list_min_spec hl
          obtain ⟨j0, hj0⟩ := List.mem_ofFn.mp l1
          refine ⟨j0, fun j => ?_⟩
          rw [← hd j, ← hd j0]
          have := l2 _ (List.mem_ofFn.mpr ⟨j, rfl⟩)
          rw [hj0]
          exact ⟨this, rfl⟩

end Gpy.Spsr
