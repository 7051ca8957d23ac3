import Verif.Spec.Matryoshka
import Mathlib.Tactic.LinearCombination
import Mathlib.Tactic.FinCases
import Mathlib.Tactic.Positivity
import Mathlib.LinearAlgebra.Matrix.NonsingularInverse

/-! Lemmas for C98: the rotation formulas, normalisation, the binary search. -/

set_option autoImplicit false
namespace Gpy

noncomputable section

theorem psq3 (x : Pt 3) : psq x = x 0 ^ 2 + x 1 ^ 2 + x 2 ^ 2 := by simp [psq, Fin.sum_univ_three]
theorem pdot3 (x y : Pt 3) : pdot x y = x 0 * y 0 + x 1 * y 1 + x 2 * y 2 := by simp [pdot, Fin.sum_univ_three]

theorem pnorm_sq3 (x : Pt 3) : pnorm x ^ 2 = x 0 ^ 2 + x 1 ^ 2 + x 2 ^ 2 := by
  unfold pnorm
  rw [Real.sq_sqrt (by rw [psq3]; positivity), psq3]

theorem mNormalize_unit (v : Pt 3) : psq (mNormalize v) = 1 := by
  unfold mNormalize
  simp only
  split_ifs with h
  · rw [psq3]; simp
  · have hp : 0 < pnorm v := lt_of_lt_of_le (by positivity) (not_lt.mp h)
    have := pnorm_sq3 v
    rw [psq3]
    field_simp
    linarith

theorem pnorm_unit {v : Pt 3} (h : psq v = 1) : pnorm v = 1 := by unfold pnorm; rw [h, Real.sqrt_one]

theorem mNormalize_of_unit {v : Pt 3} (h : psq v = 1) : mNormalize v = v := by
  unfold mNormalize
  simp only [pnorm_unit h]
  rw [if_neg (by norm_num)]
  funext i; simp

/-- Rodrigues' formula with the square of the cross product matrix expanded. -/
theorem rodrigues_expand (k : Pt 3) (hk : psq k = 1) (s c : ℝ) :
    (1 + s • (!![0, -k 2, k 1; k 2, 0, -k 0; -k 1, k 0, 0] : M33) + (1 - c) • ((!![0, -k 2, k 1; k 2, 0, -k 0; -k 1, k 0, 0] : M33) * !![0, -k 2, k 1; k 2, 0, -k 0; -k 1, k 0, 0])) =
      !![c + (1 - c) * k 0 ^ 2, (1 - c) * (k 0 * k 1) - s * k 2, (1 - c) * (k 0 * k 2) + s * k 1;
         (1 - c) * (k 0 * k 1) + s * k 2, c + (1 - c) * k 1 ^ 2, (1 - c) * (k 1 * k 2) - s * k 0;
         (1 - c) * (k 0 * k 2) - s * k 1, (1 - c) * (k 1 * k 2) + s * k 0, c + (1 - c) * k 2 ^ 2] := by
  rw [psq3] at hk
  ext i j
  fin_cases i <;> fin_cases j <;> simp [Matrix.mul_apply, Fin.sum_univ_three, Matrix.one_apply]
  · linear_combination (-(1 - c)) * hk
  · ring
  · ring
  · ring
  · linear_combination (-(1 - c)) * hk
  · ring
  · ring
  · ring
  · linear_combination (-(1 - c)) * hk

/-- Rodrigues' formula gives a rotation. -/
theorem rodrigues_rot (k : Pt 3) (hk : psq k = 1) (s c : ℝ) (hs : s ^ 2 + c ^ 2 = 1) :
    IsRotation3 (1 + s • (!![0, -k 2, k 1; k 2, 0, -k 0; -k 1, k 0, 0] : M33) + (1 - c) • ((!![0, -k 2, k 1; k 2, 0, -k 0; -k 1, k 0, 0] : M33) * !![0, -k 2, k 1; k 2, 0, -k 0; -k 1, k 0, 0])) := by
  rw [rodrigues_expand k hk]
  rw [psq3] at hk
  generalize k 0 = a at *
  generalize k 1 = b at *
  generalize k 2 = d at *
  constructor
  · ext i j
    fin_cases i <;> fin_cases j <;>
      simp [Matrix.mul_apply, Fin.sum_univ_three, Matrix.one_apply]
    · linear_combination ((1 - c) ^ 2 * a ^ 2 + s ^ 2) * hk + (1 - a ^ 2) * hs
    · linear_combination ((1 - c) ^ 2 * a * b) * hk - (a * b) * hs
    · linear_combination ((1 - c) ^ 2 * a * d) * hk - (a * d) * hs
    · linear_combination ((1 - c) ^ 2 * a * b) * hk - (a * b) * hs
    · linear_combination ((1 - c) ^ 2 * b ^ 2 + s ^ 2) * hk + (1 - b ^ 2) * hs
    · linear_combination ((1 - c) ^ 2 * b * d) * hk - (b * d) * hs
    · linear_combination ((1 - c) ^ 2 * a * d) * hk - (a * d) * hs
    · linear_combination ((1 - c) ^ 2 * b * d) * hk - (b * d) * hs
    · linear_combination ((1 - c) ^ 2 * d ^ 2 + s ^ 2) * hk + (1 - d ^ 2) * hs
  · rw [Matrix.det_fin_three]
    simp
    have : ∀ q : ℝ, q = 1 → c ^ 3 + c * s ^ 2 * q + (1 - c) * (c ^ 2 * q + s ^ 2 * q ^ 2) = 1 := by
      rintro q rfl; linear_combination hs
    linear_combination this _ hk

theorem isRotation3_one : IsRotation3 1 := ⟨by simp, by simp⟩

theorem axisAngle_rot (aa : Pt 3) : IsRotation3 (axisAngleToMatrix aa) := by
  unfold axisAngleToMatrix
  simp only
  split_ifs with h
  · exact isRotation3_one
  · have hp : 0 < pnorm aa := lt_of_lt_of_le (by positivity) (not_lt.mp h)
    refine rodrigues_rot (fun i => aa i / pnorm aa) ?_ _ _ (Real.sin_sq_add_cos_sq _)
    have := pnorm_sq3 aa
    rw [psq3]
    field_simp
    linarith

/-- The formula for a vector of angle `θ` and unit axis `k`. -/
theorem axisAngle_of_unit {k : Pt 3} (hk : psq k = 1) {θ : ℝ} (hθ : 1 / 10 ^ 12 ≤ θ) :
    axisAngleToMatrix (fun i => θ * k i) =
      !![Real.cos θ + (1 - Real.cos θ) * k 0 ^ 2, (1 - Real.cos θ) * (k 0 * k 1) - Real.sin θ * k 2, (1 - Real.cos θ) * (k 0 * k 2) + Real.sin θ * k 1;
         (1 - Real.cos θ) * (k 0 * k 1) + Real.sin θ * k 2, Real.cos θ + (1 - Real.cos θ) * k 1 ^ 2, (1 - Real.cos θ) * (k 1 * k 2) - Real.sin θ * k 0;
         (1 - Real.cos θ) * (k 0 * k 2) - Real.sin θ * k 1, (1 - Real.cos θ) * (k 1 * k 2) + Real.sin θ * k 0, Real.cos θ + (1 - Real.cos θ) * k 2 ^ 2] := by
  have hp : 0 < θ := lt_of_lt_of_le (by positivity) hθ
  have hn : pnorm (fun i => θ * k i) = θ := by
    have h1 := pnorm_sq3 (fun i => θ * k i)
    rw [psq3] at hk
    have h2 : pnorm (fun i => θ * k i) ^ 2 = θ ^ 2 := by rw [h1]; linear_combination θ ^ 2 * hk
    exact (sq_eq_sq₀ (Real.sqrt_nonneg _) hp.le).mp h2
  unfold axisAngleToMatrix
  simp only [hn]
  rw [if_neg (not_lt.mpr hθ)]
  have e : ∀ i, θ * k i / θ = k i := fun i => by field_simp
  simp only [e]
  exact rodrigues_expand k hk _ _

/-- The entries of a rotation equal their cofactors and the columns are orthonormal. -/
structure RotFacts (R : M33) : Prop where
  r00 : R 0 0 ^ 2 + R 0 1 ^ 2 + R 0 2 ^ 2 = 1
  r11 : R 1 0 ^ 2 + R 1 1 ^ 2 + R 1 2 ^ 2 = 1
  r22 : R 2 0 ^ 2 + R 2 1 ^ 2 + R 2 2 ^ 2 = 1
  r01 : R 0 0 * R 1 0 + R 0 1 * R 1 1 + R 0 2 * R 1 2 = 0
  r02 : R 0 0 * R 2 0 + R 0 1 * R 2 1 + R 0 2 * R 2 2 = 0
  r12 : R 1 0 * R 2 0 + R 1 1 * R 2 1 + R 1 2 * R 2 2 = 0
  c00 : R 0 0 ^ 2 + R 1 0 ^ 2 + R 2 0 ^ 2 = 1
  c11 : R 0 1 ^ 2 + R 1 1 ^ 2 + R 2 1 ^ 2 = 1
  c22 : R 0 2 ^ 2 + R 1 2 ^ 2 + R 2 2 ^ 2 = 1
  c01 : R 0 0 * R 0 1 + R 1 0 * R 1 1 + R 2 0 * R 2 1 = 0
  c02 : R 0 0 * R 0 2 + R 1 0 * R 1 2 + R 2 0 * R 2 2 = 0
  c12 : R 0 1 * R 0 2 + R 1 1 * R 1 2 + R 2 1 * R 2 2 = 0
  f00 : R 0 0 = R 1 1 * R 2 2 - R 1 2 * R 2 1
  f11 : R 1 1 = R 0 0 * R 2 2 - R 0 2 * R 2 0
  f22 : R 2 2 = R 0 0 * R 1 1 - R 0 1 * R 1 0
  f01 : R 0 1 = R 1 2 * R 2 0 - R 1 0 * R 2 2
  f10 : R 1 0 = R 0 2 * R 2 1 - R 0 1 * R 2 2
  f02 : R 0 2 = R 1 0 * R 2 1 - R 1 1 * R 2 0
  f20 : R 2 0 = R 0 1 * R 1 2 - R 0 2 * R 1 1
  f12 : R 1 2 = R 0 1 * R 2 0 - R 0 0 * R 2 1
  f21 : R 2 1 = R 0 2 * R 1 0 - R 0 0 * R 1 2

theorem rotFacts {R : M33} (h : IsRotation3 R) : RotFacts R := by
  obtain ⟨h1, hd⟩ := h
  have h2 : R.transpose * R = 1 := mul_eq_one_comm.mp h1
  have hadj : R.transpose = R.adjugate := by
    have : R.transpose * (R * R.adjugate) = R.transpose := by rw [Matrix.mul_adjugate, hd]; simp
    rw [← Matrix.mul_assoc, h2, Matrix.one_mul] at this
    exact this.symm
  have e : ∀ i j, (R * R.transpose) i j = (1 : M33) i j := fun i j => by rw [h1]
  have e' : ∀ i j, (R.transpose * R) i j = (1 : M33) i j := fun i j => by rw [h2]
  have f : ∀ i j, R i j = R.adjugate j i := fun i j => by rw [← hadj]; rfl
  simp only [Matrix.mul_apply, Fin.sum_univ_three, Matrix.transpose_apply, Matrix.one_apply] at e e'
  constructor
  · have := e 0 0; simp at this; linarith
  · have := e 1 1; simp at this; linarith
  · have := e 2 2; simp at this; linarith
  · have := e 0 1; simp at this; linarith
  · have := e 0 2; simp at this; linarith
  · have := e 1 2; simp at this; linarith
  · have := e' 0 0; simp at this; linarith
  · have := e' 1 1; simp at this; linarith
  · have := e' 2 2; simp at this; linarith
  · have := e' 0 1; simp at this; linarith
  · have := e' 0 2; simp at this; linarith
  · have := e' 1 2; simp at this; linarith
  · have := f 0 0; rw [Matrix.adjugate_fin_three] at this; simp at this; linarith
  · have := f 1 1; rw [Matrix.adjugate_fin_three] at this; simp at this; linarith
  · have := f 2 2; rw [Matrix.adjugate_fin_three] at this; simp at this; linarith
  · have := f 0 1; rw [Matrix.adjugate_fin_three] at this; simp at this; linarith
  · have := f 1 0; rw [Matrix.adjugate_fin_three] at this; simp at this; linarith
  · have := f 0 2; rw [Matrix.adjugate_fin_three] at this; simp at this; linarith
  · have := f 2 0; rw [Matrix.adjugate_fin_three] at this; simp at this; linarith
  · have := f 1 2; rw [Matrix.adjugate_fin_three] at this; simp at this; linarith
  · have := f 2 1; rw [Matrix.adjugate_fin_three] at this; simp at this; linarith

theorem trace3 (R : M33) : R.trace = R 0 0 + R 1 1 + R 2 2 := by rw [Matrix.trace_fin_three]

/-- The vector `(R21-R12, R02-R20, R10-R01)` of a rotation with `tr R = 1 + 2 c`. -/
theorem rot_axis {R : M33} (h : RotFacts R) {c : ℝ} (hc : R 0 0 + R 1 1 + R 2 2 = 1 + 2 * c) :
    (R 2 1 - R 1 2) ^ 2 = 4 * (1 + c) * (R 0 0 - c) ∧ (R 0 2 - R 2 0) ^ 2 = 4 * (1 + c) * (R 1 1 - c) ∧ (R 1 0 - R 0 1) ^ 2 = 4 * (1 + c) * (R 2 2 - c) ∧
    (R 2 1 - R 1 2) * (R 0 2 - R 2 0) = 2 * (1 + c) * (R 0 1 + R 1 0) ∧ (R 2 1 - R 1 2) * (R 1 0 - R 0 1) = 2 * (1 + c) * (R 0 2 + R 2 0) ∧
    (R 0 2 - R 2 0) * (R 1 0 - R 0 1) = 2 * (1 + c) * (R 1 2 + R 2 1) := by
  obtain ⟨r00, r11, r22, r01, r02, r12, c00, c11, c22, c01, c02, c12, f00, f11, f22, f01, f10, f02, f20, f12, f21⟩ := h
  have hc' : c = (R 0 0 + R 1 1 + R 2 2 - 1) / 2 := by linarith
  subst hc'
  refine ⟨?_, ?_, ?_, ?_, ?_, ?_⟩
  · linear_combination r11 + r22 - c00 - 2 * f00
  · linear_combination r00 + r22 - c11 - 2 * f11
  · linear_combination r00 + r11 - c22 - 2 * f22
  · linear_combination (-1) * r01 - c01 - f10 - f01
  · linear_combination (-1) * r02 - c02 - f20 - f02
  · linear_combination (-1) * r12 - c12 - f21 - f12

end

end Gpy
