import Verif.Proofs.Matryoshka

/-! Lemmas for C98: `_matrix_to_axis_angle` inverts `_axis_angle_to_matrix`. -/

set_option autoImplicit false
namespace Gpy

noncomputable section

theorem rot_cos {R : M33} (h : RotFacts R) : -1 ≤ 1 / 2 * (R.trace - 1) ∧ 1 / 2 * (R.trace - 1) ≤ 1 := by
  rw [trace3]
  obtain ⟨a, b, d, -⟩ := rot_axis h (c := 1 / 2 * (R 0 0 + R 1 1 + R 2 2 - 1)) (by ring)
  set c := 1 / 2 * (R 0 0 + R 1 1 + R 2 2 - 1) with hc
  have hs : 0 ≤ 4 * ((1 + c) * (1 - c)) := by
    have : 4 * ((1 + c) * (1 - c)) = (R 2 1 - R 1 2) ^ 2 + (R 0 2 - R 2 0) ^ 2 + (R 1 0 - R 0 1) ^ 2 := by
      rw [a, b, d, hc]; ring
    rw [this]; positivity
  constructor <;> nlinarith

theorem sinθ_sq {c : ℝ} : Real.sin (Real.arccos c) ^ 2 = 1 - Real.cos (Real.arccos c) ^ 2 := by
  have := Real.sin_sq_add_cos_sq (Real.arccos c); linarith

theorem roundTrip_mid {R : M33} (h : IsRotation3 R) (h1 : 1 / 10 ^ 12 ≤ rotAngle R) (h2 : 1 / 10 ^ 6 ≤ Real.pi - rotAngle R) :
    axisAngleToMatrix (matrixToAxisAngle R) = R := by
  have hf := rotFacts h
  obtain ⟨hl, hu⟩ := rot_cos hf
  unfold rotAngle at h1 h2
  unfold matrixToAxisAngle
  simp only
  rw [max_eq_left hl, min_eq_left hu, if_neg (not_lt.mpr h1), if_neg (not_lt.mpr h2)]
  rw [trace3] at hl hu h1 h2 ⊢
  obtain ⟨a, b, d, e, f, g⟩ := rot_axis hf (c := 1 / 2 * (R 0 0 + R 1 1 + R 2 2 - 1)) (by ring)
  have hcos := Real.cos_arccos hl hu
  have hsq := sinθ_sq (c := 1 / 2 * (R 0 0 + R 1 1 + R 2 2 - 1))
  set c := 1 / 2 * (R 0 0 + R 1 1 + R 2 2 - 1) with hc
  set θ := Real.arccos c
  have hspos : 0 < Real.sin θ := Real.sin_pos_of_pos_of_lt_pi (lt_of_lt_of_le (by positivity) h1) (by
    have : (0:ℝ) < 1 / 10 ^ 6 := by positivity
    linarith)
  rw [hcos] at hsq
  set s := Real.sin θ
  have hs2 : s ^ 2 = (1 + c) * (1 - c) := by rw [hsq]; ring
  have hprod : 0 < (1 + c) * (1 - c) := by rw [← hs2]; positivity
  have hcp : 0 < 1 + c := by
    rcases (show (0:ℝ) ≤ 1 + c by linarith).lt_or_eq with h | h
    · exact h
    · rw [← h] at hprod; simp at hprod
  have hcm : 0 < 1 - c := by
    rcases (show (0:ℝ) ≤ 1 - c by linarith).lt_or_eq with h | h
    · exact h
    · rw [← h] at hprod; simp at hprod
  set k : Pt 3 := fun j => ![R 2 1 - R 1 2, R 0 2 - R 2 0, R 1 0 - R 0 1] j / (2 * s) with hk
  have k0 : 2 * s * k 0 = R 2 1 - R 1 2 := by simp only [hk]; simp; field_simp
  have k1 : 2 * s * k 1 = R 0 2 - R 2 0 := by simp only [hk]; simp; field_simp
  have k2 : 2 * s * k 2 = R 1 0 - R 0 1 := by simp only [hk]; simp; field_simp
  rw [← k0, ← k1] at e
  rw [← k0, ← k2] at f
  rw [← k1, ← k2] at g
  rw [← k0] at a
  rw [← k1] at b
  rw [← k2] at d
  have cancel : ∀ x y : ℝ, (4 * (1 + c)) * x = (4 * (1 + c)) * y → x = y := fun x y hxy => mul_left_cancel₀ (by positivity) hxy
  have q0 : (1 - c) * k 0 ^ 2 = R 0 0 - c := cancel _ _ (by linear_combination a - 4 * k 0 ^ 2 * hs2)
  have q1 : (1 - c) * k 1 ^ 2 = R 1 1 - c := cancel _ _ (by linear_combination b - 4 * k 1 ^ 2 * hs2)
  have q2 : (1 - c) * k 2 ^ 2 = R 2 2 - c := cancel _ _ (by linear_combination d - 4 * k 2 ^ 2 * hs2)
  have q01 : (1 - c) * (k 0 * k 1) = (R 0 1 + R 1 0) / 2 := cancel _ _ (by linear_combination e - 4 * (k 0 * k 1) * hs2)
  have q02 : (1 - c) * (k 0 * k 2) = (R 0 2 + R 2 0) / 2 := cancel _ _ (by linear_combination f - 4 * (k 0 * k 2) * hs2)
  have q12 : (1 - c) * (k 1 * k 2) = (R 1 2 + R 2 1) / 2 := cancel _ _ (by linear_combination g - 4 * (k 1 * k 2) * hs2)
  have hunit : psq k = 1 := by
    rw [psq3]
    refine mul_left_cancel₀ hcm.ne' ?_
    rw [mul_add, mul_add, q0, q1, q2, hc]; ring
  rw [axisAngle_of_unit hunit h1, hcos]
  change !![c + (1 - c) * k 0 ^ 2, (1 - c) * (k 0 * k 1) - s * k 2, (1 - c) * (k 0 * k 2) + s * k 1;
         (1 - c) * (k 0 * k 1) + s * k 2, c + (1 - c) * k 1 ^ 2, (1 - c) * (k 1 * k 2) - s * k 0;
         (1 - c) * (k 0 * k 2) - s * k 1, (1 - c) * (k 1 * k 2) + s * k 0, c + (1 - c) * k 2 ^ 2] = R
  rw [q0, q1, q2, q01, q02, q12]
  ext i j
  fin_cases i <;> fin_cases j <;> simp <;> linarith

theorem roundTrip_one : axisAngleToMatrix (matrixToAxisAngle 1) = 1 := by
  have : matrixToAxisAngle 1 = fun _ => 0 := by
    unfold matrixToAxisAngle
    simp only
    rw [if_pos]
    rw [trace3]
    norm_num
  rw [this]
  unfold axisAngleToMatrix
  simp only
  rw [if_pos]
  have : pnorm (fun _ : Fin 3 => (0 : ℝ)) = 0 := by unfold pnorm; rw [psq3]; simp
  rw [this]; positivity

theorem roundTrip_pi {R : M33} (h : IsRotation3 R) (h1 : 1 / 10 ^ 12 ≤ rotAngle R) (h2 : Real.pi - rotAngle R < 1 / 10 ^ 6) (hR : R * R = 1) :
    axisAngleToMatrix (matrixToAxisAngle R) = R := by
  have hsymm : R.transpose = R := by
    have : R * R * R.transpose = R := by rw [Matrix.mul_assoc, h.1, Matrix.mul_one]
    rw [hR, Matrix.one_mul] at this
    exact this
  have hf := rotFacts h
  obtain ⟨hl, hu⟩ := rot_cos hf
  have s10 : R 1 0 = R 0 1 := by have := congrFun (congrFun hsymm 0) 1; simpa using this
  have s20 : R 2 0 = R 0 2 := by have := congrFun (congrFun hsymm 0) 2; simpa using this
  have s21 : R 2 1 = R 1 2 := by have := congrFun (congrFun hsymm 1) 2; simpa using this
  have htr : R 0 0 + R 1 1 + R 2 2 = -1 := by
    obtain ⟨a, b, d, -⟩ := rot_axis hf (c := 1 / 2 * (R 0 0 + R 1 1 + R 2 2 - 1)) (by ring)
    rw [s21] at a; rw [s20] at b; rw [s10] at d
    by_contra hne
    have hc1 : 1 / 2 * (R 0 0 + R 1 1 + R 2 2 - 1) = 1 := by
      have hz : (1 + 1 / 2 * (R 0 0 + R 1 1 + R 2 2 - 1)) * (1 - 1 / 2 * (R 0 0 + R 1 1 + R 2 2 - 1)) = 0 := by linear_combination (-1 / 4) * (a + b + d)
      rcases mul_eq_zero.mp hz with hz | hz
      · exact absurd (by linarith) hne
      · linarith
    unfold rotAngle at h1
    rw [trace3, hc1, Real.arccos_one] at h1
    norm_num at h1
  have hang : rotAngle R = Real.pi := by
    unfold rotAngle; rw [trace3, htr]; norm_num
  obtain ⟨-, -, -, -, -, -, -, -, -, -, -, -, f00, f11, f22, f01, -, f02, -, f12, -⟩ := hf
  rw [s21] at f00
  rw [s20] at f11
  rw [s10] at f22
  rw [s10, s20] at f01
  rw [s10, s20, s21] at f02
  rw [s20, s21] at f12
  unfold matrixToAxisAngle
  simp only
  rw [max_eq_left hl, min_eq_left hu]
  change axisAngleToMatrix (if rotAngle R < 1 / 10 ^ 12 then fun _ => 0 else if Real.pi - rotAngle R < 1 / 10 ^ 6 then _ else _) = R
  rw [if_neg (not_lt.mpr h1), if_pos h2]
  have hang' : Real.arccos (1 / 2 * (R.trace - 1)) = Real.pi := hang
  rw [hang']
  set M : M33 := (1 / 2 : ℝ) • (R + 1) with hM
  have mm : ∀ i j, M i j = (R i j + (1 : M33) i j) / 2 := fun i j => by rw [hM, Matrix.smul_apply, Matrix.add_apply, smul_eq_mul]; ring
  have m00 : M 0 0 = (R 0 0 + 1) / 2 := by rw [mm]; simp
  have m11 : M 1 1 = (R 1 1 + 1) / 2 := by rw [mm]; simp
  have m22 : M 2 2 = (R 2 2 + 1) / 2 := by rw [mm]; simp
  have m01 : M 0 1 = R 0 1 / 2 := by rw [mm]; simp
  have m02 : M 0 2 = R 0 2 / 2 := by rw [mm]; simp
  have m12 : M 1 2 = R 1 2 / 2 := by rw [mm]; simp
  have m10 : M 1 0 = R 0 1 / 2 := by rw [mm, s10]; simp
  have m20 : M 2 0 = R 0 2 / 2 := by rw [mm, s20]; simp
  have m21 : M 2 1 = R 1 2 / 2 := by rw [mm, s21]; simp
  -- rank one
  have p01 : (R 0 0 + 1) * (R 1 1 + 1) = R 0 1 ^ 2 := by linear_combination htr - f22
  have p02 : (R 0 0 + 1) * (R 2 2 + 1) = R 0 2 ^ 2 := by linear_combination htr - f11
  have p12 : (R 1 1 + 1) * (R 2 2 + 1) = R 1 2 ^ 2 := by linear_combination htr - f00
  have p0 : (R 0 0 + 1) * R 1 2 = R 0 1 * R 0 2 := by linear_combination f12
  have p1 : (R 1 1 + 1) * R 0 2 = R 0 1 * R 1 2 := by linear_combination f02
  have p2 : (R 2 2 + 1) * R 0 1 = R 0 2 * R 1 2 := by linear_combination f01
  have key : ∀ i : Fin 3, 1 / 3 ≤ M i i →
      axisAngleToMatrix (fun j => Real.pi * (M j i / Real.sqrt (max (M i i) (1 / 10 ^ 12))) / pnorm (fun j => M j i / Real.sqrt (max (M i i) (1 / 10 ^ 12)))) = R := by
    intro i hi
    have hpos : 0 < M i i := lt_of_lt_of_le (by norm_num) hi
    have hmax : max (M i i) (1 / 10 ^ 12) = M i i := max_eq_left (le_trans (by norm_num) hi)
    rw [hmax]
    set r := Real.sqrt (M i i) with hr
    have hr2 : r ^ 2 = M i i := Real.sq_sqrt hpos.le
    have hrp : 0 < r := Real.sqrt_pos.mpr hpos
    set k : Pt 3 := fun j => M j i / r with hk
    have hprod : ∀ j l, M j i * M l i = M i i * M j l := by
      intro j l
      fin_cases i <;> fin_cases j <;> fin_cases l <;> simp only [Fin.zero_eta, Fin.mk_one, Fin.reduceFinMk, m00, m11, m22, m01, m02, m12, m10, m20, m21] <;> first | ring1 | linear_combination (-1 / 4) * p01 | linear_combination (-1 / 4) * p02 | linear_combination (-1 / 4) * p12 | linear_combination (-1 / 4) * p0 | linear_combination (-1 / 4) * p1 | linear_combination (-1 / 4) * p2
    have hkk : ∀ j l, k j * k l = M j l := by
      intro j l
      simp only [hk]
      rw [div_mul_div_comm, hprod, ← hr2]
      field_simp
    have hunit : psq k = 1 := by
      rw [psq3, sq, sq, sq, hkk, hkk, hkk, m00, m11, m22]; linarith
    rw [pnorm_unit hunit]
    simp only [div_one]
    rw [axisAngle_of_unit hunit (le_trans (by norm_num) Real.two_le_pi)]
    rw [Real.cos_pi, Real.sin_pi, sq, sq, sq, hkk, hkk, hkk, hkk, hkk, hkk, m00, m11, m22, m01, m02, m12]
    ext a b
    fin_cases a <;> fin_cases b <;> simp <;> linarith
  apply key
  have : M 0 0 + M 1 1 + M 2 2 = 1 := by rw [m00, m11, m22]; linarith
  split_ifs with ha hb
  · linarith [ha.1, ha.2]
  · rw [not_and_or, not_le, not_le] at ha
    rcases ha with ha | ha <;> linarith
  · rw [not_and_or, not_le, not_le] at ha
    rcases ha with ha | ha <;> linarith

/-- **Round trip**: exact for the identity, for half turns and for every rotation whose angle is neither tiny nor within `1e-6` of `π`. -/
theorem roundTrip {R : M33} (h : IsRotation3 R) (h1 : R = 1 ∨ 1 / 10 ^ 12 ≤ rotAngle R) (h2 : R * R = 1 ∨ 1 / 10 ^ 6 ≤ Real.pi - rotAngle R) :
    axisAngleToMatrix (matrixToAxisAngle R) = R := by
  rcases h1 with rfl | h1
  · exact roundTrip_one
  · rcases lt_or_ge (Real.pi - rotAngle R) (1 / 10 ^ 6) with h3 | h3
    · rcases h2 with h2 | h2
      · exact roundTrip_pi h h1 h3 h2
      · exact absurd h3 (not_lt.mpr h2)
    · exact roundTrip_mid h h1 h3

end

end Gpy
