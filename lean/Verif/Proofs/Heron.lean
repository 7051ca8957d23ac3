import Verif.Proofs.Grad

namespace Gpy
open Np Finset

theorem dblArea_eq (r : Row3 ℝ) (h : 0 ≤ r.x0 ∧ 0 ≤ r.x1 ∧ 0 ≤ r.x2) :
    dblArea r = 1 / 2 * Real.sqrt (max (heron r) 0) := by
  obtain ⟨h0, h1, h2⟩ := h
  unfold dblArea heron
  simp only
  rw [show (0.5 : ℝ) = 1 / 2 by norm_num]
  congr 3
  have e0 := Real.sq_sqrt h0
  have e1 := Real.sq_sqrt h1
  have e2 := Real.sq_sqrt h2
  generalize Real.sqrt r.x0 = a at *
  generalize Real.sqrt r.x1 = b at *
  generalize Real.sqrt r.x2 = c at *
  rw [← e0, ← e1, ← e2]; ring

theorem dblArea_sq {r : Row3 ℝ} (h : NonDeg r) : 0 < dblArea r ∧ 4 * dblArea r ^ 2 = heron r := by
  obtain ⟨h0, h1, h2, hp⟩ := h
  rw [dblArea_eq r ⟨h0, h1, h2⟩, max_eq_left hp.le]
  have := Real.sq_sqrt hp.le
  have hpos := Real.sqrt_pos.mpr hp
  exact ⟨by linarith, by rw [mul_pow, this]; ring⟩

theorem nonDeg_of {r : Row3 ℝ} (h : 0 ≤ r.x0 ∧ 0 ≤ r.x1 ∧ 0 ≤ r.x2) (hA : dblArea r ≠ 0) : NonDeg r := by
  refine ⟨h.1, h.2.1, h.2.2, ?_⟩
  by_contra hn
  apply hA
  rw [dblArea_eq r h, max_eq_right (not_lt.mp hn), Real.sqrt_zero, mul_zero]

theorem NonDeg.pos {r : Row3 ℝ} (h : NonDeg r) : 0 < r.x0 ∧ 0 < r.x1 ∧ 0 < r.x2 := by
  obtain ⟨h0, h1, h2, hp⟩ := h
  unfold heron at hp
  refine ⟨lt_of_le_of_ne h0 ?_, lt_of_le_of_ne h1 ?_, lt_of_le_of_ne h2 ?_⟩ <;> intro h <;> rw [← h] at hp
  · nlinarith [sq_nonneg (r.x1 - r.x2)]
  · nlinarith [sq_nonneg (r.x0 - r.x2)]
  · nlinarith [sq_nonneg (r.x0 - r.x1)]

theorem cot_some {lsq : List (Row3 ℝ)} {F : List Tri} (h : LsqNonDeg lsq F) :
    cotangentWeightsIntrinsic lsq F = some (lsq.map cotRow) := by
  unfold cotangentWeightsIntrinsic
  rw [if_pos]
  refine ⟨⟨h.1, fun r hr => ?_⟩, fun r hr => (dblArea_sq (h.2 r hr)).1.ne'⟩
  obtain ⟨h0, h1, h2, _⟩ := h.2 r hr
  exact ⟨h0, h1, h2⟩

theorem dbl_some {lsq : List (Row3 ℝ)} {F : List Tri} (h : LsqNonDeg lsq F) :
    doubleareaIntrinsic lsq F = some (lsq.map dblArea) := by
  unfold doubleareaIntrinsic
  rw [if_pos]
  refine ⟨h.1, fun r hr => ?_⟩
  obtain ⟨h0, h1, h2, _⟩ := h.2 r hr
  exact ⟨h0, h1, h2⟩

/-- the Dirichlet energy of a triangle is nonnegative -/
theorem cot_energy_nonneg {r : Row3 ℝ} (h : NonDeg r) (ua ub uc : ℝ) :
    0 ≤ (cotRow r).x0 * (ub - uc) * (ub - uc) + (cotRow r).x1 * (uc - ua) * (uc - ua) + (cotRow r).x2 * (ua - ub) * (ua - ub) := by
  have hD := (dblArea_sq h).1
  have hx := h.pos
  have key : (cotRow r).x0 * (ub - uc) * (ub - uc) + (cotRow r).x1 * (uc - ua) * (uc - ua)
      + (cotRow r).x2 * (ua - ub) * (ua - ub) = (1 / 4) / dblArea r *
      ((r.x1 + r.x2 - r.x0) * (ub - uc) ^ 2 + (r.x2 + r.x0 - r.x1) * (uc - ua) ^ 2 + (r.x0 + r.x1 - r.x2) * (ua - ub) ^ 2) := by
    unfold cotRow; simp only
    rw [show (0.25 : ℝ) = 1 / 4 by norm_num]; field_simp
  rw [key]
  apply mul_nonneg (by positivity)
  have hh := h.2.2.2
  unfold heron at hh
  have h3 : 0 < r.x2 := hx.2.2
  set Q := (r.x1 + r.x2 - r.x0) * (ub - uc) ^ 2 + (r.x2 + r.x0 - r.x1) * (uc - ua) ^ 2 + (r.x0 + r.x1 - r.x2) * (ua - ub) ^ 2
  have : 0 ≤ 2 * r.x2 * Q := by
    have e : 2 * r.x2 * Q = (2 * r.x2 * (uc - ua) + (r.x1 + r.x2 - r.x0) * (ua - ub)) ^ 2 +
      (2 * (r.x0 * r.x1 + r.x1 * r.x2 + r.x2 * r.x0) - (r.x0 ^ 2 + r.x1 ^ 2 + r.x2 ^ 2)) * (ua - ub) ^ 2 := by
      simp only [Q]; ring
    rw [e]; positivity
  by_contra hneg
  have : 2 * r.x2 * Q < 0 := mul_neg_of_pos_of_neg (by linarith) (not_le.mp hneg)
  linarith

/-- squared side lengths of the triangle `abc`, opposite to the corners -/
def lens (a b c : V3 ℝ) : Row3 ℝ := ⟨V3.normSq (c - b), V3.normSq (a - c), V3.normSq (b - a)⟩

theorem heron_lens (a b c : V3 ℝ) : heron (lens a b c) = 4 * V3.normSq (V3.cross (c - b) (a - c)) := by
  simp only [heron, lens, V3.normSq, V3.dot, V3.cross, V3.sub_x, V3.sub_y, V3.sub_z]; ring

theorem nonDeg_lens {a b c : V3 ℝ} (h : 0 < V3.normSq (V3.cross (c - b) (a - c))) : NonDeg (lens a b c) :=
  ⟨V3.normSq_nonneg _, V3.normSq_nonneg _, V3.normSq_nonneg _, by rw [heron_lens]; linarith⟩

theorem cross_cyc (a b c : V3 ℝ) : V3.cross (c - b) (a - c) = V3.cross (b - a) (c - a) := by
  apply V3.ext <;> simp only [V3.cross, V3.sub_x, V3.sub_y, V3.sub_z] <;> ring

theorem dblArea_lens (a b c : V3 ℝ) : dblArea (lens a b c) = (V3.cross (c - b) (a - c)).norm := by
  rw [dblArea_eq _ ⟨V3.normSq_nonneg _, V3.normSq_nonneg _, V3.normSq_nonneg _⟩, heron_lens]
  have hn := V3.normSq_nonneg (V3.cross (c - b) (a - c))
  rw [max_eq_left (by linarith), show (4 : ℝ) = 2 ^ 2 by norm_num, Real.sqrt_mul (by norm_num), Real.sqrt_sq (by norm_num)]
  unfold V3.norm; ring

/-- per-triangle identity behind `L = Gᵀ A G` -/
theorem tri_energy {a b c : V3 ℝ} (h : 0 < V3.normSq (V3.cross (c - b) (a - c))) (ua ub uc wa wb wc : ℝ) :
    (cotRow (lens a b c)).x0 * (ub - uc) * (wb - wc) + (cotRow (lens a b c)).x1 * (uc - ua) * (wc - wa)
      + (cotRow (lens a b c)).x2 * (ua - ub) * (wa - wb) =
    1 / 2 * (V3.cross (c - b) (a - c)).norm * V3.dot (triGrad a b c ua ub uc) (triGrad a b c wa wb wc) := by
  set n := V3.cross (c - b) (a - c) with hn
  have hA : (gradTri a b c).2 = n.norm := rfl
  have hApos : 0 < n.norm := Real.sqrt_pos.mpr h
  obtain ⟨_, _, _, g1, g2⟩ := gradTri_eq a b c (by rw [hA]; exact hApos.ne')
  rw [← hn] at g1 g2
  have hsq := V3.norm_sq n
  unfold triGrad
  simp only [g1, g2]
  have hdA : dblArea (lens a b c) = n.norm := dblArea_lens a b c
  have hL : (cotRow (lens a b c)).x0 * (ub - uc) * (wb - wc) + (cotRow (lens a b c)).x1 * (uc - ua) * (wc - wa)
      + (cotRow (lens a b c)).x2 * (ua - ub) * (wa - wb) = (1 / 4) / n.norm *
      (((lens a b c).x1 + (lens a b c).x2 - (lens a b c).x0) * (ub - uc) * (wb - wc)
        + ((lens a b c).x2 + (lens a b c).x0 - (lens a b c).x1) * (uc - ua) * (wc - wa)
        + ((lens a b c).x0 + (lens a b c).x1 - (lens a b c).x2) * (ua - ub) * (wa - wb)) := by
    unfold cotRow; simp only [hdA]
    rw [show (0.25 : ℝ) = 1 / 4 by norm_num]; field_simp
  rw [hL]
  have hR : V3.dot ((ub - ua) • (1 / V3.normSq n) • V3.cross n (a - c) + (uc - ua) • (1 / V3.normSq n) • V3.cross n (b - a))
      ((wb - wa) • (1 / V3.normSq n) • V3.cross n (a - c) + (wc - wa) • (1 / V3.normSq n) • V3.cross n (b - a)) =
      (1 / V3.normSq n) ^ 2 * V3.dot ((ub - ua) • V3.cross n (a - c) + (uc - ua) • V3.cross n (b - a))
      ((wb - wa) • V3.cross n (a - c) + (wc - wa) • V3.cross n (b - a)) := by
    simp only [V3.dot, V3.add_x, V3.add_y, V3.add_z, V3.smul_x, V3.smul_y, V3.smul_z]; ring
  rw [hR]
  have hdot : V3.dot ((ub - ua) • V3.cross n (a - c) + (uc - ua) • V3.cross n (b - a))
      ((wb - wa) • V3.cross n (a - c) + (wc - wa) • V3.cross n (b - a)) = V3.normSq n *
      V3.dot ((ub - ua) • (a - c) + (uc - ua) • (b - a)) ((wb - wa) • (a - c) + (wc - wa) • (b - a)) := by
    have p1 : V3.dot n (a - c) = 0 := by simp only [n, V3.dot, V3.cross]; ring
    have p2 : V3.dot n (b - a) = 0 := by simp only [n, V3.dot, V3.cross, V3.sub_x, V3.sub_y, V3.sub_z]; ring
    have gen : ∀ x y : V3 ℝ, V3.dot (V3.cross n x) (V3.cross n y) = V3.normSq n * V3.dot x y - V3.dot n x * V3.dot n y := by
      intro x y; simp only [V3.normSq, V3.dot, V3.cross]; ring
    have lin : ∀ (s t : ℝ) (x y : V3 ℝ), s • V3.cross n x + t • V3.cross n y = V3.cross n (s • x + t • y) := by
      intro s t x y; apply V3.ext <;> simp only [V3.cross, V3.add_x, V3.add_y, V3.add_z, V3.smul_x, V3.smul_y, V3.smul_z] <;> ring
    have lin2 : ∀ (s t : ℝ) (x y : V3 ℝ), V3.dot n (s • x + t • y) = s * V3.dot n x + t * V3.dot n y := by
      intro s t x y; simp only [V3.dot, V3.add_x, V3.add_y, V3.add_z, V3.smul_x, V3.smul_y, V3.smul_z]; ring
    rw [lin, lin, gen, lin2, lin2, p1, p2]; ring
  rw [hdot, ← hsq]
  have hne := hApos.ne'
  have : (lens a b c).x1 + (lens a b c).x2 - (lens a b c).x0 = 2 * V3.dot (a - c) (a - b) := by
    simp only [lens, V3.normSq, V3.dot, V3.sub_x, V3.sub_y, V3.sub_z]; ring
  field_simp
  simp only [lens, V3.normSq, V3.dot, V3.add_x, V3.add_y, V3.add_z, V3.smul_x, V3.smul_y, V3.smul_z, V3.sub_x, V3.sub_y, V3.sub_z]
  ring

theorem hls_some {V : List (V3 ℝ)} {F : List Tri} (hne : F ≠ []) (hF : InRange F V.length) :
    halfedgeLengthsSquared V F = some (F.map (fun t => lens (V.getD t.a 0) (V.getD t.b 0) (V.getD t.c 0))) := by
  unfold halfedgeLengthsSquared
  have hV : V ≠ [] := by
    rintro rfl
    obtain ⟨t, ht⟩ := List.exists_mem_of_ne_nil F hne
    have := (hF t ht).1
    simp at this
  rw [if_neg (by simp [hV, hne])]
  apply mapM_eq_some_map
  intro t ht
  obtain ⟨h1, h2, h3⟩ := hF t ht
  simp [List.getElem?_eq_getElem h1, List.getElem?_eq_getElem h2, List.getElem?_eq_getElem h3, lens]

end Gpy
