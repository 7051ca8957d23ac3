import Verif.Proofs.PtTriangle
import Verif.Spec.Convex
import Mathlib.Algebra.BigOperators.Field

set_option autoImplicit false
namespace Gpy
open Np
variable {d : ℕ}

/-! ### barycentric coordinates -/

theorem bary3_of_comb {v1 v2 v3 : V3 ℝ} (hN : V3.normSq (V3.cross (v2 - v1) (v3 - v1)) ≠ 0) {x y z : ℝ} (h : x + y + z = 1) :
    barycentric3 (x • v1 + y • v2 + z • v3) v1 v2 v3 = ⟨x, y, z⟩ := by
  have hx : x = 1 - y - z := by linarith
  subst hx
  have h1 : V3.dot (V3.cross (v2 - v1) ((1 - y - z) • v1 + y • v2 + z • v3 - v1)) (V3.cross (v2 - v1) (v3 - v1))
      = z * V3.normSq (V3.cross (v2 - v1) (v3 - v1)) := by
    simp [V3.dot, V3.cross, V3.normSq]; ring
  have h2 : V3.dot (V3.cross ((1 - y - z) • v1 + y • v2 + z • v3 - v1) (v3 - v1)) (V3.cross (v2 - v1) (v3 - v1))
      = y * V3.normSq (V3.cross (v2 - v1) (v3 - v1)) := by
    simp [V3.dot, V3.cross, V3.normSq]; ring
  unfold barycentric3
  dsimp only
  rw [h1, h2, mul_div_cancel_right₀ _ hN, mul_div_cancel_right₀ _ hN]

theorem bary3_plane {p v1 v2 v3 : V3 ℝ} (hN : V3.normSq (V3.cross (v2 - v1) (v3 - v1)) ≠ 0)
    (hp : V3.dot (p - v1) (V3.cross (v2 - v1) (v3 - v1)) = 0) :
    ∃ x y z : ℝ, x + y + z = 1 ∧ p = x • v1 + y • v2 + z • v3 := by
  set n2 := V3.normSq (V3.cross (v2 - v1) (v3 - v1)) with hn2
  set g := V3.dot (V3.cross (v2 - v1) (p - v1)) (V3.cross (v2 - v1) (v3 - v1)) with hg
  set b := V3.dot (V3.cross (p - v1) (v3 - v1)) (V3.cross (v2 - v1) (v3 - v1)) with hb
  refine ⟨1 - b / n2 - g / n2, b / n2, g / n2, by ring, ?_⟩
  have key : ∀ (w u v N : ℝ), n2 * w = b * u + g * v → w = b / n2 * u + g / n2 * v := by
    intro w u v N h
    field_simp
    linarith
  have kx : p.x - v1.x = b / n2 * (v2.x - v1.x) + g / n2 * (v3.x - v1.x) := by
    apply key _ _ _ 0
    have h0 : n2 * (p.x - v1.x) - b * (v2.x - v1.x) - g * (v3.x - v1.x)
        = V3.dot (p - v1) (V3.cross (v2 - v1) (v3 - v1)) * (V3.cross (v2 - v1) (v3 - v1)).x := by
      rw [hn2, hb, hg]; simp [V3.dot, V3.cross, V3.normSq]; ring
    rw [hp] at h0; linarith
  have ky : p.y - v1.y = b / n2 * (v2.y - v1.y) + g / n2 * (v3.y - v1.y) := by
    apply key _ _ _ 0
    have h0 : n2 * (p.y - v1.y) - b * (v2.y - v1.y) - g * (v3.y - v1.y)
        = V3.dot (p - v1) (V3.cross (v2 - v1) (v3 - v1)) * (V3.cross (v2 - v1) (v3 - v1)).y := by
      rw [hn2, hb, hg]; simp [V3.dot, V3.cross, V3.normSq]; ring
    rw [hp] at h0; linarith
  have kz : p.z - v1.z = b / n2 * (v2.z - v1.z) + g / n2 * (v3.z - v1.z) := by
    apply key _ _ _ 0
    have h0 : n2 * (p.z - v1.z) - b * (v2.z - v1.z) - g * (v3.z - v1.z)
        = V3.dot (p - v1) (V3.cross (v2 - v1) (v3 - v1)) * (V3.cross (v2 - v1) (v3 - v1)).z := by
      rw [hn2, hb, hg]; simp [V3.dot, V3.cross, V3.normSq]; ring
    rw [hp] at h0; linarith
  ext
  · simp; linarith
  · simp; linarith
  · simp; linarith

theorem bary2_of_comb {v1 v2 v3 : ℝ × ℝ} (hN : signedDoublearea2 v1 v2 v3 ≠ 0) {x y z : ℝ} (h : x + y + z = 1) :
    barycentric2 (x • v1 + y • v2 + z • v3) v1 v2 v3 = ⟨x, y, z⟩ := by
  have hx : x = 1 - y - z := by linarith
  subst hx
  have h1 : signedDoublearea2 ((1 - y - z) • v1 + y • v2 + z • v3) v2 v3 = (1 - y - z) * signedDoublearea2 v1 v2 v3 := by
    simp [signedDoublearea2]; ring
  have h2 : signedDoublearea2 v1 ((1 - y - z) • v1 + y • v2 + z • v3) v3 = y * signedDoublearea2 v1 v2 v3 := by
    simp [signedDoublearea2]; ring
  have h3 : signedDoublearea2 v1 v2 ((1 - y - z) • v1 + y • v2 + z • v3) = z * signedDoublearea2 v1 v2 v3 := by
    simp [signedDoublearea2]; ring
  unfold barycentric2
  dsimp only
  rw [h1, h2, h3, mul_div_cancel_right₀ _ hN, mul_div_cancel_right₀ _ hN, mul_div_cancel_right₀ _ hN]

theorem bary2_plane {v1 v2 v3 : ℝ × ℝ} (hN : signedDoublearea2 v1 v2 v3 ≠ 0) (p : ℝ × ℝ) :
    ∃ x y z : ℝ, x + y + z = 1 ∧ p = x • v1 + y • v2 + z • v3 := by
  set a := signedDoublearea2 v1 v2 v3 with ha
  refine ⟨signedDoublearea2 p v2 v3 / a, signedDoublearea2 v1 p v3 / a, signedDoublearea2 v1 v2 p / a, ?_, ?_⟩
  · rw [← add_div, ← add_div, div_eq_one_iff_eq hN, ha]; simp [signedDoublearea2]; ring
  · ext
    · simp; field_simp; rw [ha]; simp [signedDoublearea2]; ring
    · simp; field_simp; rw [ha]; simp [signedDoublearea2]; ring

/-! ### the segment and triangle cases -/

theorem psq_nonneg (x : Pt d) : 0 ≤ psq x := Finset.sum_nonneg (fun i _ => sq_nonneg _)

theorem pnorm_sq (x : Pt d) : pnorm x ^ 2 = psq x := Real.sq_sqrt (psq_nonneg x)

theorem pdot_self (x : Pt d) : pdot x x = psq x := by
  simp [pdot, psq, sq]

theorem psq_tri (v0 E0 E1 p : Pt d) (s t : ℝ) :
    psq (fun i => v0 i + s * E0 i + t * E1 i - p i) =
      s ^ 2 * pdot E0 E0 + 2 * s * t * pdot E0 E1 + t ^ 2 * pdot E1 E1 + 2 * s * pdot E0 (v0 - p) + 2 * t * pdot E1 (v0 - p)
        + pdot (v0 - p) (v0 - p) := by
  simp only [psq, pdot, Finset.mul_sum, ← Finset.sum_add_distrib, Pi.sub_apply]
  apply Finset.sum_congr rfl
  intro i _
  ring

theorem psq_lin (E0 E1 : Pt d) (s t : ℝ) :
    0 ≤ s ^ 2 * pdot E0 E0 + 2 * s * t * pdot E0 E1 + t ^ 2 * pdot E1 E1 := by
  have h := psq_tri 0 E0 E1 0 s t
  have h2 : pdot E0 ((0 : Pt d) - 0) = 0 := by simp [pdot]
  have h3 : pdot E1 ((0 : Pt d) - 0) = 0 := by simp [pdot]
  have h4 : pdot ((0 : Pt d) - 0) ((0 : Pt d) - 0) = 0 := by simp [pdot]
  rw [h2, h3, h4] at h
  have := psq_nonneg (fun i => (0 : Pt d) i + s * E0 i + t * E1 i - (0 : Pt d) i)
  rw [h] at this
  linarith

theorem gram_pos_parts {x y z : Pt d} (h : 0 < gram x y z) : 0 < pdot (y - x) (y - x) ∧ 0 < pdot (z - x) (z - x) := by
  unfold gram at h
  have h1 : 0 ≤ pdot (y - x) (y - x) := by rw [pdot_self]; exact psq_nonneg _
  have h2 : 0 ≤ pdot (z - x) (z - x) := by rw [pdot_self]; exact psq_nonneg _
  constructor
  · rcases h1.lt_or_eq with h' | h'
    · exact h'
    · rw [← h'] at h; nlinarith [mul_self_nonneg (pdot (y - x) (z - x))]
  · rcases h2.lt_or_eq with h' | h'
    · exact h'
    · rw [← h'] at h; nlinarith [mul_self_nonneg (pdot (y - x) (z - x))]

/-- the triangle case -/
theorem pointTriangle_spec {x y z p : Pt d} (h : 0 < gram x y z) :
    ∃ s t : ℝ, 0 ≤ s ∧ 0 ≤ t ∧ s + t ≤ 1 ∧
      (pointTriangleDistance x y z p).2 = (fun i => x i + s * (y - x) i + t * (z - x) i) ∧
      (pointTriangleDistance x y z p).1 = psq (fun i => x i + s * (y - x) i + t * (z - x) i - p i) ∧
      ∀ s' t' : ℝ, 0 ≤ s' → 0 ≤ t' → s' + t' ≤ 1 →
        (pointTriangleDistance x y z p).1 ≤ psq (fun i => x i + s' * (y - x) i + t' * (z - x) i - p i) := by
  obtain ⟨ha, hc⟩ := gram_pos_parts h
  have H := ptTriangle_opt (b := pdot (y - x) (z - x)) (d := pdot (y - x) (x - p)) (e := pdot (z - x) (x - p))
    (f := pdot (x - p) (x - p)) ha hc (by unfold gram at h; linarith)
  unfold pointTriangleDistance
  dsimp only
  generalize ptTriangle _ _ _ _ _ _ = r at H ⊢
  obtain ⟨⟨s, t⟩, v⟩ := r
  obtain ⟨s0, t0, st, val, c0, c1, c2⟩ := H
  dsimp only at *
  have hv : v = psq (fun i => x i + s * (y - x) i + t * (z - x) i - p i) := by
    rw [psq_tri, val]; ring
  have hv0 : ¬ v < 0 := by rw [hv]; exact not_lt.mpr (psq_nonneg _)
  rw [if_neg hv0]
  refine ⟨s, t, s0, t0, st, rfl, hv, ?_⟩
  intro s' t' hs' ht' hst'
  rw [psq_tri, val]
  have hq := psq_lin (y - x) (z - x) (s' - s) (t' - t)
  have hm := mul_nonneg (sub_nonneg.mpr hst') c0
  have hm1 := mul_nonneg hs' c1
  have hm2 := mul_nonneg ht' c2
  nlinarith

/-- the segment case, unconditionally: the value belongs to a point of the segment -/
theorem pointSegment_touch (x y p : Pt d) :
    ∃ t : ℝ, 0 ≤ t ∧ t ≤ 1 ∧ (pointSegmentDistance x y p).2 = [1 - t, t] ∧
      (pointSegmentDistance x y p).1 = psq (fun i => x i + t * (y - x) i - p i) := by
  unfold pointSegmentDistance
  dsimp only
  split
  · refine ⟨0, le_rfl, zero_le_one, by simp, ?_⟩
    show psq _ = psq _
    congr 1; funext i; simp
  · set t := pdot (fun i => (y - x) i / pnorm (y - x)) (fun i => (p - x) i / pnorm (y - x))
    set t' := if t < 0 then 0 else if t > 1 then 1 else t with ht'
    refine ⟨t', ?_, ?_, rfl, ?_⟩
    · rw [ht']; split_ifs <;> linarith
    · rw [ht']; split_ifs <;> linarith
    · show psq _ = psq _
      congr 1; funext i; simp [Pi.sub_apply]; ring

theorem pointSegment_opt {x y p : Pt d} (h : 1e-10 ≤ pnorm (y - x)) {t : ℝ} (h0 : 0 ≤ t) (h1 : t ≤ 1) :
    (pointSegmentDistance x y p).1 ≤ psq (fun i => x i + t * (y - x) i - p i) := by
  have hpos : 0 < pnorm (y - x) := lt_of_lt_of_le (by norm_num) h
  unfold pointSegmentDistance
  dsimp only
  rw [if_neg (by push Not; exact h)]
  set L := pnorm (y - x) with hL
  have hL2 : pdot (y - x) (y - x) = L ^ 2 := by rw [pdot_self, hL, pnorm_sq]
  have hL2p : 0 < L ^ 2 := by positivity
  have ht : pdot (fun i => (y - x) i / L) (fun i => (p - x) i / L) = pdot (y - x) (p - x) / L ^ 2 := by
    simp only [pdot, Finset.sum_div]
    apply Finset.sum_congr rfl
    intro i _
    field_simp
  rw [ht]
  have hneg : pdot (y - x) (x - p) = -pdot (y - x) (p - x) := by
    simp only [pdot, ← Finset.sum_neg_distrib]
    apply Finset.sum_congr rfl
    intro i _
    simp; ring
  have expand : ∀ s : ℝ, psq (fun i => x i + s * (y - x) i - p i) =
      s ^ 2 * L ^ 2 - 2 * s * pdot (y - x) (p - x) + pdot (x - p) (x - p) := by
    intro s
    have := psq_tri x (y - x) 0 p s 0
    simp only [Pi.zero_apply, mul_zero, add_zero] at this
    rw [this, hL2, hneg]; ring
  have hcode : ∀ s : ℝ, psq (fun i => s * (y - x) i - (p - x) i) = psq (fun i => x i + s * (y - x) i - p i) := by
    intro s; congr 1; funext i; simp [Pi.sub_apply]; ring
  rw [hcode, expand, expand]
  obtain ⟨m, hm⟩ : ∃ m, m = pdot (y - x) (p - x) / L ^ 2 := ⟨_, rfl⟩
  have hm' : pdot (y - x) (p - x) = m * L ^ 2 := by rw [hm]; field_simp
  rw [← hm, hm']
  split_ifs with h2 h3
  · nlinarith [mul_nonneg h0 hL2p.le, mul_nonneg (mul_nonneg h0 h0) hL2p.le, mul_nonneg (mul_nonneg h0 (neg_nonneg.mpr h2.le)) hL2p.le]
  · have : 0 ≤ (1 - t) * (2 * m - 1 - t) * L ^ 2 := by
      apply mul_nonneg (mul_nonneg _ _) hL2p.le <;> linarith
    nlinarith
  · have : 0 ≤ (m - t) ^ 2 * L ^ 2 := by positivity
    nlinarith

end Gpy
