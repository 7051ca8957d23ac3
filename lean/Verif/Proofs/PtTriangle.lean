import Verif.Model.SquaredDistance
import Mathlib.Tactic.LinearCombination

set_option autoImplicit false
namespace Gpy

/-- what the case distinction has to deliver: a point of the parameter triangle, its value, and the first order optimality
condition towards the three corners -/
structure TriOpt (a b c d e f s t v : ℝ) : Prop where
  s0 : 0 ≤ s
  t0 : 0 ≤ t
  st : s + t ≤ 1
  val : v = a * s ^ 2 + 2 * b * s * t + c * t ^ 2 + 2 * d * s + 2 * e * t + f
  c0 : 0 ≤ -(a * s + b * t + d) * s - (b * s + c * t + e) * t
  c1 : 0 ≤ (a * s + b * t + d) * (1 - s) - (b * s + c * t + e) * t
  c2 : 0 ≤ -(a * s + b * t + d) * s + (b * s + c * t + e) * (1 - t)

section
variable {a b c d e f : ℝ}

theorem opt00 (hd : 0 ≤ d) (he : 0 ≤ e) : TriOpt a b c d e f 0 0 f := by
  constructor <;> norm_num <;> linarith

theorem opt10 (h1 : a + d ≤ 0) (h2 : a + d ≤ b + e) : TriOpt a b c d e f 1 0 (a + 2 * d + f) := by
  constructor <;> norm_num <;> linarith

theorem opt01 (h1 : c + e ≤ 0) (h2 : c + e ≤ b + d) : TriOpt a b c d e f 0 1 (c + 2 * e + f) := by
  constructor <;> norm_num <;> linarith

theorem opts0 (ha : 0 < a) (h1 : d < 0) (h2 : -d < a) (ht : b * d - a * e ≤ 0) :
    TriOpt a b c d e f (-d / a) 0 (d * (-d / a) + f) := by
  have hg : a * (-d / a) = -d := by field_simp
  have hs : 0 ≤ -d / a := div_nonneg (by linarith) ha.le
  have hs1 : -d / a ≤ 1 := by rw [div_le_one ha]; linarith
  have h2 : 0 ≤ b * (-d / a) + e := by
    have : b * (-d / a) + e = (a * e - b * d) / a := by field_simp; ring
    rw [this]; exact div_nonneg (by linarith) ha.le
  generalize -d / a = x at *
  have hd : d = -(a * x) := by linarith
  subst hd
  constructor <;> first | linarith | (ring_nf at h2 ⊢; nlinarith)

theorem opt0t (hc : 0 < c) (h1 : e < 0) (h2 : -e < c) (hs : b * e - c * d ≤ 0) :
    TriOpt a b c d e f 0 (-e / c) (e * (-e / c) + f) := by
  have := opts0 (c := a) (f := f) hc h1 h2 hs
  obtain ⟨h1, h2, h3, h4, h5, h6, h7⟩ := this
  constructor
  · exact le_rfl
  · exact h1
  · linarith
  · rw [h4]; ring
  · nlinarith
  · nlinarith
  · nlinarith

theorem optst (hden : 0 < a - 2 * b + c) (h0 : 0 ≤ c + e - b - d) (h1 : c + e - b - d ≤ a - 2 * b + c)
    (hdet : (b * e - c * d) + (b * d - a * e) ≥ a * c - b * b) {s : ℝ} (hs : s = (c + e - b - d) / (a - 2 * b + c)) :
    TriOpt a b c d e f s (1 - s) (s * (a * s + b * (1 - s) + 2 * d) + (1 - s) * (b * s + c * (1 - s) + 2 * e) + f) := by
  have hs0 : 0 ≤ s := by rw [hs]; exact div_nonneg h0 hden.le
  have hs1 : s ≤ 1 := by rw [hs, div_le_one hden]; exact h1
  have heq : s * (a - 2 * b + c) = c + e - b - d := by rw [hs, div_mul_cancel₀ _ hden.ne']
  have hg : a * s + b * (1 - s) + d = b * s + c * (1 - s) + e := by linarith
  have hneg : a * s + b * (1 - s) + d ≤ 0 := by
    by_contra h
    push Not at h
    have h2 := mul_pos h hden
    have : (a * s + b * (1 - s) + d) * (a - 2 * b + c) = (a - b) * (s * (a - 2 * b + c)) + (b + d) * (a - 2 * b + c) := by ring
    rw [this, heq] at h2
    nlinarith
  constructor
  · exact hs0
  · linarith
  · linarith
  · ring
  · rw [← hg]; nlinarith
  · rw [← hg]; nlinarith
  · rw [← hg]; nlinarith

/-- the quadratic form is positive -/
theorem form_pos (ha : 0 < a) (hdet : 0 < a * c - b * b) {x y : ℝ} (h : x ≠ 0 ∨ y ≠ 0) :
    0 < x * (a * x + b * y) + y * (b * x + c * y) := by
  have h1 : a * (x * (a * x + b * y) + y * (b * x + c * y)) = (a * x + b * y) ^ 2 + (a * c - b * b) * y ^ 2 := by ring
  have h2 : 0 < (a * x + b * y) ^ 2 + (a * c - b * b) * y ^ 2 := by
    by_cases hy : y = 0
    · subst hy
      have hx : x ≠ 0 := by simpa using h
      have := pow_pos (mul_pos ha (abs_pos.mpr hx)) 2
      have h3 : (a * |x|) ^ 2 = (a * x + b * 0) ^ 2 := by rw [mul_pow, sq_abs]; ring
      nlinarith
    · have := mul_pos hdet (pow_pos (abs_pos.mpr hy) 2)
      rw [sq_abs] at this
      nlinarith [sq_nonneg (a * x + b * y)]
  rw [← h1] at h2
  exact pos_of_mul_pos_right h2 ha.le

theorem ptTriangle_opt (ha : 0 < a) (hc : 0 < c) (hdet : 0 < a * c - b * b) :
    TriOpt a b c d e f (ptTriangle a b c d e f).1.1 (ptTriangle a b c d e f).1.2 (ptTriangle a b c d e f).2 := by
  obtain ⟨p, hp⟩ : ∃ p, (a * c - b * b) * p = b * e - c * d := ⟨(b * e - c * d) / (a * c - b * b), mul_div_cancel₀ _ hdet.ne'⟩
  obtain ⟨q, hq⟩ : ∃ q, (a * c - b * b) * q = b * d - a * e := ⟨(b * d - a * e) / (a * c - b * b), mul_div_cancel₀ _ hdet.ne'⟩
  have hD : d = -(a * p + b * q) := by
    have : (a * c - b * b) * d = (a * c - b * b) * (-(a * p + b * q)) := by linear_combination a * hp + b * hq
    exact mul_left_cancel₀ hdet.ne' this
  have hE : e = -(b * p + c * q) := by
    have : (a * c - b * b) * e = (a * c - b * b) * (-(b * p + c * q)) := by linear_combination b * hp + c * hq
    exact mul_left_cancel₀ hdet.ne' this
  have hden : 0 < a - 2 * b + c := by
    have := form_pos (c := c) (x := 1) (y := -1) ha hdet (Or.inl one_ne_zero); linarith
  have sp : b * e - c * d < 0 → p < 0 := fun h => by
    by_contra h'; push Not at h'; have := mul_nonneg hdet.le h'; linarith
  have sp' : ¬ b * e - c * d < 0 → 0 ≤ p := fun h => by
    by_contra h'; push Not at h'; have := mul_neg_of_pos_of_neg hdet h'; linarith
  have tq : b * d - a * e < 0 → q < 0 := fun h => by
    by_contra h'; push Not at h'; have := mul_nonneg hdet.le h'; linarith
  have tq' : ¬ b * d - a * e < 0 → 0 ≤ q := fun h => by
    by_contra h'; push Not at h'; have := mul_neg_of_pos_of_neg hdet h'; linarith
  have pq : b * e - c * d + (b * d - a * e) ≤ a * c - b * b → p + q ≤ 1 := fun h => by
    by_contra h'; push Not at h'; have := mul_pos hdet (sub_pos.mpr h'); nlinarith
  have pq' : ¬ b * e - c * d + (b * d - a * e) ≤ a * c - b * b → 1 < p + q := fun h => by
    by_contra h'; push Not at h'; have := mul_nonneg hdet.le (sub_nonneg.mpr h'); nlinarith
  -- optimality at the corners, from positivity of the form
  have k00 : p < 0 → 0 ≤ q → 0 ≤ e → 0 ≤ d := fun h1 h2 h3 => by
    have h := form_pos (c := c) ha hdet (x := p) (y := q) (Or.inl h1.ne)
    have : p * (a * p + b * q) + q * (b * p + c * q) = -(p * d) - q * e := by rw [hD, hE]; ring
    rw [this] at h
    nlinarith
  have k00' : q < 0 → 0 ≤ p → 0 ≤ d → 0 ≤ e := fun h1 h2 h3 => by
    have h := form_pos (c := c) ha hdet (x := p) (y := q) (Or.inr h1.ne)
    have : p * (a * p + b * q) + q * (b * p + c * q) = -(p * d) - q * e := by rw [hD, hE]; ring
    rw [this] at h
    nlinarith
  have f01 : p * (-d - b) + (q - 1) * (-e - c) = p * (a * p + b * (q - 1)) + (q - 1) * (b * p + c * (q - 1)) := by
    rw [hD, hE]; ring
  have f10 : (p - 1) * (-d - a) + q * (-e - b) = (p - 1) * (a * (p - 1) + b * q) + q * (b * (p - 1) + c * q) := by
    rw [hD, hE]; ring
  have k01 : p < 0 → p + q ≤ 1 → c + e ≤ 0 → c + e ≤ b + d := fun h1 h2 h3 => by
    have h := form_pos (c := c) ha hdet (x := p) (y := q - 1) (Or.inl h1.ne)
    rw [← f01] at h
    by_contra h4
    push Not at h4
    nlinarith
  have k10 : q < 0 → p + q ≤ 1 → a + d ≤ 0 → a + d ≤ b + e := fun h1 h2 h3 => by
    have h := form_pos (c := c) ha hdet (x := p - 1) (y := q) (Or.inr h1.ne)
    rw [← f10] at h
    by_contra h4
    push Not at h4
    nlinarith
  have m10 : 1 < p + q → 0 ≤ q → a + d ≤ b + e → a + d ≤ 0 := fun h1 h2 h3 => by
    have h := form_pos (c := c) ha hdet (x := p - 1) (y := q) (by
      by_contra h'; push Not at h'; obtain ⟨h5, h6⟩ := h'; linarith)
    rw [← f10] at h
    by_contra h4
    push Not at h4
    nlinarith
  have m01 : 1 < p + q → 0 ≤ p → c + e ≤ b + d → c + e ≤ 0 := fun h1 h2 h3 => by
    have h := form_pos (c := c) ha hdet (x := p) (y := q - 1) (by
      by_contra h'; push Not at h'; obtain ⟨h5, h6⟩ := h'; linarith)
    rw [← f01] at h
    by_contra h4
    push Not at h4
    nlinarith
  unfold ptTriangle
  dsimp only
  by_cases hst : b * e - c * d + (b * d - a * e) ≤ a * c - b * b
  · have h1 := pq hst
    rw [if_pos hst]
    by_cases hs : b * e - c * d < 0
    · have h2 := sp hs
      rw [if_pos hs]
      by_cases ht : b * d - a * e < 0
      · have h3 := tq ht
        rw [if_pos ht]
        by_cases hd : d < 0
        · rw [if_pos hd]
          by_cases hda : -d ≥ a
          · rw [if_pos hda]; exact opt10 (by linarith) (k10 h3 h1 (by linarith))
          · rw [if_neg hda]; exact opts0 ha hd (by linarith) ht.le
        · rw [if_neg hd]
          by_cases he : e ≥ 0
          · rw [if_pos he]; exact opt00 (by linarith) he
          · rw [if_neg he]
            by_cases hec : -e ≥ c
            · rw [if_pos hec]; exact opt01 (by linarith) (k01 h2 h1 (by linarith))
            · rw [if_neg hec]; exact opt0t hc (by linarith) (by linarith) hs.le
      · have h3 := tq' ht
        rw [if_neg ht]
        by_cases he : e ≥ 0
        · rw [if_pos he]; exact opt00 (k00 h2 h3 he) he
        · rw [if_neg he]
          by_cases hec : -e ≥ c
          · rw [if_pos hec]; exact opt01 (by linarith) (k01 h2 h1 (by linarith))
          · rw [if_neg hec]; exact opt0t hc (by linarith) (by linarith) hs.le
    · have h2 := sp' hs
      rw [if_neg hs]
      by_cases ht : b * d - a * e < 0
      · have h3 := tq ht
        rw [if_pos ht]
        by_cases hd : d ≥ 0
        · rw [if_pos hd]; exact opt00 hd (k00' h3 h2 hd)
        · rw [if_neg hd]
          by_cases hda : -d ≥ a
          · rw [if_pos hda]; exact opt10 (by linarith) (k10 h3 h1 (by linarith))
          · rw [if_neg hda]; exact opts0 ha (by linarith) (by linarith) ht.le
      · have h3 := tq' ht
        rw [if_neg ht]
        have e1 : (b * e - c * d) * (1 / (a * c - b * b)) = p := by
          rw [← hp, mul_comm, ← mul_assoc, one_div_mul_cancel hdet.ne', one_mul]
        have e2 : (b * d - a * e) * (1 / (a * c - b * b)) = q := by
          rw [← hq, mul_comm, ← mul_assoc, one_div_mul_cancel hdet.ne', one_mul]
        rw [e1, e2]
        dsimp only
        have g1 : a * p + b * q + d = 0 := by rw [hD]; ring
        have g2 : b * p + c * q + e = 0 := by rw [hE]; ring
        refine ⟨h2, h3, h1, by ring, ?_, ?_, ?_⟩ <;> rw [g1, g2] <;> norm_num
  · have h1 := pq' hst
    rw [if_neg hst]
    by_cases hs : b * e - c * d < 0
    · have h2 := sp hs
      rw [if_pos hs]
      by_cases h12 : c + e > b + d
      · rw [if_pos h12]
        by_cases hnd : c + e - (b + d) ≥ a - 2 * b + c
        · rw [if_pos hnd]; exact opt10 (m10 h1 (by linarith) (by linarith)) (by linarith)
        · rw [if_neg hnd]
          exact optst hden (by linarith) (by linarith) (by linarith) (by congr 1; ring)
      · rw [if_neg h12]
        by_cases hz : c + e ≤ 0
        · rw [if_pos hz]; exact opt01 hz (by linarith)
        · rw [if_neg hz]
          by_cases he : e ≥ 0
          · rw [if_pos he]; exact opt00 (k00 h2 (by linarith) he) he
          · rw [if_neg he]; exact opt0t hc (by linarith) (by linarith) hs.le
    · have h2 := sp' hs
      rw [if_neg hs]
      by_cases ht : b * d - a * e < 0
      · have h3 := tq ht
        rw [if_pos ht]
        by_cases h12 : a + d > b + e
        · rw [if_pos h12]
          by_cases hnd : a + d - (b + e) ≥ a - 2 * b + c
          · rw [if_pos hnd]; exact opt01 (m01 h1 (by linarith) (by linarith)) (by linarith)
          · rw [if_neg hnd]
            have := optst (f := f) hden (s := 1 - (a + d - (b + e)) / (a - 2 * b + c)) (d := d) (e := e) (by linarith) (by linarith) (by linarith)
              (by rw [eq_div_iff hden.ne', sub_mul, div_mul_cancel₀ _ hden.ne']; ring)
            rwa [sub_sub_cancel] at this
        · rw [if_neg h12]
          by_cases hz : a + d ≤ 0
          · rw [if_pos hz]; exact opt10 hz (by linarith)
          · rw [if_neg hz]
            by_cases hd : d ≥ 0
            · rw [if_pos hd]; exact opt00 hd (k00' h3 h2 hd)
            · rw [if_neg hd]; exact opts0 ha (by linarith) (by linarith) ht.le
      · have h3 := tq' ht
        rw [if_neg ht]
        by_cases hn : c + e - b - d ≤ 0
        · rw [if_pos hn]; exact opt01 (m01 h1 h2 (by linarith)) (by linarith)
        · rw [if_neg hn]
          by_cases hnd : c + e - b - d ≥ a - 2 * b + c
          · rw [if_pos hnd]; exact opt10 (m10 h1 h3 (by linarith)) (by linarith)
          · rw [if_neg hnd]
            exact optst hden (by linarith) (by linarith) (by linarith) rfl

end
end Gpy
