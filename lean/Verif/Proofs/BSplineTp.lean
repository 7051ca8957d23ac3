import Verif.Model.CompactNormal
import Verif.Proofs.CubicB

/-! The B-splines of `compactly_supported_normal.py` as differences of truncated powers. -/

set_option autoImplicit false
namespace Gpy

/-- second, third and fifth difference -/
noncomputable def diff2 (f : ℝ → ℝ) (x : ℝ) : ℝ := f (x + 1) - 2 * f x + f (x - 1)
noncomputable def diff3 (f : ℝ → ℝ) (x : ℝ) : ℝ := f (x + 3 / 2) - 3 * f (x + 1 / 2) + 3 * f (x - 1 / 2) - f (x - 3 / 2)
noncomputable def diff5 (f : ℝ → ℝ) (x : ℝ) : ℝ :=
  f (x + 5 / 2) - 5 * f (x + 3 / 2) + 10 * f (x + 1 / 2) - 10 * f (x - 1 / 2) + 5 * f (x - 3 / 2) - f (x - 5 / 2)

/-- the hat function -/
theorem cn1_tp (x : ℝ) :
    cond01 (|x| < 1) * (1 - |x|) = diff2 (tp 1) x := by
  unfold diff2
  rcases lt_trichotomy x (-(1)) with h0 | h0 | h0
  · have ha : |x| = -x := abs_of_neg (by linarith)
    rw [cond01_false (by rw [ha]; norm_num; linarith : ¬ |x| < 1)]
    rw [tp_neg (by linarith : x + 1 ≤ 0)]
    rw [tp_neg (by linarith : x ≤ 0)]
    rw [tp_neg (by linarith : x - 1 ≤ 0)]
    simp only [ha]
    ring
  · subst h0; norm_num [cond01, tp, abs_of_neg, abs_of_pos]
  rcases lt_trichotomy x 0 with h1 | h1 | h1
  · have ha : |x| = -x := abs_of_neg (by linarith)
    rw [cond01_true (by rw [ha]; norm_num; linarith : |x| < 1)]
    rw [tp_pos (by linarith : 0 ≤ x + 1)]
    rw [tp_neg (by linarith : x ≤ 0)]
    rw [tp_neg (by linarith : x - 1 ≤ 0)]
    simp only [ha]
    ring
  · subst h1; norm_num [cond01, tp, abs_of_neg, abs_of_pos]
  rcases lt_trichotomy x 1 with h2 | h2 | h2
  · have ha : |x| = x := abs_of_pos (by linarith)
    rw [cond01_true (by rw [ha]; norm_num; linarith : |x| < 1)]
    rw [tp_pos (by linarith : 0 ≤ x + 1)]
    rw [tp_pos (by linarith : 0 ≤ x)]
    rw [tp_neg (by linarith : x - 1 ≤ 0)]
    simp only [ha]
    ring
  · subst h2; norm_num [cond01, tp, abs_of_neg, abs_of_pos]
  have ha : |x| = x := abs_of_pos (by linarith)
  rw [cond01_false (by rw [ha]; norm_num; linarith : ¬ |x| < 1)]
  rw [tp_pos (by linarith : 0 ≤ x + 1)]
  rw [tp_pos (by linarith : 0 ≤ x)]
  rw [tp_pos (by linarith : 0 ≤ x - 1)]
  simp only [ha]
  ring

/-- quadratic B-spline, off the inner knots -/
theorem cn2_tp (x : ℝ) (hx0 : x ≠ (-(1 / 2))) (hx1 : x ≠ (1 / 2)) :
    cond01 (|x| < 0.5) * (-(x ^ 2) + 0.75) + cond01 (|x| < 1.5) * cond01 (|x| > 0.5) * (0.5 * x ^ 2 - 1.5 * |x| + 1.125) = 1 / 2 * diff3 (tp 2) x := by
  unfold diff3
  rcases lt_trichotomy x (-(3 / 2)) with h0 | h0 | h0
  · have ha : |x| = -x := abs_of_neg (by linarith)
    rw [cond01_false (by rw [ha]; norm_num; linarith : ¬ |x| < 0.5)]
    rw [cond01_false (by rw [ha]; norm_num; linarith : ¬ |x| < 1.5)]
    rw [cond01_true (by rw [ha]; norm_num; linarith : |x| > 0.5)]
    rw [tp_neg (by linarith : x + (3 / 2) ≤ 0)]
    rw [tp_neg (by linarith : x + (1 / 2) ≤ 0)]
    rw [tp_neg (by linarith : x - (1 / 2) ≤ 0)]
    rw [tp_neg (by linarith : x - (3 / 2) ≤ 0)]
    simp only [ha]
    ring
  · subst h0; norm_num [cond01, tp, abs_of_neg, abs_of_pos]
  rcases lt_trichotomy x (-(1 / 2)) with h1 | h1 | h1
  · have ha : |x| = -x := abs_of_neg (by linarith)
    rw [cond01_false (by rw [ha]; norm_num; linarith : ¬ |x| < 0.5)]
    rw [cond01_true (by rw [ha]; norm_num; linarith : |x| < 1.5)]
    rw [cond01_true (by rw [ha]; norm_num; linarith : |x| > 0.5)]
    rw [tp_pos (by linarith : 0 ≤ x + (3 / 2))]
    rw [tp_neg (by linarith : x + (1 / 2) ≤ 0)]
    rw [tp_neg (by linarith : x - (1 / 2) ≤ 0)]
    rw [tp_neg (by linarith : x - (3 / 2) ≤ 0)]
    simp only [ha]
    ring
  · exact absurd h1 hx0
  rcases lt_trichotomy x 0 with h2 | h2 | h2
  · have ha : |x| = -x := abs_of_neg (by linarith)
    rw [cond01_true (by rw [ha]; norm_num; linarith : |x| < 0.5)]
    rw [cond01_true (by rw [ha]; norm_num; linarith : |x| < 1.5)]
    rw [cond01_false (by rw [ha]; norm_num; linarith : ¬ |x| > 0.5)]
    rw [tp_pos (by linarith : 0 ≤ x + (3 / 2))]
    rw [tp_pos (by linarith : 0 ≤ x + (1 / 2))]
    rw [tp_neg (by linarith : x - (1 / 2) ≤ 0)]
    rw [tp_neg (by linarith : x - (3 / 2) ≤ 0)]
    simp only [ha]
    ring
  · subst h2; norm_num [cond01, tp, abs_of_neg, abs_of_pos]
  rcases lt_trichotomy x (1 / 2) with h3 | h3 | h3
  · have ha : |x| = x := abs_of_pos (by linarith)
    rw [cond01_true (by rw [ha]; norm_num; linarith : |x| < 0.5)]
    rw [cond01_true (by rw [ha]; norm_num; linarith : |x| < 1.5)]
    rw [cond01_false (by rw [ha]; norm_num; linarith : ¬ |x| > 0.5)]
    rw [tp_pos (by linarith : 0 ≤ x + (3 / 2))]
    rw [tp_pos (by linarith : 0 ≤ x + (1 / 2))]
    rw [tp_neg (by linarith : x - (1 / 2) ≤ 0)]
    rw [tp_neg (by linarith : x - (3 / 2) ≤ 0)]
    simp only [ha]
    ring
  · exact absurd h3 hx1
  rcases lt_trichotomy x (3 / 2) with h4 | h4 | h4
  · have ha : |x| = x := abs_of_pos (by linarith)
    rw [cond01_false (by rw [ha]; norm_num; linarith : ¬ |x| < 0.5)]
    rw [cond01_true (by rw [ha]; norm_num; linarith : |x| < 1.5)]
    rw [cond01_true (by rw [ha]; norm_num; linarith : |x| > 0.5)]
    rw [tp_pos (by linarith : 0 ≤ x + (3 / 2))]
    rw [tp_pos (by linarith : 0 ≤ x + (1 / 2))]
    rw [tp_pos (by linarith : 0 ≤ x - (1 / 2))]
    rw [tp_neg (by linarith : x - (3 / 2) ≤ 0)]
    simp only [ha]
    ring
  · subst h4; norm_num [cond01, tp, abs_of_neg, abs_of_pos]
  have ha : |x| = x := abs_of_pos (by linarith)
  rw [cond01_false (by rw [ha]; norm_num; linarith : ¬ |x| < 0.5)]
  rw [cond01_false (by rw [ha]; norm_num; linarith : ¬ |x| < 1.5)]
  rw [cond01_true (by rw [ha]; norm_num; linarith : |x| > 0.5)]
  rw [tp_pos (by linarith : 0 ≤ x + (3 / 2))]
  rw [tp_pos (by linarith : 0 ≤ x + (1 / 2))]
  rw [tp_pos (by linarith : 0 ≤ x - (1 / 2))]
  rw [tp_pos (by linarith : 0 ≤ x - (3 / 2))]
  simp only [ha]
  ring

/-- quartic B-spline, off the inner knots -/
theorem cn4_tp (x : ℝ) (hx0 : x ≠ (-(3 / 2))) (hx1 : x ≠ (-(1 / 2))) (hx2 : x ≠ (1 / 2)) (hx3 : x ≠ (3 / 2)) :
    cond01 (|x| ≤ 2.5) * cond01 (|x| ≥ 1.5) * (16 * |x| ^ 4 - 160 * |x| ^ 3 + 600 * |x| ^ 2 - 1000 * |x| + 625) * (1 / 384)
      + cond01 (|x| ≤ 1.5) * cond01 (|x| ≥ 0.5) * (-16 * |x| ^ 4 + 80 * |x| ^ 3 - 120 * |x| ^ 2 + 20 * |x| + 55) * (1 / 96)
      + cond01 (|x| ≤ 0.5) * (48 * |x| ^ 4 - 120 * |x| ^ 2 + 115) * (1 / 192) = 1 / 24 * diff5 (tp 4) x := by
  unfold diff5
  rcases lt_trichotomy x (-(5 / 2)) with h0 | h0 | h0
  · have ha : |x| = -x := abs_of_neg (by linarith)
    rw [cond01_false (by rw [ha]; norm_num; linarith : ¬ |x| ≤ 2.5)]
    rw [cond01_true (by rw [ha]; norm_num; linarith : |x| ≥ 1.5)]
    rw [cond01_false (by rw [ha]; norm_num; linarith : ¬ |x| ≤ 1.5)]
    rw [cond01_true (by rw [ha]; norm_num; linarith : |x| ≥ 0.5)]
    rw [cond01_false (by rw [ha]; norm_num; linarith : ¬ |x| ≤ 0.5)]
    rw [tp_neg (by linarith : x + (5 / 2) ≤ 0)]
    rw [tp_neg (by linarith : x + (3 / 2) ≤ 0)]
    rw [tp_neg (by linarith : x + (1 / 2) ≤ 0)]
    rw [tp_neg (by linarith : x - (1 / 2) ≤ 0)]
    rw [tp_neg (by linarith : x - (3 / 2) ≤ 0)]
    rw [tp_neg (by linarith : x - (5 / 2) ≤ 0)]
    simp only [ha]
    ring
  · subst h0; norm_num [cond01, tp, abs_of_neg, abs_of_pos]
  rcases lt_trichotomy x (-(3 / 2)) with h1 | h1 | h1
  · have ha : |x| = -x := abs_of_neg (by linarith)
    rw [cond01_true (by rw [ha]; norm_num; linarith : |x| ≤ 2.5)]
    rw [cond01_true (by rw [ha]; norm_num; linarith : |x| ≥ 1.5)]
    rw [cond01_false (by rw [ha]; norm_num; linarith : ¬ |x| ≤ 1.5)]
    rw [cond01_true (by rw [ha]; norm_num; linarith : |x| ≥ 0.5)]
    rw [cond01_false (by rw [ha]; norm_num; linarith : ¬ |x| ≤ 0.5)]
    rw [tp_pos (by linarith : 0 ≤ x + (5 / 2))]
    rw [tp_neg (by linarith : x + (3 / 2) ≤ 0)]
    rw [tp_neg (by linarith : x + (1 / 2) ≤ 0)]
    rw [tp_neg (by linarith : x - (1 / 2) ≤ 0)]
    rw [tp_neg (by linarith : x - (3 / 2) ≤ 0)]
    rw [tp_neg (by linarith : x - (5 / 2) ≤ 0)]
    simp only [ha]
    ring
  · exact absurd h1 hx0
  rcases lt_trichotomy x (-(1 / 2)) with h2 | h2 | h2
  · have ha : |x| = -x := abs_of_neg (by linarith)
    rw [cond01_true (by rw [ha]; norm_num; linarith : |x| ≤ 2.5)]
    rw [cond01_false (by rw [ha]; norm_num; linarith : ¬ |x| ≥ 1.5)]
    rw [cond01_true (by rw [ha]; norm_num; linarith : |x| ≤ 1.5)]
    rw [cond01_true (by rw [ha]; norm_num; linarith : |x| ≥ 0.5)]
    rw [cond01_false (by rw [ha]; norm_num; linarith : ¬ |x| ≤ 0.5)]
    rw [tp_pos (by linarith : 0 ≤ x + (5 / 2))]
    rw [tp_pos (by linarith : 0 ≤ x + (3 / 2))]
    rw [tp_neg (by linarith : x + (1 / 2) ≤ 0)]
    rw [tp_neg (by linarith : x - (1 / 2) ≤ 0)]
    rw [tp_neg (by linarith : x - (3 / 2) ≤ 0)]
    rw [tp_neg (by linarith : x - (5 / 2) ≤ 0)]
    simp only [ha]
    ring
  · exact absurd h2 hx1
  rcases lt_trichotomy x 0 with h3 | h3 | h3
  · have ha : |x| = -x := abs_of_neg (by linarith)
    rw [cond01_true (by rw [ha]; norm_num; linarith : |x| ≤ 2.5)]
    rw [cond01_false (by rw [ha]; norm_num; linarith : ¬ |x| ≥ 1.5)]
    rw [cond01_true (by rw [ha]; norm_num; linarith : |x| ≤ 1.5)]
    rw [cond01_false (by rw [ha]; norm_num; linarith : ¬ |x| ≥ 0.5)]
    rw [cond01_true (by rw [ha]; norm_num; linarith : |x| ≤ 0.5)]
    rw [tp_pos (by linarith : 0 ≤ x + (5 / 2))]
    rw [tp_pos (by linarith : 0 ≤ x + (3 / 2))]
    rw [tp_pos (by linarith : 0 ≤ x + (1 / 2))]
    rw [tp_neg (by linarith : x - (1 / 2) ≤ 0)]
    rw [tp_neg (by linarith : x - (3 / 2) ≤ 0)]
    rw [tp_neg (by linarith : x - (5 / 2) ≤ 0)]
    simp only [ha]
    ring
  · subst h3; norm_num [cond01, tp, abs_of_neg, abs_of_pos]
  rcases lt_trichotomy x (1 / 2) with h4 | h4 | h4
  · have ha : |x| = x := abs_of_pos (by linarith)
    rw [cond01_true (by rw [ha]; norm_num; linarith : |x| ≤ 2.5)]
    rw [cond01_false (by rw [ha]; norm_num; linarith : ¬ |x| ≥ 1.5)]
    rw [cond01_true (by rw [ha]; norm_num; linarith : |x| ≤ 1.5)]
    rw [cond01_false (by rw [ha]; norm_num; linarith : ¬ |x| ≥ 0.5)]
    rw [cond01_true (by rw [ha]; norm_num; linarith : |x| ≤ 0.5)]
    rw [tp_pos (by linarith : 0 ≤ x + (5 / 2))]
    rw [tp_pos (by linarith : 0 ≤ x + (3 / 2))]
    rw [tp_pos (by linarith : 0 ≤ x + (1 / 2))]
    rw [tp_neg (by linarith : x - (1 / 2) ≤ 0)]
    rw [tp_neg (by linarith : x - (3 / 2) ≤ 0)]
    rw [tp_neg (by linarith : x - (5 / 2) ≤ 0)]
    simp only [ha]
    ring
  · exact absurd h4 hx2
  rcases lt_trichotomy x (3 / 2) with h5 | h5 | h5
  · have ha : |x| = x := abs_of_pos (by linarith)
    rw [cond01_true (by rw [ha]; norm_num; linarith : |x| ≤ 2.5)]
    rw [cond01_false (by rw [ha]; norm_num; linarith : ¬ |x| ≥ 1.5)]
    rw [cond01_true (by rw [ha]; norm_num; linarith : |x| ≤ 1.5)]
    rw [cond01_true (by rw [ha]; norm_num; linarith : |x| ≥ 0.5)]
    rw [cond01_false (by rw [ha]; norm_num; linarith : ¬ |x| ≤ 0.5)]
    rw [tp_pos (by linarith : 0 ≤ x + (5 / 2))]
    rw [tp_pos (by linarith : 0 ≤ x + (3 / 2))]
    rw [tp_pos (by linarith : 0 ≤ x + (1 / 2))]
    rw [tp_pos (by linarith : 0 ≤ x - (1 / 2))]
    rw [tp_neg (by linarith : x - (3 / 2) ≤ 0)]
    rw [tp_neg (by linarith : x - (5 / 2) ≤ 0)]
    simp only [ha]
    ring
  · exact absurd h5 hx3
  rcases lt_trichotomy x (5 / 2) with h6 | h6 | h6
  · have ha : |x| = x := abs_of_pos (by linarith)
    rw [cond01_true (by rw [ha]; norm_num; linarith : |x| ≤ 2.5)]
    rw [cond01_true (by rw [ha]; norm_num; linarith : |x| ≥ 1.5)]
    rw [cond01_false (by rw [ha]; norm_num; linarith : ¬ |x| ≤ 1.5)]
    rw [cond01_true (by rw [ha]; norm_num; linarith : |x| ≥ 0.5)]
    rw [cond01_false (by rw [ha]; norm_num; linarith : ¬ |x| ≤ 0.5)]
    rw [tp_pos (by linarith : 0 ≤ x + (5 / 2))]
    rw [tp_pos (by linarith : 0 ≤ x + (3 / 2))]
    rw [tp_pos (by linarith : 0 ≤ x + (1 / 2))]
    rw [tp_pos (by linarith : 0 ≤ x - (1 / 2))]
    rw [tp_pos (by linarith : 0 ≤ x - (3 / 2))]
    rw [tp_neg (by linarith : x - (5 / 2) ≤ 0)]
    simp only [ha]
    ring
  · subst h6; norm_num [cond01, tp, abs_of_neg, abs_of_pos]
  have ha : |x| = x := abs_of_pos (by linarith)
  rw [cond01_false (by rw [ha]; norm_num; linarith : ¬ |x| ≤ 2.5)]
  rw [cond01_true (by rw [ha]; norm_num; linarith : |x| ≥ 1.5)]
  rw [cond01_false (by rw [ha]; norm_num; linarith : ¬ |x| ≤ 1.5)]
  rw [cond01_true (by rw [ha]; norm_num; linarith : |x| ≥ 0.5)]
  rw [cond01_false (by rw [ha]; norm_num; linarith : ¬ |x| ≤ 0.5)]
  rw [tp_pos (by linarith : 0 ≤ x + (5 / 2))]
  rw [tp_pos (by linarith : 0 ≤ x + (3 / 2))]
  rw [tp_pos (by linarith : 0 ≤ x + (1 / 2))]
  rw [tp_pos (by linarith : 0 ≤ x - (1 / 2))]
  rw [tp_pos (by linarith : 0 ≤ x - (3 / 2))]
  rw [tp_pos (by linarith : 0 ≤ x - (5 / 2))]
  simp only [ha]
  ring

/-- its second derivative, off the inner knots -/
theorem cn4_tp2 (x : ℝ) (hx0 : x ≠ (-(3 / 2))) (hx1 : x ≠ (-(1 / 2))) (hx2 : x ≠ (1 / 2)) (hx3 : x ≠ (3 / 2)) :
    cond01 (|x| ≤ 2.5) * cond01 (|x| ≥ 1.5) * (16 * 4 * 3 * |x| ^ 2 - 160 * 3 * 2 * |x| + 600 * 2) * (1 / 384)
      + cond01 (|x| ≤ 1.5) * cond01 (|x| ≥ 0.5) * (-16 * 4 * 3 * |x| ^ 2 + 80 * 3 * 2 * |x| - 120 * 2) * (1 / 96)
      + cond01 (|x| ≤ 0.5) * (48 * 4 * 3 * |x| ^ 2 - 120 * 2) * (1 / 192) = 1 / 2 * diff5 (tp 2) x := by
  unfold diff5
  rcases lt_trichotomy x (-(5 / 2)) with h0 | h0 | h0
  · have ha : |x| = -x := abs_of_neg (by linarith)
    rw [cond01_false (by rw [ha]; norm_num; linarith : ¬ |x| ≤ 2.5)]
    rw [cond01_true (by rw [ha]; norm_num; linarith : |x| ≥ 1.5)]
    rw [cond01_false (by rw [ha]; norm_num; linarith : ¬ |x| ≤ 1.5)]
    rw [cond01_true (by rw [ha]; norm_num; linarith : |x| ≥ 0.5)]
    rw [cond01_false (by rw [ha]; norm_num; linarith : ¬ |x| ≤ 0.5)]
    rw [tp_neg (by linarith : x + (5 / 2) ≤ 0)]
    rw [tp_neg (by linarith : x + (3 / 2) ≤ 0)]
    rw [tp_neg (by linarith : x + (1 / 2) ≤ 0)]
    rw [tp_neg (by linarith : x - (1 / 2) ≤ 0)]
    rw [tp_neg (by linarith : x - (3 / 2) ≤ 0)]
    rw [tp_neg (by linarith : x - (5 / 2) ≤ 0)]
    simp only [ha]
    ring
  · subst h0; norm_num [cond01, tp, abs_of_neg, abs_of_pos]
  rcases lt_trichotomy x (-(3 / 2)) with h1 | h1 | h1
  · have ha : |x| = -x := abs_of_neg (by linarith)
    rw [cond01_true (by rw [ha]; norm_num; linarith : |x| ≤ 2.5)]
    rw [cond01_true (by rw [ha]; norm_num; linarith : |x| ≥ 1.5)]
    rw [cond01_false (by rw [ha]; norm_num; linarith : ¬ |x| ≤ 1.5)]
    rw [cond01_true (by rw [ha]; norm_num; linarith : |x| ≥ 0.5)]
    rw [cond01_false (by rw [ha]; norm_num; linarith : ¬ |x| ≤ 0.5)]
    rw [tp_pos (by linarith : 0 ≤ x + (5 / 2))]
    rw [tp_neg (by linarith : x + (3 / 2) ≤ 0)]
    rw [tp_neg (by linarith : x + (1 / 2) ≤ 0)]
    rw [tp_neg (by linarith : x - (1 / 2) ≤ 0)]
    rw [tp_neg (by linarith : x - (3 / 2) ≤ 0)]
    rw [tp_neg (by linarith : x - (5 / 2) ≤ 0)]
    simp only [ha]
    ring
  · exact absurd h1 hx0
  rcases lt_trichotomy x (-(1 / 2)) with h2 | h2 | h2
  · have ha : |x| = -x := abs_of_neg (by linarith)
    rw [cond01_true (by rw [ha]; norm_num; linarith : |x| ≤ 2.5)]
    rw [cond01_false (by rw [ha]; norm_num; linarith : ¬ |x| ≥ 1.5)]
    rw [cond01_true (by rw [ha]; norm_num; linarith : |x| ≤ 1.5)]
    rw [cond01_true (by rw [ha]; norm_num; linarith : |x| ≥ 0.5)]
    rw [cond01_false (by rw [ha]; norm_num; linarith : ¬ |x| ≤ 0.5)]
    rw [tp_pos (by linarith : 0 ≤ x + (5 / 2))]
    rw [tp_pos (by linarith : 0 ≤ x + (3 / 2))]
    rw [tp_neg (by linarith : x + (1 / 2) ≤ 0)]
    rw [tp_neg (by linarith : x - (1 / 2) ≤ 0)]
    rw [tp_neg (by linarith : x - (3 / 2) ≤ 0)]
    rw [tp_neg (by linarith : x - (5 / 2) ≤ 0)]
    simp only [ha]
    ring
  · exact absurd h2 hx1
  rcases lt_trichotomy x 0 with h3 | h3 | h3
  · have ha : |x| = -x := abs_of_neg (by linarith)
    rw [cond01_true (by rw [ha]; norm_num; linarith : |x| ≤ 2.5)]
    rw [cond01_false (by rw [ha]; norm_num; linarith : ¬ |x| ≥ 1.5)]
    rw [cond01_true (by rw [ha]; norm_num; linarith : |x| ≤ 1.5)]
    rw [cond01_false (by rw [ha]; norm_num; linarith : ¬ |x| ≥ 0.5)]
    rw [cond01_true (by rw [ha]; norm_num; linarith : |x| ≤ 0.5)]
    rw [tp_pos (by linarith : 0 ≤ x + (5 / 2))]
    rw [tp_pos (by linarith : 0 ≤ x + (3 / 2))]
    rw [tp_pos (by linarith : 0 ≤ x + (1 / 2))]
    rw [tp_neg (by linarith : x - (1 / 2) ≤ 0)]
    rw [tp_neg (by linarith : x - (3 / 2) ≤ 0)]
    rw [tp_neg (by linarith : x - (5 / 2) ≤ 0)]
    simp only [ha]
    ring
  · subst h3; norm_num [cond01, tp, abs_of_neg, abs_of_pos]
  rcases lt_trichotomy x (1 / 2) with h4 | h4 | h4
  · have ha : |x| = x := abs_of_pos (by linarith)
    rw [cond01_true (by rw [ha]; norm_num; linarith : |x| ≤ 2.5)]
    rw [cond01_false (by rw [ha]; norm_num; linarith : ¬ |x| ≥ 1.5)]
    rw [cond01_true (by rw [ha]; norm_num; linarith : |x| ≤ 1.5)]
    rw [cond01_false (by rw [ha]; norm_num; linarith : ¬ |x| ≥ 0.5)]
    rw [cond01_true (by rw [ha]; norm_num; linarith : |x| ≤ 0.5)]
    rw [tp_pos (by linarith : 0 ≤ x + (5 / 2))]
    rw [tp_pos (by linarith : 0 ≤ x + (3 / 2))]
    rw [tp_pos (by linarith : 0 ≤ x + (1 / 2))]
    rw [tp_neg (by linarith : x - (1 / 2) ≤ 0)]
    rw [tp_neg (by linarith : x - (3 / 2) ≤ 0)]
    rw [tp_neg (by linarith : x - (5 / 2) ≤ 0)]
    simp only [ha]
    ring
  · exact absurd h4 hx2
  rcases lt_trichotomy x (3 / 2) with h5 | h5 | h5
  · have ha : |x| = x := abs_of_pos (by linarith)
    rw [cond01_true (by rw [ha]; norm_num; linarith : |x| ≤ 2.5)]
    rw [cond01_false (by rw [ha]; norm_num; linarith : ¬ |x| ≥ 1.5)]
    rw [cond01_true (by rw [ha]; norm_num; linarith : |x| ≤ 1.5)]
    rw [cond01_true (by rw [ha]; norm_num; linarith : |x| ≥ 0.5)]
    rw [cond01_false (by rw [ha]; norm_num; linarith : ¬ |x| ≤ 0.5)]
    rw [tp_pos (by linarith : 0 ≤ x + (5 / 2))]
    rw [tp_pos (by linarith : 0 ≤ x + (3 / 2))]
    rw [tp_pos (by linarith : 0 ≤ x + (1 / 2))]
    rw [tp_pos (by linarith : 0 ≤ x - (1 / 2))]
    rw [tp_neg (by linarith : x - (3 / 2) ≤ 0)]
    rw [tp_neg (by linarith : x - (5 / 2) ≤ 0)]
    simp only [ha]
    ring
  · exact absurd h5 hx3
  rcases lt_trichotomy x (5 / 2) with h6 | h6 | h6
  · have ha : |x| = x := abs_of_pos (by linarith)
    rw [cond01_true (by rw [ha]; norm_num; linarith : |x| ≤ 2.5)]
    rw [cond01_true (by rw [ha]; norm_num; linarith : |x| ≥ 1.5)]
    rw [cond01_false (by rw [ha]; norm_num; linarith : ¬ |x| ≤ 1.5)]
    rw [cond01_true (by rw [ha]; norm_num; linarith : |x| ≥ 0.5)]
    rw [cond01_false (by rw [ha]; norm_num; linarith : ¬ |x| ≤ 0.5)]
    rw [tp_pos (by linarith : 0 ≤ x + (5 / 2))]
    rw [tp_pos (by linarith : 0 ≤ x + (3 / 2))]
    rw [tp_pos (by linarith : 0 ≤ x + (1 / 2))]
    rw [tp_pos (by linarith : 0 ≤ x - (1 / 2))]
    rw [tp_pos (by linarith : 0 ≤ x - (3 / 2))]
    rw [tp_neg (by linarith : x - (5 / 2) ≤ 0)]
    simp only [ha]
    ring
  · subst h6; norm_num [cond01, tp, abs_of_neg, abs_of_pos]
  have ha : |x| = x := abs_of_pos (by linarith)
  rw [cond01_false (by rw [ha]; norm_num; linarith : ¬ |x| ≤ 2.5)]
  rw [cond01_true (by rw [ha]; norm_num; linarith : |x| ≥ 1.5)]
  rw [cond01_false (by rw [ha]; norm_num; linarith : ¬ |x| ≤ 1.5)]
  rw [cond01_true (by rw [ha]; norm_num; linarith : |x| ≥ 0.5)]
  rw [cond01_false (by rw [ha]; norm_num; linarith : ¬ |x| ≤ 0.5)]
  rw [tp_pos (by linarith : 0 ≤ x + (5 / 2))]
  rw [tp_pos (by linarith : 0 ≤ x + (3 / 2))]
  rw [tp_pos (by linarith : 0 ≤ x + (1 / 2))]
  rw [tp_pos (by linarith : 0 ≤ x - (1 / 2))]
  rw [tp_pos (by linarith : 0 ≤ x - (3 / 2))]
  rw [tp_pos (by linarith : 0 ≤ x - (5 / 2))]
  simp only [ha]
  ring

end Gpy
