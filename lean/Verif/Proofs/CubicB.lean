import Verif.Model.Kernels
import Mathlib.Analysis.Calculus.Deriv.Pow
import Mathlib.Analysis.Calculus.Deriv.Add
import Mathlib.Analysis.Calculus.Deriv.Mul
import Mathlib.Analysis.Calculus.LHopital
import Mathlib.Analysis.SpecialFunctions.Integrals.Basic

/-! The cubic B-spline of `compactly_supported_normal_kernel.py`. -/

set_option autoImplicit false
namespace Gpy
open Filter Topology

theorem cond01_true {p : Prop} [Decidable p] (h : p) : cond01 p = 1 := if_pos h
theorem cond01_false {p : Prop} [Decidable p] (h : ¬ p) : cond01 p = 0 := if_neg h

theorem cubic_cases (x : ℝ) :
    (x < -2 ∧ cond01 (|x| < 1) = 0 ∧ cond01 (|x| ≤ 2) * cond01 (|x| ≥ 1) = 0 ∧ |x| = -x ∧ signGe x = -1) ∨
    ((-2 ≤ x ∧ x ≤ -1) ∧ cond01 (|x| < 1) = 0 ∧ cond01 (|x| ≤ 2) * cond01 (|x| ≥ 1) = 1 ∧ |x| = -x ∧ signGe x = -1) ∨
    ((-1 < x ∧ x < 0) ∧ cond01 (|x| < 1) = 1 ∧ cond01 (|x| ≤ 2) * cond01 (|x| ≥ 1) = 0 ∧ |x| = -x ∧ signGe x = -1) ∨
    ((0 ≤ x ∧ x < 1) ∧ cond01 (|x| < 1) = 1 ∧ cond01 (|x| ≤ 2) * cond01 (|x| ≥ 1) = 0 ∧ |x| = x ∧ signGe x = 1) ∨
    ((1 ≤ x ∧ x ≤ 2) ∧ cond01 (|x| < 1) = 0 ∧ cond01 (|x| ≤ 2) * cond01 (|x| ≥ 1) = 1 ∧ |x| = x ∧ signGe x = 1) ∨
    (2 < x ∧ cond01 (|x| < 1) = 0 ∧ cond01 (|x| ≤ 2) * cond01 (|x| ≥ 1) = 0 ∧ |x| = x ∧ signGe x = 1) := by
  have sneg : x < 0 → signGe x = -1 := fun h => by
    unfold signGe; rw [cond01_false (by linarith : ¬ x ≥ 0), cond01_true h]; ring
  have spos : 0 ≤ x → signGe x = 1 := fun h => by
    unfold signGe; rw [cond01_true (show x ≥ 0 from h), cond01_false (by linarith)]; ring
  rcases lt_or_ge x 0 with h0 | h0
  · have ha := abs_of_neg h0
    rcases lt_or_ge x (-2) with h2 | h2
    · exact Or.inl ⟨h2, cond01_false (by rw [ha]; linarith), by rw [cond01_false (by rw [ha]; linarith : ¬ |x| ≤ 2), zero_mul], ha, sneg h0⟩
    · rcases le_or_gt x (-1) with h1 | h1
      · exact Or.inr (Or.inl ⟨⟨h2, h1⟩, cond01_false (by rw [ha]; linarith),
          by rw [cond01_true (by rw [ha]; linarith : |x| ≤ 2), cond01_true (by rw [ha]; linarith : |x| ≥ 1), one_mul], ha, sneg h0⟩)
      · exact Or.inr (Or.inr (Or.inl ⟨⟨h1, h0⟩, cond01_true (by rw [ha]; linarith),
          by rw [cond01_false (by rw [ha]; linarith : ¬ |x| ≥ 1), mul_zero], ha, sneg h0⟩))
  · have ha := abs_of_nonneg h0
    rcases lt_or_ge 2 x with h2 | h2
    · exact Or.inr (Or.inr (Or.inr (Or.inr (Or.inr ⟨h2, cond01_false (by rw [ha]; linarith),
        by rw [cond01_false (by rw [ha]; linarith : ¬ |x| ≤ 2), zero_mul], ha, spos h0⟩))))
    · rcases le_or_gt 1 x with h1 | h1
      · exact Or.inr (Or.inr (Or.inr (Or.inr (Or.inl ⟨⟨h1, h2⟩, cond01_false (by rw [ha]; linarith),
          by rw [cond01_true (by rw [ha]; linarith : |x| ≤ 2), cond01_true (by rw [ha]; linarith : |x| ≥ 1), one_mul], ha, spos h0⟩))))
      · exact Or.inr (Or.inr (Or.inr (Or.inl ⟨⟨h0, h1⟩, cond01_true (by rw [ha]; linarith),
          by rw [cond01_false (by rw [ha]; linarith : ¬ |x| ≥ 1), mul_zero], ha, spos h0⟩)))

/-- truncated power -/
noncomputable def tp (n : ℕ) (x : ℝ) : ℝ := max x 0 ^ n

theorem tp_pos {n : ℕ} {x : ℝ} (h : 0 ≤ x) : tp n x = x ^ n := by unfold tp; rw [max_eq_left h]
theorem tp_neg {n : ℕ} {x : ℝ} (h : x ≤ 0) : tp (n + 1) x = 0 := by unfold tp; rw [max_eq_right h, zero_pow (by omega)]

/-- fourth difference -/
noncomputable def diff4 (f : ℝ → ℝ) (x : ℝ) : ℝ := f (x + 2) - 4 * f (x + 1) + 6 * f x - 4 * f (x - 1) + f (x - 2)

theorem cubic_tp (x : ℝ) : cubicB x = 1 / 6 * diff4 (tp 3) x ∧ cubicB1 x = 1 / 2 * diff4 (tp 2) x ∧ cubicB2 x = diff4 (tp 1) x := by
  unfold cubicB cubicB1 cubicB2 diff4
  rcases cubic_cases x with ⟨h, a, b, c, s⟩ | ⟨h, a, b, c, s⟩ | ⟨h, a, b, c, s⟩ | ⟨h, a, b, c, s⟩ | ⟨h, a, b, c, s⟩ | ⟨h, a, b, c, s⟩
  · simp only [a, b, s]; simp only [c]
    have h1 : x + 2 ≤ 0 := by linarith
    have h2 : x + 1 ≤ 0 := by linarith
    have h3 : x ≤ 0 := by linarith
    have h4 : x - 1 ≤ 0 := by linarith
    have h5 : x - 2 ≤ 0 := by linarith
    refine ⟨?_, ?_, ?_⟩ <;> rw [tp_neg h1, tp_neg h2, tp_neg h3, tp_neg h4, tp_neg h5] <;> ring
  · simp only [a, b, s]; simp only [c]
    have h1 : 0 ≤ x + 2 := by linarith
    have h2 : x + 1 ≤ 0 := by linarith
    have h3 : x ≤ 0 := by linarith
    have h4 : x - 1 ≤ 0 := by linarith
    have h5 : x - 2 ≤ 0 := by linarith
    refine ⟨?_, ?_, ?_⟩ <;> rw [tp_pos h1, tp_neg h2, tp_neg h3, tp_neg h4, tp_neg h5] <;> ring
  · simp only [a, b, s]; simp only [c]
    have h1 : 0 ≤ x + 2 := by linarith
    have h2 : 0 ≤ x + 1 := by linarith
    have h3 : x ≤ 0 := by linarith
    have h4 : x - 1 ≤ 0 := by linarith
    have h5 : x - 2 ≤ 0 := by linarith
    refine ⟨?_, ?_, ?_⟩ <;> rw [tp_pos h1, tp_pos h2, tp_neg h3, tp_neg h4, tp_neg h5] <;> ring
  · simp only [a, b, s]; simp only [c]
    have h1 : 0 ≤ x + 2 := by linarith
    have h2 : 0 ≤ x + 1 := by linarith
    have h3 : 0 ≤ x := by linarith
    have h4 : x - 1 ≤ 0 := by linarith
    have h5 : x - 2 ≤ 0 := by linarith
    refine ⟨?_, ?_, ?_⟩ <;> rw [tp_pos h1, tp_pos h2, tp_pos h3, tp_neg h4, tp_neg h5] <;> ring
  · simp only [a, b, s]; simp only [c]
    have h1 : 0 ≤ x + 2 := by linarith
    have h2 : 0 ≤ x + 1 := by linarith
    have h3 : 0 ≤ x := by linarith
    have h4 : 0 ≤ x - 1 := by linarith
    have h5 : x - 2 ≤ 0 := by linarith
    refine ⟨?_, ?_, ?_⟩ <;> rw [tp_pos h1, tp_pos h2, tp_pos h3, tp_pos h4, tp_neg h5] <;> ring
  · simp only [a, b, s]; simp only [c]
    have h1 : 0 ≤ x + 2 := by linarith
    have h2 : 0 ≤ x + 1 := by linarith
    have h3 : 0 ≤ x := by linarith
    have h4 : 0 ≤ x - 1 := by linarith
    have h5 : 0 ≤ x - 2 := by linarith
    refine ⟨?_, ?_, ?_⟩ <;> rw [tp_pos h1, tp_pos h2, tp_pos h3, tp_pos h4, tp_pos h5] <;> ring

theorem tp_deriv (n : ℕ) (x : ℝ) : HasDerivAt (tp (n + 2)) ((n + 2) * tp (n + 1) x) x := by
  rcases lt_trichotomy x 0 with h | h | h
  · rw [tp_neg h.le, mul_zero]
    refine (hasDerivAt_const x (0 : ℝ)).congr_of_eventuallyEq ?_
    filter_upwards [eventually_lt_nhds h] with y hy
    exact tp_neg hy.le
  · subst h
    rw [tp_neg (le_refl _), mul_zero, hasDerivAt_iff_isLittleO]
    simp only [tp_neg (le_refl (0 : ℝ)), sub_zero, smul_zero]
    have h2 : (fun h : ℝ => h ^ (n + 2)) =o[𝓝 0] fun h => h := by
      have := Asymptotics.isLittleO_pow_id (𝕜 := ℝ) (n := n + 2) (by omega)
      simpa using this
    refine Asymptotics.IsBigO.trans_isLittleO ?_ h2
    refine Asymptotics.IsBigO.of_bound 1 (Eventually.of_forall (fun y => ?_))
    rw [one_mul]
    unfold tp
    rw [norm_pow, norm_pow]
    refine pow_le_pow_left₀ (norm_nonneg _) ?_ _
    rw [Real.norm_eq_abs, Real.norm_eq_abs, abs_of_nonneg (le_max_right _ _)]
    exact max_le (le_abs_self _) (abs_nonneg _)
  · rw [tp_pos h.le]
    refine HasDerivAt.congr_of_eventuallyEq ?_ (f := fun y => y ^ (n + 2)) ?_
    · have := hasDerivAt_pow (n + 2) x
      refine this.congr_deriv ?_
      push_cast
      simp
    · filter_upwards [eventually_gt_nhds h] with y hy
      exact tp_pos hy.le

theorem diff4_deriv {f f' : ℝ → ℝ} (h : ∀ x, HasDerivAt f (f' x) x) (x : ℝ) : HasDerivAt (diff4 f) (diff4 f' x) x := by
  unfold diff4
  have s : ∀ c : ℝ, HasDerivAt (fun y => f (y + c)) (f' (x + c)) x := fun c => (h (x + c)).comp_add_const x c
  have t : ∀ c : ℝ, HasDerivAt (fun y => f (y - c)) (f' (x - c)) x := fun c => (h (x - c)).comp_sub_const x c
  exact ((((s 2).sub ((s 1).const_mul 4)).add ((h x).const_mul 6)).sub ((t 1).const_mul 4)).add (t 2)

theorem cubicB_deriv (x : ℝ) : HasDerivAt cubicB (cubicB1 x) x := by
  rw [show cubicB = fun x => 1 / 6 * diff4 (tp 3) x from funext (fun x => (cubic_tp x).1), (cubic_tp x).2.1]
  have := (diff4_deriv (f := tp 3) (f' := fun x => 3 * tp 2 x) (fun x => by have := tp_deriv 1 x; norm_num at this; exact this) x).const_mul (1 / 6)
  refine this.congr_deriv ?_
  unfold diff4
  ring

theorem cubicB1_deriv (x : ℝ) : HasDerivAt cubicB1 (cubicB2 x) x := by
  rw [show cubicB1 = fun x => 1 / 2 * diff4 (tp 2) x from funext (fun x => (cubic_tp x).2.1), (cubic_tp x).2.2]
  have := (diff4_deriv (f := tp 2) (f' := fun x => 2 * tp 1 x) (fun x => by have := tp_deriv 0 x; norm_num at this; exact this) x).const_mul (1 / 2)
  refine this.congr_deriv ?_
  unfold diff4
  ring

theorem cubicB_even (x : ℝ) : cubicB (-x) = cubicB x := by unfold cubicB; rw [abs_neg]
theorem cubicB2_even (x : ℝ) : cubicB2 (-x) = cubicB2 x := by unfold cubicB2; rw [abs_neg]

theorem cubicB1_odd (x : ℝ) : cubicB1 (-x) = -cubicB1 x := by
  have h1 : HasDerivAt (fun y => cubicB (-y)) (-cubicB1 (-x)) x := by
    have := (cubicB_deriv (-x)).comp x (hasDerivAt_neg x)
    simpa [Function.comp_def] using this
  rw [funext cubicB_even] at h1
  have := h1.unique (cubicB_deriv x)
  linarith

end Gpy
