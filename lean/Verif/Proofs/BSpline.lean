import Verif.Spec.BSpline
import Verif.Proofs.BSplineTp
import Mathlib.MeasureTheory.Integral.IntervalIntegral.FundThmCalculus
import Mathlib.MeasureTheory.Integral.DivergenceTheorem
import Mathlib.MeasureTheory.Measure.Lebesgue.Integral
import Mathlib.MeasureTheory.Measure.Haar.NormedSpace

/-! Closed forms of the box splines. -/

set_option autoImplicit false
namespace Gpy
open MeasureTheory Filter Topology

theorem conv_box (f : ℝ → ℝ) (x : ℝ) : ∫ t, box (x - t) * f t = ∫ t in (x - 1 / 2)..(x + 1 / 2), f t := by
  have h : (fun t => box (x - t) * f t) = Set.indicator (Set.Icc (x - 1 / 2) (x + 1 / 2)) f := by
    funext t
    unfold box
    by_cases ht : t ∈ Set.Icc (x - 1 / 2) (x + 1 / 2)
    · rw [Set.indicator_of_mem ht, if_pos, one_mul]
      rw [abs_le]
      obtain ⟨h1, h2⟩ := ht
      constructor <;> linarith
    · rw [Set.indicator_of_notMem ht, if_neg, zero_mul]
      rw [abs_le]
      intro ⟨h1, h2⟩
      exact ht ⟨by linarith, by linarith⟩
  rw [h, integral_indicator measurableSet_Icc, intervalIntegral.integral_of_le (by linarith), setIntegral_congr_set Ioc_ae_eq_Icc]

/-- the Heaviside function -/
noncomputable def step01 (x : ℝ) : ℝ := if 0 < x then 1 else 0

theorem tp1_deriv {x : ℝ} (h : x ≠ 0) : HasDerivAt (tp 1) (step01 x) x := by
  rcases lt_or_gt_of_ne h with h | h
  · unfold step01
    rw [if_neg (by linarith)]
    refine (hasDerivAt_const x (0 : ℝ)).congr_of_eventuallyEq ?_
    filter_upwards [eventually_lt_nhds h] with y hy
    exact tp_neg hy.le
  · unfold step01
    rw [if_pos h]
    refine (hasDerivAt_id x).congr_of_eventuallyEq ?_
    filter_upwards [eventually_gt_nhds h] with y hy
    rw [tp_pos hy.le, pow_one]; rfl

theorem step01_deriv {x : ℝ} (h : x ≠ 0) : HasDerivAt step01 0 x := by
  rcases lt_or_gt_of_ne h with h | h
  · refine (hasDerivAt_const x (0 : ℝ)).congr_of_eventuallyEq ?_
    filter_upwards [eventually_lt_nhds h] with y hy
    unfold step01; rw [if_neg (by linarith)]
  · refine (hasDerivAt_const x (1 : ℝ)).congr_of_eventuallyEq ?_
    filter_upwards [eventually_gt_nhds h] with y hy
    unfold step01; rw [if_pos hy]

theorem tp_continuous (n : ℕ) : Continuous (tp n) := by
  unfold tp
  exact (continuous_id.max continuous_const).pow n

theorem add_shift {f : ℝ → ℝ} {f' : ℝ} (c x : ℝ) (h : HasDerivAt f f' (x + c)) : HasDerivAt (fun y => f (y + c)) f' x := h.comp_add_const x c
theorem sub_shift {f : ℝ → ℝ} {f' : ℝ} (c x : ℝ) (h : HasDerivAt f f' (x - c)) : HasDerivAt (fun y => f (y - c)) f' x := h.comp_sub_const x c

theorem diff2_deriv {f f' : ℝ → ℝ} {x : ℝ} (h1 : HasDerivAt f (f' (x + 1)) (x + 1)) (h2 : HasDerivAt f (f' x) x) (h3 : HasDerivAt f (f' (x - 1)) (x - 1)) :
    HasDerivAt (diff2 f) (diff2 f' x) x := by
  unfold diff2
  exact ((add_shift 1 x h1).sub (h2.const_mul 2)).add (sub_shift 1 x h3)

theorem diff3_deriv {f f' : ℝ → ℝ} {x : ℝ} (h1 : HasDerivAt f (f' (x + 3 / 2)) (x + 3 / 2)) (h2 : HasDerivAt f (f' (x + 1 / 2)) (x + 1 / 2))
    (h3 : HasDerivAt f (f' (x - 1 / 2)) (x - 1 / 2)) (h4 : HasDerivAt f (f' (x - 3 / 2)) (x - 3 / 2)) :
    HasDerivAt (diff3 f) (diff3 f' x) x := by
  unfold diff3
  exact (((add_shift (3 / 2) x h1).sub ((add_shift (1 / 2) x h2).const_mul 3)).add ((sub_shift (1 / 2) x h3).const_mul 3)).sub (sub_shift (3 / 2) x h4)

theorem diff5_deriv {f f' : ℝ → ℝ} (h : ∀ x, HasDerivAt f (f' x) x) (x : ℝ) : HasDerivAt (diff5 f) (diff5 f' x) x := by
  unfold diff5
  exact (((((add_shift (5 / 2) x (h _)).sub ((add_shift (3 / 2) x (h _)).const_mul 5)).add ((add_shift (1 / 2) x (h _)).const_mul 10)).sub
    ((sub_shift (1 / 2) x (h _)).const_mul 10)).add ((sub_shift (3 / 2) x (h _)).const_mul 5)).sub (sub_shift (5 / 2) x (h _))

theorem diff2_continuous {f : ℝ → ℝ} (h : Continuous f) : Continuous (diff2 f) := by
  unfold diff2; fun_prop

theorem diff3_continuous {f : ℝ → ℝ} (h : Continuous f) : Continuous (diff3 f) := by
  unfold diff3; fun_prop

theorem diff4_continuous {f : ℝ → ℝ} (h : Continuous f) : Continuous (diff4 f) := by
  unfold diff4; fun_prop

theorem diff5_continuous {f : ℝ → ℝ} (h : Continuous f) : Continuous (diff5 f) := by
  unfold diff5; fun_prop

/-- the integral of a difference of truncated powers -/
theorem diff2_integral (n : ℕ) (a b : ℝ) : ∫ t in a..b, diff2 (tp (n + 1)) t = (diff2 (tp (n + 2)) b - diff2 (tp (n + 2)) a) / (n + 2) := by
  have h : ∀ x ∈ Set.uIcc a b, HasDerivAt (fun y => diff2 (tp (n + 2)) y / (n + 2)) (diff2 (tp (n + 1)) x) x := by
    intro x _
    have := (diff2_deriv (f := tp (n + 2)) (f' := fun y => (n + 2) * tp (n + 1) y) (x := x) (tp_deriv n _) (tp_deriv n _) (tp_deriv n _)).div_const ((n : ℝ) + 2)
    refine this.congr_deriv ?_
    unfold diff2
    have : (n : ℝ) + 2 ≠ 0 := by positivity
    field_simp
  rw [intervalIntegral.integral_eq_sub_of_hasDerivAt h ((diff2_continuous (tp_continuous _)).intervalIntegrable _ _)]
  ring

theorem diff3_integral (n : ℕ) (a b : ℝ) : ∫ t in a..b, diff3 (tp (n + 1)) t = (diff3 (tp (n + 2)) b - diff3 (tp (n + 2)) a) / (n + 2) := by
  have h : ∀ x ∈ Set.uIcc a b, HasDerivAt (fun y => diff3 (tp (n + 2)) y / (n + 2)) (diff3 (tp (n + 1)) x) x := by
    intro x _
    have := (diff3_deriv (f := tp (n + 2)) (f' := fun y => (n + 2) * tp (n + 1) y) (x := x) (tp_deriv n _) (tp_deriv n _) (tp_deriv n _) (tp_deriv n _)).div_const ((n : ℝ) + 2)
    refine this.congr_deriv ?_
    unfold diff3
    have : (n : ℝ) + 2 ≠ 0 := by positivity
    field_simp
  rw [intervalIntegral.integral_eq_sub_of_hasDerivAt h ((diff3_continuous (tp_continuous _)).intervalIntegrable _ _)]
  ring

theorem diff4_integral (n : ℕ) (a b : ℝ) : ∫ t in a..b, diff4 (tp (n + 1)) t = (diff4 (tp (n + 2)) b - diff4 (tp (n + 2)) a) / (n + 2) := by
  have h : ∀ x ∈ Set.uIcc a b, HasDerivAt (fun y => diff4 (tp (n + 2)) y / (n + 2)) (diff4 (tp (n + 1)) x) x := by
    intro x _
    have := (diff4_deriv (f := tp (n + 2)) (f' := fun y => (n + 2) * tp (n + 1) y) (tp_deriv n) x).div_const ((n : ℝ) + 2)
    refine this.congr_deriv ?_
    unfold diff4
    have : (n : ℝ) + 2 ≠ 0 := by positivity
    field_simp
  rw [intervalIntegral.integral_eq_sub_of_hasDerivAt h ((diff4_continuous (tp_continuous _)).intervalIntegrable _ _)]
  ring

theorem diff5_integral (n : ℕ) (a b : ℝ) : ∫ t in a..b, diff5 (tp (n + 1)) t = (diff5 (tp (n + 2)) b - diff5 (tp (n + 2)) a) / (n + 2) := by
  have h : ∀ x ∈ Set.uIcc a b, HasDerivAt (fun y => diff5 (tp (n + 2)) y / (n + 2)) (diff5 (tp (n + 1)) x) x := by
    intro x _
    have := (diff5_deriv (f := tp (n + 2)) (f' := fun y => (n + 2) * tp (n + 1) y) (tp_deriv n) x).div_const ((n : ℝ) + 2)
    refine this.congr_deriv ?_
    unfold diff5
    have : (n : ℝ) + 2 ≠ 0 := by positivity
    field_simp
  rw [intervalIntegral.integral_eq_sub_of_hasDerivAt h ((diff5_continuous (tp_continuous _)).intervalIntegrable _ _)]
  ring

theorem box_measurable : Measurable box := by
  unfold box
  exact Measurable.ite (measurableSet_le continuous_abs.measurable measurable_const) measurable_const measurable_const

theorem box_intervalIntegrable (a b : ℝ) : IntervalIntegrable box volume a b := by
  refine (intervalIntegrable_const (c := (1 : ℝ))).mono_fun box_measurable.aestronglyMeasurable ?_
  refine Filter.Eventually.of_forall (fun x => ?_)
  simp only [box]
  split_ifs <;> simp

theorem boxSpline_one : boxSpline 1 = diff2 (tp 1) := by
  funext x
  unfold boxSpline boxSpline
  rw [conv_box]
  have h := integral_eq_of_hasDerivAt_off_countable (fun t => tp 1 (t + 1 / 2) - tp 1 (t - 1 / 2)) box (a := x - 1 / 2) (b := x + 1 / 2) (s := {1 / 2, -(1 / 2)})
    (Set.Finite.countable (by simp)) (by have := tp_continuous 1; fun_prop) (fun t ht => by
      have h1 : t ≠ 1 / 2 ∧ t ≠ -(1 / 2) := by
        have := ht.2
        rw [Set.mem_insert_iff, Set.mem_singleton_iff, not_or] at this
        exact this
      refine ((add_shift (1 / 2) t (tp1_deriv (fun h => h1.2 (by linarith)))).sub (sub_shift (1 / 2) t (tp1_deriv (fun h => h1.1 (by linarith))))).congr_deriv ?_
      unfold step01 box
      rcases lt_or_gt_of_ne h1.1 with a | a
      · rcases lt_or_gt_of_ne h1.2 with b | b
        · rw [if_neg (by linarith), if_neg (by linarith), if_neg (by rw [abs_le]; intro h; linarith [h.1])]; ring
        · rw [if_pos (by linarith), if_neg (by linarith), if_pos (by rw [abs_le]; constructor <;> linarith)]; ring
      · rw [if_pos (by linarith), if_pos (by linarith), if_neg (by rw [abs_le]; intro h; linarith [h.2])]; ring) (box_intervalIntegrable _ _)
  rw [h]
  unfold diff2
  rw [show x + 1 / 2 + 1 / 2 = x + 1 by ring, show x + 1 / 2 - 1 / 2 = x by ring, show x - 1 / 2 + 1 / 2 = x by ring, show x - 1 / 2 - 1 / 2 = x - 1 by ring]
  ring

theorem boxSpline_two : boxSpline 2 = fun x => 1 / 2 * diff3 (tp 2) x := by
  funext x
  unfold boxSpline
  rw [conv_box, boxSpline_one, diff2_integral 0]
  unfold diff2 diff3
  rw [show x + 1 / 2 + 1 = x + 3 / 2 by ring, show x + 1 / 2 - 1 = x - 1 / 2 by ring, show x - 1 / 2 + 1 = x + 1 / 2 by ring, show x - 1 / 2 - 1 = x - 3 / 2 by ring]
  norm_num
  ring

theorem boxSpline_three : boxSpline 3 = fun x => 1 / 6 * diff4 (tp 3) x := by
  funext x
  unfold boxSpline
  rw [conv_box, boxSpline_two, intervalIntegral.integral_const_mul, diff3_integral 1]
  unfold diff3 diff4
  rw [show x + 1 / 2 + 3 / 2 = x + 2 by ring, show x + 1 / 2 + 1 / 2 = x + 1 by ring, show x + 1 / 2 - 1 / 2 = x by ring, show x + 1 / 2 - 3 / 2 = x - 1 by ring,
    show x - 1 / 2 + 3 / 2 = x + 1 by ring, show x - 1 / 2 + 1 / 2 = x by ring, show x - 1 / 2 - 1 / 2 = x - 1 by ring, show x - 1 / 2 - 3 / 2 = x - 2 by ring]
  norm_num
  ring

theorem boxSpline_four : boxSpline 4 = fun x => 1 / 24 * diff5 (tp 4) x := by
  funext x
  unfold boxSpline
  rw [conv_box, boxSpline_three, intervalIntegral.integral_const_mul, diff4_integral 2]
  unfold diff4 diff5
  rw [show x + 1 / 2 + 2 = x + 5 / 2 by ring, show x + 1 / 2 + 1 = x + 3 / 2 by ring, show x + 1 / 2 - 1 = x - 1 / 2 by ring, show x + 1 / 2 - 2 = x - 3 / 2 by ring,
    show x - 1 / 2 + 2 = x + 3 / 2 by ring, show x - 1 / 2 + 1 = x + 1 / 2 by ring, show x - 1 / 2 - 1 = x - 3 / 2 by ring, show x - 1 / 2 - 2 = x - 5 / 2 by ring]
  norm_num
  ring

/-- the factor computed for one coordinate -/
noncomputable def cnB (n : ℕ) (x : ℝ) : ℝ := (cnFactor n x).getD 0

/-- points at which the pieces of the formulas do not fit together: the code adds two pieces or none -/
def badKnots : ℕ → Set ℝ
  | 2 => {-(1 / 2), 1 / 2}
  | 4 => {-(3 / 2), -(1 / 2), 1 / 2, 3 / 2}
  | _ => ∅

theorem badKnots_finite (n : ℕ) : (badKnots n).Finite := by
  unfold badKnots
  split <;> simp

theorem cnFactor_eq {n : ℕ} (hn : 1 ≤ n) (h4 : n ≤ 4) (x : ℝ) : cnFactor n x = some (cnB n x) := by
  unfold cnB
  have : n = 1 ∨ n = 2 ∨ n = 3 ∨ n = 4 := by omega
  rcases this with rfl | rfl | rfl | rfl <;> rfl

theorem cnB_eq {n : ℕ} (hn : 1 ≤ n) (h4 : n ≤ 4) {x : ℝ} (hx : x ∉ badKnots n) : cnB n x = boxSpline n x := by
  have : n = 1 ∨ n = 2 ∨ n = 3 ∨ n = 4 := by omega
  rcases this with rfl | rfl | rfl | rfl
  · rw [boxSpline_one]
    exact cn1_tp x
  · rw [boxSpline_two]
    simp only [badKnots, Set.mem_insert_iff, Set.mem_singleton_iff, not_or] at hx
    exact cn2_tp x hx.1 hx.2
  · rw [boxSpline_three]
    exact (cubic_tp x).1
  · rw [boxSpline_four]
    simp only [badKnots, Set.mem_insert_iff, Set.mem_singleton_iff, not_or] at hx
    exact cn4_tp x hx.1 hx.2.1 hx.2.2.1 hx.2.2.2

/-- the radius of the support -/
theorem boxSpline_zero {n : ℕ} (hn : 1 ≤ n) (h4 : n ≤ 4) {x : ℝ} (hx : ((n : ℝ) + 1) / 2 < |x|) : boxSpline n x = 0 := by
  have hb : x ∉ badKnots n := by
    have : n = 1 ∨ n = 2 ∨ n = 3 ∨ n = 4 := by omega
    intro hm
    rcases this with rfl | rfl | rfl | rfl <;> simp only [badKnots, Set.mem_insert_iff, Set.mem_singleton_iff, Set.mem_empty_iff_false] at hm
    · rcases hm with rfl | rfl <;> norm_num [abs_of_neg] at hx
    · rcases hm with rfl | rfl | rfl | rfl <;> norm_num [abs_of_neg] at hx
  rw [← cnB_eq hn h4 hb]
  have : n = 1 ∨ n = 2 ∨ n = 3 ∨ n = 4 := by omega
  unfold cnB
  rcases this with rfl | rfl | rfl | rfl <;> push_cast at hx
  · simp only [cnFactor, Option.getD_some]
    rw [cond01_false (by linarith)]; ring
  · simp only [cnFactor, Option.getD_some]
    rw [cond01_false (by norm_num; linarith : ¬ |x| < 0.5), cond01_false (by norm_num; linarith : ¬ |x| < 1.5)]; ring
  · simp only [cnFactor, Option.getD_some]
    rw [cond01_false (by linarith : ¬ |x| < 1), cond01_false (by linarith : ¬ |x| ≤ 2)]; ring
  · simp only [cnFactor, Option.getD_some]
    rw [cond01_false (by norm_num; linarith : ¬ |x| ≤ 2.5), cond01_false (by norm_num; linarith : ¬ |x| ≤ 1.5), cond01_false (by norm_num; linarith : ¬ |x| ≤ 0.5)]; ring

theorem integral_of_support {f : ℝ → ℝ} {R : ℝ} (hR : 0 ≤ R) (h : ∀ x, R < |x| → f x = 0) : ∫ x, f x = ∫ x in (-R)..R, f x := by
  rw [intervalIntegral.integral_of_le (by linarith), setIntegral_congr_set Ioc_ae_eq_Icc]
  refine (setIntegral_eq_integral_of_forall_compl_eq_zero (fun x hx => h x ?_)).symm
  by_contra hc
  exact hx (abs_le.mp (not_lt.mp hc))

theorem boxSpline_integral {n : ℕ} (hn : 1 ≤ n) (h4 : n ≤ 4) : ∫ x, boxSpline n x = 1 := by
  rw [integral_of_support (R := ((n : ℝ) + 1) / 2) (by positivity) (fun x hx => boxSpline_zero hn h4 hx)]
  have : n = 1 ∨ n = 2 ∨ n = 3 ∨ n = 4 := by omega
  rcases this with rfl | rfl | rfl | rfl
  · rw [boxSpline_one, diff2_integral 0]
    norm_num [diff2, tp]
  · rw [boxSpline_two, intervalIntegral.integral_const_mul, diff3_integral 1]
    norm_num [diff3, tp]
  · rw [boxSpline_three, intervalIntegral.integral_const_mul, diff4_integral 2]
    norm_num [diff4, tp]
  · rw [boxSpline_four, intervalIntegral.integral_const_mul, diff5_integral 3]
    norm_num [diff5, tp]

theorem box_nonneg (x : ℝ) : 0 ≤ box x := by unfold box; split_ifs <;> norm_num

theorem boxSpline_nonneg : ∀ (n : ℕ) (x : ℝ), 0 ≤ boxSpline n x
  | 0, x => box_nonneg x
  | n + 1, x => by
    unfold boxSpline
    exact integral_nonneg (fun t => mul_nonneg (box_nonneg _) (boxSpline_nonneg n t))

theorem boxSpline_continuous {n : ℕ} (hn : 1 ≤ n) (h4 : n ≤ 4) : Continuous (boxSpline n) := by
  have : n = 1 ∨ n = 2 ∨ n = 3 ∨ n = 4 := by omega
  rcases this with rfl | rfl | rfl | rfl
  · rw [boxSpline_one]; exact diff2_continuous (tp_continuous 1)
  · rw [boxSpline_two]; exact continuous_const.mul (diff3_continuous (tp_continuous 2))
  · rw [boxSpline_three]; exact continuous_const.mul (diff4_continuous (tp_continuous 3))
  · rw [boxSpline_four]; exact continuous_const.mul (diff5_continuous (tp_continuous 4))

theorem cnB_integral {n : ℕ} (hn : 1 ≤ n) (h4 : n ≤ 4) (c : ℝ) {σ : ℝ} (hσ : 0 < σ) : ∫ x, cnB n ((x - c) / σ) = σ := by
  rw [integral_sub_right_eq_self (fun x => cnB n (x / σ)) c, Measure.integral_comp_div (cnB n) σ]
  have : ∫ x, cnB n x = ∫ x, boxSpline n x := by
    apply integral_congr_ae
    have : ∀ᵐ x : ℝ, x ∉ badKnots n := by
      rw [ae_iff]
      simp only [not_not]
      exact (badKnots_finite n).measure_zero _
    filter_upwards [this] with x hx
    exact cnB_eq hn h4 hx
  rw [this, boxSpline_integral hn h4, abs_of_pos hσ, smul_eq_mul, mul_one]

/-- the factor computed for the differentiated coordinate -/
noncomputable def cnB2 (n : ℕ) (x : ℝ) : ℝ := (cnFactor2 n x).getD 0

theorem cnFactor2_eq {n : ℕ} (hn : 1 ≤ n) (h4 : n ≤ 4) (x : ℝ) : cnFactor2 n x = some (cnB2 n x) := by
  unfold cnB2
  have : n = 1 ∨ n = 2 ∨ n = 3 ∨ n = 4 := by omega
  rcases this with rfl | rfl | rfl | rfl <;> rfl

/-- the points where the function computed has no second derivative -/
def rough : ℕ → Set ℝ
  | 1 => {-1, 0, 1}
  | 2 => {-(3 / 2), -(1 / 2), 1 / 2, 3 / 2}
  | 4 => {-(3 / 2), -(1 / 2), 1 / 2, 3 / 2}
  | _ => ∅

theorem rough_finite (n : ℕ) : (rough n).Finite := by
  unfold rough
  split <;> simp

theorem badKnots_rough {n : ℕ} {x : ℝ} (h : x ∉ rough n) : x ∉ badKnots n := by
  intro hb
  apply h
  unfold badKnots at hb
  split at hb
  · simp only [rough, Set.mem_insert_iff, Set.mem_singleton_iff] at hb ⊢
    tauto
  · exact hb
  · exact absurd hb (Set.notMem_empty x)

theorem cnB_second {n : ℕ} (hn : 1 ≤ n) (h4 : n ≤ 4) {x : ℝ} (hx : x ∉ rough n) :
    ∃ g : ℝ → ℝ, (∀ᶠ t in 𝓝 x, HasDerivAt (cnB n) (g t) t) ∧ HasDerivAt g (cnB2 n x) x := by
  have hev : ∀ᶠ t in 𝓝 x, t ∉ rough n := (rough_finite n).isClosed.isOpen_compl.mem_nhds hx
  have hev2 : ∀ t, t ∉ rough n → cnB n =ᶠ[𝓝 t] boxSpline n := by
    intro t ht
    have : ∀ᶠ s in 𝓝 t, s ∉ rough n := (rough_finite n).isClosed.isOpen_compl.mem_nhds ht
    filter_upwards [this] with s hs
    exact cnB_eq hn h4 (badKnots_rough hs)
  suffices h : ∃ g : ℝ → ℝ, (∀ t, t ∉ rough n → HasDerivAt (boxSpline n) (g t) t) ∧ HasDerivAt g (cnB2 n x) x by
    obtain ⟨g, h1, h2⟩ := h
    refine ⟨g, ?_, h2⟩
    filter_upwards [hev] with t ht
    exact (h1 t ht).congr_of_eventuallyEq (hev2 t ht)
  clear hev hev2
  have : n = 1 ∨ n = 2 ∨ n = 3 ∨ n = 4 := by omega
  rcases this with rfl | rfl | rfl | rfl
  · have key : ∀ t, t ∉ rough 1 → t + 1 ≠ 0 ∧ t ≠ 0 ∧ t - 1 ≠ 0 := by
      intro t ht
      simp only [rough, Set.mem_insert_iff, Set.mem_singleton_iff, not_or] at ht
      exact ⟨fun h => ht.1 (by linarith), ht.2.1, fun h => ht.2.2 (by linarith)⟩
    refine ⟨diff2 step01, fun t ht => ?_, ?_⟩
    · rw [boxSpline_one]
      obtain ⟨a, b, c⟩ := key t ht
      exact diff2_deriv (tp1_deriv a) (tp1_deriv b) (tp1_deriv c)
    · obtain ⟨a, b, c⟩ := key x hx
      refine (diff2_deriv (f' := fun _ => 0) (step01_deriv a) (step01_deriv b) (step01_deriv c)).congr_deriv ?_
      simp [diff2, cnB2, cnFactor2]
  · refine ⟨diff3 (tp 1), fun t ht => ?_, ?_⟩
    · rw [boxSpline_two]
      have h2 : ∀ y, HasDerivAt (tp 2) (2 * tp 1 y) y := fun y => by have := tp_deriv 0 y; norm_num at this; exact this
      refine ((diff3_deriv (f := tp 2) (f' := fun y => 2 * tp 1 y) (h2 _) (h2 _) (h2 _) (h2 _)).const_mul (1 / 2)).congr_deriv ?_
      unfold diff3; ring
    · simp only [rough, Set.mem_insert_iff, Set.mem_singleton_iff, not_or] at hx
      obtain ⟨a, b, c, e⟩ := hx
      refine (diff3_deriv (f' := step01) (tp1_deriv (fun h => a (by linarith))) (tp1_deriv (fun h => b (by linarith)))
        (tp1_deriv (fun h => c (by linarith))) (tp1_deriv (fun h => e (by linarith)))).congr_deriv ?_
      simp only [cnB2, cnFactor2, Option.getD_some, diff3, step01]
      rcases lt_or_gt_of_ne a with h1 | h1
      · have ha : |x| = -x := abs_of_neg (by linarith)
        rw [cond01_false (by rw [ha]; norm_num; linarith : ¬ |x| < 0.5), cond01_false (by rw [ha]; norm_num; linarith : ¬ |x| < 1.5),
          if_neg (by linarith), if_neg (by linarith), if_neg (by linarith), if_neg (by linarith)]; ring
      rcases lt_or_gt_of_ne b with h2 | h2
      · have ha : |x| = -x := abs_of_neg (by linarith)
        rw [cond01_false (by rw [ha]; norm_num; linarith : ¬ |x| < 0.5), cond01_true (by rw [ha]; norm_num; linarith : |x| < 1.5),
          cond01_true (by rw [ha]; norm_num; linarith : |x| > 0.5), if_pos (by linarith), if_neg (by linarith), if_neg (by linarith), if_neg (by linarith)]; ring
      rcases lt_or_gt_of_ne c with h3 | h3
      · have ha : |x| < 1 / 2 := abs_lt.mpr ⟨by linarith, h3⟩
        rw [cond01_true (by norm_num; linarith : |x| < 0.5), cond01_false (by norm_num; linarith : ¬ |x| > 0.5), if_pos (by linarith), if_pos (by linarith), if_neg (by linarith),
          if_neg (by linarith)]; ring
      rcases lt_or_gt_of_ne e with h4 | h4
      · have ha : |x| = x := abs_of_pos (by linarith)
        rw [cond01_false (by rw [ha]; norm_num; linarith : ¬ |x| < 0.5), cond01_true (by rw [ha]; norm_num; linarith : |x| < 1.5),
          cond01_true (by rw [ha]; norm_num; linarith : |x| > 0.5), if_pos (by linarith), if_pos (by linarith), if_pos (by linarith), if_neg (by linarith)]; ring
      · have ha : |x| = x := abs_of_pos (by linarith)
        rw [cond01_false (by rw [ha]; norm_num; linarith : ¬ |x| < 0.5), cond01_false (by rw [ha]; norm_num; linarith : ¬ |x| < 1.5),
          if_pos (by linarith), if_pos (by linarith), if_pos (by linarith), if_pos (by linarith)]; ring
  · refine ⟨cubicB1, fun t ht => ?_, cubicB1_deriv x⟩
    have h : boxSpline 3 = cubicB := by
      rw [boxSpline_three]; funext y; exact (cubic_tp y).1.symm
    rw [h]
    exact cubicB_deriv t
  · refine ⟨fun t => 1 / 6 * diff5 (tp 3) t, fun t ht => ?_, ?_⟩
    · rw [boxSpline_four]
      refine ((diff5_deriv (f := tp 4) (f' := fun y => 4 * tp 3 y) (fun y => by have := tp_deriv 2 y; norm_num at this; exact this) t).const_mul (1 / 24)).congr_deriv ?_
      unfold diff5; ring
    · refine ((diff5_deriv (f := tp 3) (f' := fun y => 3 * tp 2 y) (fun y => by have := tp_deriv 1 y; norm_num at this; exact this) x).const_mul (1 / 6)).congr_deriv ?_
      simp only [rough, Set.mem_insert_iff, Set.mem_singleton_iff, not_or] at hx
      have : cnB2 4 x = 1 / 2 * diff5 (tp 2) x := cn4_tp2 x hx.1 hx.2.1 hx.2.2.1 hx.2.2.2
      rw [this]
      unfold diff5; ring

end Gpy
