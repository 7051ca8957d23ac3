import Verif.Proofs.CubicB
import Verif.Spec.Kernels
import Mathlib.MeasureTheory.Integral.IntervalIntegral.FundThmCalculus

/-! The cubic B-spline is a covariance function, also together with its derivative. -/

set_option autoImplicit false
namespace Gpy
open Filter Topology Finset

theorem ramp_integral_aux {L U x y : ℝ} (h1 : L ≤ x) (h2 : x ≤ y) (h3 : y ≤ U) :
    ∫ t in L..U, max (x - t) 0 * max (y - t) 0 = ((x - L + (y - L)) ^ 3 - 3 * (x - L + (y - L)) * (x - y) ^ 2) / 24 + |x - y| ^ 3 / 12 := by
  have hc : Continuous (fun t : ℝ => max (x - t) 0 * max (y - t) 0) := by fun_prop
  rw [← intervalIntegral.integral_add_adjacent_intervals (hc.intervalIntegrable L x) (hc.intervalIntegrable x U)]
  have e1 : ∫ t in L..x, max (x - t) 0 * max (y - t) 0 = ∫ t in L..x, (x - t) * (y - t) := by
    refine intervalIntegral.integral_congr (fun t ht => ?_)
    rw [Set.uIcc_of_le h1] at ht
    show max (x - t) 0 * max (y - t) 0 = (x - t) * (y - t)
    rw [max_eq_left (by linarith [ht.2]), max_eq_left (by linarith [ht.2])]
  have e2 : ∫ t in x..U, max (x - t) 0 * max (y - t) 0 = 0 := by
    have : ∫ t in x..U, max (x - t) 0 * max (y - t) 0 = ∫ _t in x..U, (0 : ℝ) := by
      refine intervalIntegral.integral_congr (fun t ht => ?_)
      rw [Set.uIcc_of_le (by linarith)] at ht
      show max (x - t) 0 * max (y - t) 0 = 0
      rw [max_eq_right (by linarith [ht.1]), zero_mul]
    rw [this]; simp
  have e3 : ∫ t in L..x, (x - t) * (y - t) = (x * y * x - (x + y) * x ^ 2 / 2 + x ^ 3 / 3) - (x * y * L - (x + y) * L ^ 2 / 2 + L ^ 3 / 3) := by
    refine intervalIntegral.integral_eq_sub_of_hasDerivAt (f := fun t => x * y * t - (x + y) * t ^ 2 / 2 + t ^ 3 / 3) (fun t _ => ?_) (Continuous.intervalIntegrable (by fun_prop) _ _)
    have a1 := (hasDerivAt_id t).const_mul (x * y)
    have a2 := ((hasDerivAt_pow 2 t).const_mul (x + y)).div_const 2
    have a3 := (hasDerivAt_pow 3 t).div_const 3
    refine ((a1.sub a2).add a3).congr_deriv ?_
    push_cast
    simp
    ring
  rw [e1, e2, e3, abs_of_nonpos (by linarith : x - y ≤ 0)]
  ring

theorem ramp_integral {L U x y : ℝ} (hx : L ≤ x) (hy : L ≤ y) (hx' : x ≤ U) (hy' : y ≤ U) :
    ∫ t in L..U, max (x - t) 0 * max (y - t) 0 = ((x - L + (y - L)) ^ 3 - 3 * (x - L + (y - L)) * (x - y) ^ 2) / 24 + |x - y| ^ 3 / 12 := by
  rcases le_total x y with h | h
  · exact ramp_integral_aux hx h hy'
  · rw [show (fun t => max (x - t) 0 * max (y - t) 0) = fun t => max (y - t) 0 * max (x - t) 0 from funext (fun t => mul_comm _ _), ramp_integral_aux hy h hx', abs_sub_comm x y]
    ring

/-- the covariance of the ramps -/
noncomputable def rampCov (L x y : ℝ) : ℝ := ((x - L + (y - L)) ^ 3 - 3 * (x - L + (y - L)) * (x - y) ^ 2) / 24 + |x - y| ^ 3 / 12

theorem rampCov_psd {ι : Type} [Fintype ι] (L U : ℝ) (hLU : L ≤ U) (x : ι → ℝ) (hx : ∀ i, L ≤ x i ∧ x i ≤ U) (w : ι → ℝ) : 0 ≤ ∑ i, ∑ j, w i * w j * rampCov L (x i) (x j) := by
  have h : ∑ i, ∑ j, w i * w j * rampCov L (x i) (x j) = ∫ t in L..U, (∑ i, w i * max (x i - t) 0) ^ 2 := by
    have e : ∀ t, (∑ i, w i * max (x i - t) 0) ^ 2 = ∑ i, ∑ j, w i * w j * (max (x i - t) 0 * max (x j - t) 0) := by
      intro t
      rw [sq, Finset.sum_mul_sum]
      exact Finset.sum_congr rfl (fun i _ => Finset.sum_congr rfl (fun j _ => by ring))
    simp only [e]
    rw [intervalIntegral.integral_finsetSum (fun i _ => Continuous.intervalIntegrable (by fun_prop) _ _)]
    refine Finset.sum_congr rfl (fun i _ => ?_)
    rw [intervalIntegral.integral_finsetSum (fun i _ => Continuous.intervalIntegrable (by fun_prop) _ _)]
    refine Finset.sum_congr rfl (fun j _ => ?_)
    rw [intervalIntegral.integral_const_mul, ramp_integral (hx i).1 (hx j).1 (hx i).2 (hx j).2]
    rfl
  rw [h]
  exact intervalIntegral.integral_nonneg hLU (fun t _ => sq_nonneg _)

theorem cubicB_abs (r : ℝ) : cubicB r = 1 / 12 * diff4 (fun x => |x| ^ 3) r := by
  have h : ∀ x : ℝ, |x| ^ 3 = 2 * tp 3 x - x ^ 3 := by
    intro x
    rcases le_total 0 x with h | h
    · rw [abs_of_nonneg h, tp_pos h]; ring
    · rw [abs_of_nonpos h, tp_neg h]; ring
  rw [(cubic_tp r).1]
  unfold diff4
  simp only [h]
  ring

/-- the coefficients `1, -2, 1` of the second difference -/
def c3 : Fin 3 → ℝ := ![1, -2, 1]
/-- the shifts `1, 0, -1` -/
def s3 : Fin 3 → ℝ := ![1, 0, -1]

theorem cubicB_ramps (L x y : ℝ) : ∑ p : Fin 3, ∑ q : Fin 3, c3 p * c3 q * rampCov L (x + s3 p) (y + s3 q) = cubicB (x - y) := by
  rw [cubicB_abs]
  simp only [Fin.sum_univ_three, c3, s3, rampCov, diff4]
  simp only [Matrix.cons_val_zero, Matrix.cons_val_one, Matrix.cons_val_two, Matrix.head_cons, Matrix.tail_cons]
  rw [show x + 1 - (y + 1) = x - y by ring, show x + 1 - (y + 0) = x - y + 1 by ring, show x + 1 - (y + -1) = x - y + 2 by ring,
    show x + 0 - (y + 1) = x - y - 1 by ring, show x + 0 - (y + 0) = x - y by ring, show x + 0 - (y + -1) = x - y + 1 by ring,
    show x + -1 - (y + 1) = x - y - 2 by ring, show x + -1 - (y + 0) = x - y - 1 by ring, show x + -1 - (y + -1) = x - y by ring]
  ring

theorem cubicB_psd {ι : Type} [Fintype ι] (x : ι → ℝ) (w : ι → ℝ) : 0 ≤ ∑ i, ∑ j, w i * w j * cubicB (x i - x j) := by
  set M := ∑ i, |x i| with hM
  have hb : ∀ i, |x i| ≤ M := fun i => Finset.single_le_sum (f := fun i => |x i|) (fun i _ => abs_nonneg _) (Finset.mem_univ i)
  have hM0 : 0 ≤ M := Finset.sum_nonneg (fun i _ => abs_nonneg _)
  have hs : ∀ p : Fin 3, -1 ≤ s3 p ∧ s3 p ≤ 1 := by
    intro p
    match p with
    | 0 => simp [s3]
    | 1 => simp [s3]
    | 2 => simp [s3]
  have key := rampCov_psd (ι := ι × Fin 3) (-M - 1) (M + 1) (by linarith) (fun p => x p.1 + s3 p.2) (fun p => by
    have h1 := abs_le.1 (hb p.1)
    have h2 := hs p.2
    constructor <;> linarith [h1.1, h1.2, h2.1, h2.2]) (fun p => w p.1 * c3 p.2)
  refine key.trans_eq ?_
  rw [Fintype.sum_prod_type]
  refine Finset.sum_congr rfl (fun i _ => ?_)
  simp only [Fintype.sum_prod_type]
  rw [Finset.sum_comm]
  refine Finset.sum_congr rfl (fun j _ => ?_)
  rw [← cubicB_ramps (-M - 1), Finset.mul_sum]
  refine Finset.sum_congr rfl (fun p _ => ?_)
  rw [Finset.mul_sum]
  exact Finset.sum_congr rfl (fun q _ => by ring)

/-- the kernel of values (`false`) and derivatives (`true`) -/
noncomputable def cubicFlag (a b : Bool) (r : ℝ) : ℝ := match a, b with
  | false, false => cubicB r
  | true, false => cubicB1 r
  | false, true => -cubicB1 r
  | true, true => -cubicB2 r

theorem second_diff {f f1 : ℝ → ℝ} {f2 r : ℝ} (h1 : ∀ x, HasDerivAt f (f1 x) x) (h2 : HasDerivAt f1 f2 r) :
    Tendsto (fun h : ℝ => (f (r + h) + f (r - h) - 2 * f r) / h ^ 2) (𝓝[≠] 0) (𝓝 f2) := by
  refine HasDerivAt.lhopital_zero_nhdsNE (f := fun h : ℝ => f (r + h) + f (r - h) - 2 * f r) (f' := fun h => f1 (r + h) - f1 (r - h)) (g := fun h => h ^ 2) (g' := fun h => 2 * h) ?_ ?_ ?_ ?_ ?_ ?_
  · refine Eventually.of_forall (fun h => ?_)
    have a1 : HasDerivAt (fun h => f (r + h)) (f1 (r + h)) h := (h1 (r + h)).comp_const_add r h
    have a2 : HasDerivAt (fun h => f (r - h)) (-f1 (r - h)) h := (h1 (r - h)).comp_const_sub r h
    exact ((a1.add a2).sub_const _).congr_deriv (by ring)
  · refine Eventually.of_forall (fun h => ?_)
    exact (hasDerivAt_pow 2 h).congr_deriv (by simp)
  · filter_upwards [self_mem_nhdsWithin] with h hh
    exact mul_ne_zero two_ne_zero hh
  · have hc : Continuous f := continuous_iff_continuousAt.2 (fun x => (h1 x).continuousAt)
    have : Tendsto (fun h : ℝ => f (r + h) + f (r - h) - 2 * f r) (𝓝 0) (𝓝 (f (r + 0) + f (r - 0) - 2 * f r)) := Continuous.tendsto (by fun_prop) 0
    have e : f (r + 0) + f (r - 0) - 2 * f r = 0 := by rw [add_zero, sub_zero]; ring
    rw [e] at this
    exact this.mono_left nhdsWithin_le_nhds
  · have : Tendsto (fun h : ℝ => h ^ 2) (𝓝 0) (𝓝 (0 ^ 2)) := (continuous_pow 2).tendsto 0
    rw [zero_pow two_ne_zero] at this
    exact this.mono_left nhdsWithin_le_nhds
  · have a1 : HasDerivAt (fun h => f1 (r + h)) f2 0 := by
      have : HasDerivAt f1 f2 (r + 0) := by rwa [add_zero]
      exact this.comp_const_add r 0
    have a2 : HasDerivAt (fun h => f1 (r - h)) (-f2) 0 := by
      have : HasDerivAt f1 f2 (r - 0) := by rwa [sub_zero]
      exact this.comp_const_sub r 0
    have a3 := ((a1.sub a2).tendsto_slope).div_const 2
    have : (f2 - -f2) / 2 = f2 := by ring
    rw [this] at a3
    refine a3.congr' ?_
    filter_upwards [self_mem_nhdsWithin] with h hh
    have hh : h ≠ 0 := hh
    rw [slope_def_field]
    simp only [Pi.sub_apply, add_zero, sub_zero, sub_self]
    field_simp

/-- entry of the difference quotients -/
noncomputable def quot (h : ℝ) (a : Bool) : Bool → ℝ := fun s => match a, s with
  | false, false => 1
  | false, true => 0
  | true, false => -1 / h
  | true, true => 1 / h

theorem cubicFlag_psd {ι : Type} [Fintype ι] (x : ι → ℝ) (α : ι → Bool) (w : ι → ℝ) : 0 ≤ ∑ i, ∑ j, w i * w j * cubicFlag (α i) (α j) (x i - x j) := by
  -- the points `x i` and `x i + h`
  have hpos : ∀ h : ℝ, 0 ≤ ∑ i, ∑ j, w i * w j * (∑ s : Bool, ∑ t : Bool, quot h (α i) s * quot h (α j) t * cubicB ((x i + if s then h else 0) - (x j + if t then h else 0))) := by
    intro h
    have key := cubicB_psd (ι := ι × Bool) (fun p => x p.1 + if p.2 then h else 0) (fun p => w p.1 * quot h (α p.1) p.2)
    refine key.trans_eq ?_
    rw [Fintype.sum_prod_type]
    refine Finset.sum_congr rfl (fun i _ => ?_)
    simp only [Fintype.sum_prod_type]
    rw [Finset.sum_comm]
    refine Finset.sum_congr rfl (fun j _ => ?_)
    rw [Finset.mul_sum]
    refine Finset.sum_congr rfl (fun p _ => ?_)
    rw [Finset.mul_sum]
    exact Finset.sum_congr rfl (fun q _ => by ring)
  have hlim : Tendsto (fun h : ℝ => ∑ i, ∑ j, w i * w j * (∑ s : Bool, ∑ t : Bool, quot h (α i) s * quot h (α j) t * cubicB ((x i + if s then h else 0) - (x j + if t then h else 0))))
      (𝓝[≠] 0) (𝓝 (∑ i, ∑ j, w i * w j * cubicFlag (α i) (α j) (x i - x j))) := by
    refine tendsto_finsetSum _ (fun i _ => tendsto_finsetSum _ (fun j _ => Tendsto.const_mul _ ?_))
    generalize α i = a, α j = b
    simp only [Fintype.univ_bool, Finset.mem_singleton, Bool.true_eq_false, not_false_eq_true, Finset.sum_insert, Finset.sum_singleton, if_true, Bool.false_eq_true, if_false, add_zero]
    set r := x i - x j with hr
    have q1 : Tendsto (fun h : ℝ => (cubicB (r + h) - cubicB r) / h) (𝓝[≠] 0) (𝓝 (cubicB1 r)) := by
      have a1 : HasDerivAt (fun h => cubicB (r + h)) (cubicB1 r) 0 := by
        have : HasDerivAt cubicB (cubicB1 r) (r + 0) := by rw [add_zero]; exact cubicB_deriv r
        exact this.comp_const_add r 0
      refine a1.tendsto_slope.congr' ?_
      filter_upwards with h
      rw [slope_def_field]; simp
    have q2 : Tendsto (fun h : ℝ => (cubicB (r - h) - cubicB r) / h) (𝓝[≠] 0) (𝓝 (-cubicB1 r)) := by
      have a1 : HasDerivAt (fun h => cubicB (r - h)) (-cubicB1 r) 0 := by
        have : HasDerivAt cubicB (cubicB1 r) (r - 0) := by rw [sub_zero]; exact cubicB_deriv r
        exact this.comp_const_sub r 0
      refine a1.tendsto_slope.congr' ?_
      filter_upwards with h
      rw [slope_def_field]; simp
    have q3 := (second_diff cubicB_deriv (cubicB1_deriv r)).neg
    match a, b with
    | false, false => simp [quot, cubicFlag, hr]
    | true, false =>
      simp only [quot, cubicFlag]
      refine q1.congr (fun h => ?_)
      rw [show x i + h - x j = r + h by rw [hr]; ring, show x i + h - (x j + h) = r by rw [hr]; ring]
      ring
    | false, true =>
      simp only [quot, cubicFlag]
      refine q2.congr (fun h => ?_)
      rw [show x i - (x j + h) = r - h by rw [hr]; ring]
      ring
    | true, true =>
      simp only [quot, cubicFlag]
      refine q3.congr' ?_
      filter_upwards [self_mem_nhdsWithin] with h hh
      have hh : h ≠ 0 := hh
      rw [show x i - (x j + h) = r - h by rw [hr]; ring, show x i + h - x j = r + h by rw [hr]; ring, show x i + h - (x j + h) = r by rw [hr]; ring]
      field_simp
      ring
  exact ge_of_tendsto' hlim hpos

end Gpy
