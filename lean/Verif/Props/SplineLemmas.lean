import Verif.Spec.Spline
import Mathlib.Algebra.Polynomial.Eval.Degree
import Mathlib.Tactic.Linarith
import Mathlib.Tactic.LinearCombination
import Mathlib.Tactic.FieldSimp
import Mathlib.Tactic.Ring
import Mathlib.Data.Real.Archimedean
import Mathlib.Algebra.Order.Floor.Semiring
import Mathlib.Algebra.Order.Archimedean.Basic
import Mathlib.Algebra.Polynomial.Roots
import Mathlib.Tactic.ComputeDegree
import Mathlib.Algebra.CharZero.Infinite

/-! Moment equations, existence and uniqueness of the not-a-knot spline. -/

set_option autoImplicit false
namespace Gpy

open Polynomial

/-- a polynomial of degree at most three written out -/
theorem cubic_form (p : ℝ[X]) (h : p.natDegree ≤ 3) : ∃ a b c d : ℝ, p = C a + C b * X + C c * X ^ 2 + C d * X ^ 3 := by
  refine ⟨p.coeff 0, p.coeff 1, p.coeff 2, p.coeff 3, ?_⟩
  conv_lhs => rw [p.as_sum_range_C_mul_X_pow' (n := 4) (by omega)]
  simp [Finset.sum_range_succ]

/-- Taylor expansion of a cubic: value, first and second derivative after a step, with the third derivative `e` -/
theorem cubic_taylor (p : ℝ[X]) (h : p.natDegree ≤ 3) : ∃ e : ℝ, ∀ x t : ℝ,
    p.eval (x + t) = p.eval x + t * (derivative p).eval x + t ^ 2 / 2 * (derivative (derivative p)).eval x + t ^ 3 / 6 * e ∧
    (derivative p).eval (x + t) = (derivative p).eval x + t * (derivative (derivative p)).eval x + t ^ 2 / 2 * e ∧
    (derivative (derivative p)).eval (x + t) = (derivative (derivative p)).eval x + t * e := by
  obtain ⟨a, b, c, d, rfl⟩ := cubic_form p h
  refine ⟨6 * d, fun x t => ?_⟩
  simp only [derivative_add, derivative_mul, derivative_C, derivative_X, derivative_X_pow, eval_add, eval_mul, eval_C, eval_X, eval_pow,
    zero_mul, zero_add, mul_one, mul_zero, Nat.cast_ofNat, derivative_one, eval_one, eval_zero, eval_ofNat, map_ofNat, derivative_ofNat]
  norm_num
  refine ⟨by ring, by ring, by ring⟩

/-- the moments: `m i` is the second derivative at node `i`, times the square of the spacing -/
def Moments (K : ℕ) (y m : ℕ → ℝ) : Prop :=
  (∀ i, i + 2 < K → m i + 4 * m (i + 1) + m (i + 2) = 6 * (y i - 2 * y (i + 1) + y (i + 2))) ∧
    m 0 + m 2 = 2 * m 1 ∧ m (K - 3) + m (K - 1) = 2 * m (K - 2)

/-- the interpolant between node `i` and node `i+1`, `t` from 0 to 1 -/
noncomputable def momentPiece (y m : ℕ → ℝ) (i : ℕ) (t : ℝ) : ℝ :=
  (1 - t) * y i + t * y (i + 1) + ((1 - t) ^ 3 - (1 - t)) * m i / 6 + (t ^ 3 - t) * m (i + 1) / 6

theorem splineNode_succ (K i : ℕ) : splineNode K (i + 1) = splineNode K i + 1 / ((K : ℝ) - 1) := by
  unfold splineNode; push_cast; ring

/-- the moment equations follow from the definition of the spline -/
theorem moments_of_spline {K : ℕ} {y : ℕ → ℝ} {s : ℝ → ℝ} (hK : 4 ≤ K) (hs : NotAKnot K y s) :
    ∃ m, Moments K y m ∧ ∀ i, i + 1 < K → ∀ t, 0 ≤ t → t ≤ 1 → s (splineNode K i + t / ((K : ℝ) - 1)) = momentPiece y m i t := by
  obtain ⟨p, hd, hv, hy, h1, h2, hf, hl⟩ := hs
  have hK' : (4 : ℝ) ≤ K := by exact_mod_cast hK
  set h : ℝ := 1 / ((K : ℝ) - 1) with hh
  have hpos : 0 < h := by rw [hh]; apply div_pos one_pos; linarith
  have hnode : ∀ i, splineNode K (i + 1) = splineNode K i + h := fun i => splineNode_succ K i
  choose! e he using fun i (hi : i + 1 < K) => cubic_taylor (p i) (hd i hi)
  have hle : ∀ i, splineNode K i ≤ splineNode K (i + 1) := fun i => by rw [hnode]; linarith
  have hval : ∀ i, i + 1 < K → (p i).eval (splineNode K i) = y i := fun i hi => by
    rw [← hv i hi _ le_rfl (hle i), hy i (by omega)]
  have hval' : ∀ i, i + 1 < K → (p i).eval (splineNode K i + h) = y (i + 1) := fun i hi => by
    rw [← hnode, ← hv i hi _ (hle i) le_rfl, hy (i + 1) hi]
  set m : ℕ → ℝ := fun i => if i + 1 < K then h ^ 2 * (derivative (derivative (p i))).eval (splineNode K i)
    else h ^ 2 * (derivative (derivative (p (K - 2)))).eval (splineNode K (K - 1)) with hm
  have hmi : ∀ i, i + 1 < K → m i = h ^ 2 * (derivative (derivative (p i))).eval (splineNode K i) := fun i hi => by
    simp only [hm, hi, if_true]
  -- second derivative at the right end
  have hmr : ∀ i, i + 1 < K → m (i + 1) = h ^ 2 * (derivative (derivative (p i))).eval (splineNode K i + h) := fun i hi => by
    rcases Nat.lt_or_ge (i + 2) K with h3 | h3
    · rw [hmi (i + 1) h3, ← h2 i h3, hnode]
    · have : i = K - 2 := by omega
      subst this
      have h4 : K - 2 + 1 = K - 1 := by omega
      have h5 : ¬ (K - 2 + 1 + 1 < K) := by omega
      simp only [hm, h5, if_false]
      rw [← hnode, h4]
  have hme : ∀ i, i + 1 < K → m (i + 1) = m i + h ^ 3 * e i := fun i hi => by
    rw [hmr i hi, hmi i hi, (he i hi _ h).2.2]; ring
  -- first derivative at the left end
  have hfd : ∀ i, i + 1 < K → h * (derivative (p i)).eval (splineNode K i) = y (i + 1) - y i - m i / 3 - m (i + 1) / 6 := fun i hi => by
    have := (he i hi (splineNode K i) h).1
    rw [hval i hi, hval' i hi] at this
    rw [hme i hi, hmi i hi]; linear_combination -this
  refine ⟨m, ⟨fun i hi => ?_, ?_, ?_⟩, fun i hi t ht0 ht1 => ?_⟩
  · have a1 := hfd i (by omega)
    have a2 := hfd (i + 1) (by omega)
    have a3 := h1 i hi
    rw [hnode] at a3
    rw [(he i (by omega) (splineNode K i) h).2.1] at a3
    rw [← hnode] at a3
    have a4 := hme i (by omega)
    have a5 := hmi i (by omega)
    have : h * (derivative (p i)).eval (splineNode K i) + m i + (m (i + 1) - m i) / 2 = h * (derivative (p (i + 1))).eval (splineNode K (i + 1)) := by
      rw [← a3, a4, a5]; ring
    rw [a1, a2] at this
    linear_combination 6 * this
  · have e01 : e 0 = e 1 := by
      have q0 := (he 0 (by omega) 0 1).2.2
      have q1 := (he 1 (by omega) 0 1).2.2
      rw [hf] at q0
      linarith
    have a0 := hme 0 (by omega); have a1 := hme 1 (by omega)
    simp only [zero_add] at a0
    norm_num at a1
    rw [e01] at a0; linarith
  · have e01 : e (K - 3) = e (K - 2) := by
      have q0 := (he (K - 3) (by omega) 0 1).2.2
      have q1 := (he (K - 2) (by omega) 0 1).2.2
      rw [hl] at q0
      linarith
    have a0 := hme (K - 3) (by omega); have a1 := hme (K - 2) (by omega)
    have k1 : K - 3 + 1 = K - 2 := by omega
    have k2 : K - 2 + 1 = K - 1 := by omega
    rw [k1] at a0; rw [k2] at a1
    rw [e01] at a0; linarith
  · have hth : t / ((K : ℝ) - 1) = t * h := by rw [hh]; ring
    rw [hth]
    have hin1 : splineNode K i ≤ splineNode K i + t * h := by nlinarith
    have hin2 : splineNode K i + t * h ≤ splineNode K (i + 1) := by rw [hnode]; nlinarith
    rw [hv i hi _ hin1 hin2, (he i hi _ (t * h)).1, hval i hi]
    have a1 := hfd i hi
    have a2 := hme i hi
    have a3 := hmi i hi
    unfold momentPiece
    linear_combination t * a1 - t ^ 2 / 2 * a3 - t ^ 3 / 6 * a2

/-- the homogeneous system has only the zero solution -/
theorem moments_zero {K : ℕ} {m : ℕ → ℝ} (hK : 4 ≤ K) (hm : Moments K (fun _ => 0) m) : ∀ i, i < K → m i = 0 := by
  obtain ⟨h1, h2, h3⟩ := hm
  have e1 : m 1 = 0 := by have := h1 0 (by omega); simp only [zero_add] at this; linarith
  have e2 : m (K - 2) = 0 := by
    have := h1 (K - 3) (by omega)
    rw [show K - 3 + 1 = K - 2 by omega, show K - 3 + 2 = K - 1 by omega] at this
    linarith
  obtain ⟨j, hj, hmax⟩ := Finset.exists_max_image (Finset.Icc 1 (K - 2)) (fun i => |m i|) ⟨1, by rw [Finset.mem_Icc]; omega⟩
  rw [Finset.mem_Icc] at hj
  have hj0 : |m j| = 0 := by
    by_cases c1 : j = 1
    · rw [c1, e1, abs_zero]
    by_cases c2 : j = K - 2
    · rw [c2, e2, abs_zero]
    have q := h1 (j - 1) (by omega)
    rw [show j - 1 + 1 = j by omega, show j - 1 + 2 = j + 1 by omega] at q
    have b1 := hmax (j - 1) (by rw [Finset.mem_Icc]; omega)
    have b2 := hmax (j + 1) (by rw [Finset.mem_Icc]; omega)
    have q' : 4 * m j = -(m (j - 1) + m (j + 1)) := by linarith
    have q2 : 4 * |m j| = |m (j - 1) + m (j + 1)| := by
      rw [← abs_neg (m (j - 1) + m (j + 1)), ← q', abs_mul]; norm_num
    have q3 := abs_add_le (m (j - 1)) (m (j + 1))
    have q4 := abs_nonneg (m j)
    linarith
  have hin : ∀ i, 1 ≤ i → i ≤ K - 2 → m i = 0 := fun i a b => by
    have := hmax i (by rw [Finset.mem_Icc]; omega)
    rw [hj0] at this
    exact abs_eq_zero.mp (le_antisymm this (abs_nonneg _))
  intro i hi
  rcases Nat.eq_zero_or_pos i with c | c
  · subst c; have := hin 2 (by omega) (by omega); linarith
  rcases Nat.lt_or_ge i (K - 1) with c' | c'
  · exact hin i c (by omega)
  · have : i = K - 1 := by omega
    rw [this]; have := hin (K - 3) (by omega) (by omega); linarith

theorem moments_unique {K : ℕ} {y m m' : ℕ → ℝ} (hK : 4 ≤ K) (hm : Moments K y m) (hm' : Moments K y m') : ∀ i, i < K → m i = m' i := by
  have := moments_zero (m := fun i => m i - m' i) hK ⟨fun i hi => ?_, ?_, ?_⟩
  · intro i hi; have := this i hi; linarith
  · have a := hm.1 i hi; have b := hm'.1 i hi; linarith
  · have a := hm.2.1; have b := hm'.2.1; dsimp only; linarith
  · have a := hm.2.2; have b := hm'.2.2; dsimp only; linarith

/-- the three-term recurrence of the inner moments -/
noncomputable def shoot (r : ℕ → ℝ) (a b : ℝ) : ℕ → ℝ
  | 0 => a
  | 1 => b
  | n + 2 => r (n + 1) - 4 * shoot r a b (n + 1) - shoot r a b n

theorem shoot_affine (r : ℕ → ℝ) (a b : ℝ) : ∀ n, shoot r a b n = shoot r a 0 n + b * shoot (fun _ => 0) 0 1 n
  | 0 => by simp [shoot]
  | 1 => by simp [shoot]
  | n + 2 => by
    simp only [shoot]; rw [shoot_affine r a b (n + 1), shoot_affine r a b n]; ring

theorem shoot_grow : ∀ n, |shoot (fun _ => 0) 0 1 n| < |shoot (fun _ => 0) 0 1 (n + 1)|
  | 0 => by simp [shoot]
  | n + 1 => by
    have ih := shoot_grow n
    rw [show shoot (fun _ => 0) 0 1 (n + 1 + 1) = -(4 * shoot (fun _ => 0) 0 1 (n + 1) + shoot (fun _ => 0) 0 1 n) by simp only [shoot]; ring, abs_neg]
    have h1 := abs_sub_abs_le_abs_sub (4 * shoot (fun _ => 0) 0 1 (n + 1)) (- shoot (fun _ => 0) 0 1 n)
    rw [abs_neg, sub_neg_eq_add, abs_mul] at h1
    norm_num at h1
    have h2 := abs_nonneg (shoot (fun _ => 0) 0 1 n)
    linarith

theorem moments_exist {K : ℕ} (hK : 4 ≤ K) (y : ℕ → ℝ) : ∃ m, Moments K y m := by
  set r : ℕ → ℝ := fun i => 6 * (y i - 2 * y (i + 1) + y (i + 2)) with hr
  have hu : shoot (fun _ => 0) 0 1 (K - 3) ≠ 0 := by
    have := shoot_grow (K - 4)
    rw [show K - 4 + 1 = K - 3 by omega] at this
    intro h0
    rw [h0, abs_zero] at this
    exact absurd this (not_lt.mpr (abs_nonneg _))
  set a := r 0 / 6 with ha
  set b := (r (K - 3) / 6 - shoot r a 0 (K - 3)) / shoot (fun _ => 0) 0 1 (K - 3) with hb
  have hend : shoot r a b (K - 3) = r (K - 3) / 6 := by
    rw [shoot_affine, hb]; field_simp; ring
  set w := shoot r a b with hw
  have hrec : ∀ n, w (n + 2) = r (n + 1) - 4 * w (n + 1) - w n := fun n => rfl
  refine ⟨fun i => if i = 0 then 2 * w 0 - w 1 else if i = K - 1 then 2 * w (K - 3) - w (K - 4) else w (i - 1), fun i hi => ?_, ?_, ?_⟩
  · change _ = r i
    rcases Nat.eq_zero_or_pos i with c | c
    · subst c
      have k1 : ¬ (1 = K - 1) := by omega
      have k2 : ¬ (2 = K - 1) := by omega
      simp only [if_true, zero_add, one_ne_zero, two_ne_zero, if_false, k1, k2, Nat.sub_self, show 2 - 1 = 1 from rfl]
      have : w 0 = r 0 / 6 := rfl
      linarith
    · have c0 : ¬ (i = 0) := by omega
      have c1 : ¬ (i = K - 1) := by omega
      have c2 : ¬ (i + 1 = 0) := by omega
      have c3 : ¬ (i + 1 = K - 1) := by omega
      have c4 : ¬ (i + 2 = 0) := by omega
      simp only [c0, c1, c2, c3, c4, if_false, show i + 1 - 1 = i by omega, show i + 2 - 1 = i + 1 by omega]
      rcases Nat.lt_or_ge (i + 2) (K - 1) with h5 | h5
      · have c5 : ¬ (i + 2 = K - 1) := by omega
        simp only [c5, if_false]
        have := hrec (i - 1)
        rw [show i - 1 + 2 = i + 1 by omega, show i - 1 + 1 = i by omega] at this
        linarith
      · have c5 : i + 2 = K - 1 := by omega
        have c6 : i = K - 3 := by omega
        simp only [c5, if_true]
        subst c6
        rw [show K - 3 - 1 = K - 4 by omega, hend]; ring
  · have k1 : ¬ (1 = K - 1) := by omega
    have k2 : ¬ (2 = K - 1) := by omega
    simp only [if_true, one_ne_zero, two_ne_zero, if_false, k1, k2, Nat.sub_self, show 2 - 1 = 1 from rfl]
    ring
  · have k0 : ¬ (K - 3 = 0) := by omega
    have k1 : ¬ (K - 3 = K - 1) := by omega
    have k2 : ¬ (K - 2 = 0) := by omega
    have k3 : ¬ (K - 2 = K - 1) := by omega
    have k4 : ¬ (K - 1 = 0) := by omega
    simp only [k0, k1, k2, k3, k4, if_false, if_true, show K - 3 - 1 = K - 4 by omega, show K - 2 - 1 = K - 3 by omega]
    ring

/-- every point of `[0,1]` lies in one of the intervals -/
theorem spline_interval {K : ℕ} (hK : 2 ≤ K) {x : ℝ} (h0 : 0 ≤ x) (h1 : x ≤ 1) :
    ∃ i t, i + 1 < K ∧ 0 ≤ t ∧ t ≤ 1 ∧ x = splineNode K i + t / ((K : ℝ) - 1) := by
  have hK' : (2 : ℝ) ≤ K := by exact_mod_cast hK
  have hp : (0 : ℝ) < (K : ℝ) - 1 := by linarith
  have hx : 0 ≤ x * ((K : ℝ) - 1) := mul_nonneg h0 hp.le
  have hcast : ((K - 2 : ℕ) : ℝ) = (K : ℝ) - 2 := by push_cast [Nat.cast_sub hK]; ring
  rcases Nat.lt_or_ge (⌊x * ((K : ℝ) - 1)⌋₊) (K - 1) with c | c
  · refine ⟨⌊x * ((K : ℝ) - 1)⌋₊, x * ((K : ℝ) - 1) - ⌊x * ((K : ℝ) - 1)⌋₊, by omega, ?_, ?_, ?_⟩
    · linarith [Nat.floor_le hx]
    · linarith [Nat.lt_floor_add_one (x * ((K : ℝ) - 1))]
    · unfold splineNode; field_simp; ring
  · have hx1 : x = 1 := by
      apply le_antisymm h1
      have := Nat.floor_le hx
      have c' : (K : ℝ) - 1 ≤ ⌊x * ((K : ℝ) - 1)⌋₊ := by
        have : (K : ℝ) ≤ ((⌊x * ((K : ℝ) - 1)⌋₊ + 1 : ℕ) : ℝ) := Nat.cast_le.mpr (by omega)
        push_cast at this; linarith
      by_contra hlt
      push Not at hlt
      nlinarith
    refine ⟨K - 2, 1, by omega, zero_le_one, le_rfl, ?_⟩
    unfold splineNode; rw [hcast, hx1]; field_simp; ring

/-- the not-a-knot spline is unique on `[0,1]` -/
theorem spline_unique {K : ℕ} {y : ℕ → ℝ} {s s' : ℝ → ℝ} (hK : 4 ≤ K) (hs : NotAKnot K y s) (hs' : NotAKnot K y s') :
    ∀ x, 0 ≤ x → x ≤ 1 → s x = s' x := by
  obtain ⟨m, hm, hv⟩ := moments_of_spline hK hs
  obtain ⟨m', hm', hv'⟩ := moments_of_spline hK hs'
  intro x h0 h1
  obtain ⟨i, t, hi, ht0, ht1, rfl⟩ := spline_interval (K := K) (by omega) h0 h1
  have hu := moments_unique hK hm hm'
  rw [hv i hi t ht0 ht1, hv' i hi t ht0 ht1, momentPiece, momentPiece, hu i (by omega), hu (i + 1) hi]

/-- one piece as a polynomial of the position -/
noncomputable def piecePoly (K : ℕ) (y m : ℕ → ℝ) (i : ℕ) : ℝ[X] :=
  C (y i) + C (y (i + 1) - y i - m i / 3 - m (i + 1) / 6) * (C ((K : ℝ) - 1) * X - C (i : ℝ)) + C (m i / 2) * (C ((K : ℝ) - 1) * X - C (i : ℝ)) ^ 2 +
    C ((m (i + 1) - m i) / 6) * (C ((K : ℝ) - 1) * X - C (i : ℝ)) ^ 3

theorem piecePoly_degree (K : ℕ) (y m : ℕ → ℝ) (i : ℕ) : (piecePoly K y m i).natDegree ≤ 3 := by
  unfold piecePoly; compute_degree

theorem piecePoly_eval (K : ℕ) (y m : ℕ → ℝ) (i : ℕ) (x : ℝ) : (piecePoly K y m i).eval x = momentPiece y m i (((K : ℝ) - 1) * x - i) := by
  simp only [piecePoly, momentPiece, eval_add, eval_mul, eval_sub, eval_C, eval_X, eval_pow]; ring

theorem piecePoly_eval' (K : ℕ) (y m : ℕ → ℝ) (i : ℕ) (x : ℝ) : (derivative (piecePoly K y m i)).eval x =
    ((K : ℝ) - 1) * (y (i + 1) - y i - m i / 3 - m (i + 1) / 6 + m i * (((K : ℝ) - 1) * x - i) + (m (i + 1) - m i) / 2 * (((K : ℝ) - 1) * x - i) ^ 2) := by
  simp only [piecePoly, derivative_add, derivative_sub, derivative_mul, derivative_C, derivative_X, derivative_pow, eval_add, eval_sub, eval_mul, eval_C, eval_X, eval_pow,
    zero_mul, zero_add, mul_one, mul_zero, Nat.cast_ofNat, sub_zero, eval_zero, eval_ofNat, map_ofNat]
  norm_num
  ring

theorem piecePoly_eval'' (K : ℕ) (y m : ℕ → ℝ) (i : ℕ) (x : ℝ) : (derivative (derivative (piecePoly K y m i))).eval x =
    ((K : ℝ) - 1) ^ 2 * (m i + (m (i + 1) - m i) * (((K : ℝ) - 1) * x - i)) := by
  simp only [piecePoly, derivative_add, derivative_sub, derivative_mul, derivative_C, derivative_X, derivative_pow, eval_add, eval_sub, eval_mul, eval_C, eval_X, eval_pow,
    zero_mul, zero_add, mul_one, mul_zero, Nat.cast_ofNat, sub_zero, eval_zero, eval_ofNat, map_ofNat, derivative_ofNat]
  norm_num
  ring

/-- the moments determine a spline -/
theorem spline_exists {K : ℕ} (hK : 4 ≤ K) (y : ℕ → ℝ) : ∃ s, NotAKnot K y s := by
  obtain ⟨m, hm⟩ := moments_exist hK y
  have hK' : (4 : ℝ) ≤ K := by exact_mod_cast hK
  have hp : (0 : ℝ) < (K : ℝ) - 1 := by linarith
  have hx : ∀ i : ℕ, ((K : ℝ) - 1) * splineNode K i = i := fun i => by unfold splineNode; field_simp
  -- at a node the two pieces agree
  have hnode : ∀ i, (piecePoly K y m i).eval (splineNode K (i + 1)) = (piecePoly K y m (i + 1)).eval (splineNode K (i + 1)) := fun i => by
    rw [piecePoly_eval, piecePoly_eval, hx]; unfold momentPiece; push_cast; ring
  refine ⟨fun x => (piecePoly K y m (min ⌊x * ((K : ℝ) - 1)⌋₊ (K - 2))).eval x, piecePoly K y m, fun i _ => piecePoly_degree K y m i, fun i hi x h0 h1 => ?_,
    fun i hi => ?_, fun i hi => ?_, fun i hi => ?_, ?_, ?_⟩
  · rcases lt_or_eq_of_le h1 with c | c
    · have a1 : (i : ℝ) ≤ x * ((K : ℝ) - 1) := by
        have := mul_le_mul_of_nonneg_left h0 hp.le; rw [hx] at this; linarith
      have a2 : x * ((K : ℝ) - 1) < (i : ℝ) + 1 := by
        have := mul_lt_mul_of_pos_left c hp; rw [hx] at this; push_cast at this; linarith
      have : ⌊x * ((K : ℝ) - 1)⌋₊ = i := by
        rw [Nat.floor_eq_iff (le_trans (Nat.cast_nonneg i) a1)]; exact ⟨a1, a2⟩
      dsimp only
      rw [this, Nat.min_eq_left (by omega)]
    · subst c
      have : splineNode K (i + 1) * ((K : ℝ) - 1) = ((i + 1 : ℕ) : ℝ) := by rw [mul_comm, hx]
      dsimp only
      rw [this, Nat.floor_natCast]
      rcases Nat.lt_or_ge (i + 2) K with c | c
      · rw [Nat.min_eq_left (by omega), hnode]
      · rw [Nat.min_eq_right (by omega), show K - 2 = i by omega]
  · have : splineNode K i * ((K : ℝ) - 1) = (i : ℝ) := by rw [mul_comm, hx]
    dsimp only
    rw [this, Nat.floor_natCast]
    rcases Nat.lt_or_ge (i + 1) K with c | c
    · rw [Nat.min_eq_left (by omega), piecePoly_eval, hx]; unfold momentPiece; ring
    · rw [Nat.min_eq_right (by omega)]
      have : i = K - 2 + 1 := by omega
      rw [this, piecePoly_eval, hx]; unfold momentPiece; push_cast; ring
  · rw [piecePoly_eval', piecePoly_eval', hx]
    have := hm.1 i hi
    push_cast
    linear_combination ((K : ℝ) - 1) / 6 * this
  · rw [piecePoly_eval'', piecePoly_eval'', hx]; push_cast; ring
  · apply Polynomial.funext; intro x
    rw [piecePoly_eval, piecePoly_eval]
    have a := hm.1 0 (by omega); have b := hm.2.1
    simp only [zero_add] at a
    unfold momentPiece
    push_cast
    norm_num at a ⊢
    linear_combination (((K : ℝ) - 1) * x - 1) / 6 * a - (((K : ℝ) - 1) * x - 1) ^ 3 / 6 * b
  · apply Polynomial.funext; intro x
    rw [piecePoly_eval, piecePoly_eval]
    have a := hm.1 (K - 3) (by omega); have b := hm.2.2
    rw [show K - 3 + 1 = K - 2 by omega, show K - 3 + 2 = K - 1 by omega] at a
    have c1 : ((K - 3 : ℕ) : ℝ) = (K : ℝ) - 3 := by push_cast [Nat.cast_sub (show 3 ≤ K by omega)]; ring
    have c2 : ((K - 2 : ℕ) : ℝ) = (K : ℝ) - 2 := by push_cast [Nat.cast_sub (show 2 ≤ K by omega)]; ring
    unfold momentPiece
    rw [show K - 3 + 1 = K - 2 by omega, show K - 2 + 1 = K - 1 by omega, c1, c2]
    linear_combination (((K : ℝ) - 1) * x - ((K : ℝ) - 2)) / 6 * a - (((K : ℝ) - 1) * x - ((K : ℝ) - 2)) ^ 3 / 6 * b

end Gpy
