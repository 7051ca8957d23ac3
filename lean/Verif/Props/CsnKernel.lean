import Verif.Proofs.CubicPsd
import Mathlib.Analysis.Matrix.Order

/-! # C82: `compactly_supported_normal_kernel` -/

set_option autoImplicit false
namespace Gpy
open Finset

theorem csnFactor_eq {d : ℕ} (a b : Option (Fin d)) (k : Fin d) (r : ℝ) : csnFactor a b k r = cubicFlag (decide (a = some k)) (decide (b = some k)) r := by
  unfold csnFactor
  by_cases h1 : a = some k <;> by_cases h2 : b = some k <;> simp [h1, h2, cubicFlag]

/-- the power of `1 / length` that belongs to a derivative -/
noncomputable def lenW {d : ℕ} (l : ℝ) : Option (Fin d) → ℝ
  | none => 1
  | some _ => 1 / l

theorem csnKernel_eq {d : ℕ} (l s : ℝ) (a b : Option (Fin d)) (x y : Pt d) :
    csnKernel l s a b x y = s / l ^ d * (lenW l a * lenW l b) * ∏ k, cubicFlag (decide (a = some k)) (decide (b = some k)) (x k / l - y k / l) := by
  have h : ∀ k, csnFactor a b k ((x k - y k) / l) = cubicFlag (decide (a = some k)) (decide (b = some k)) (x k / l - y k / l) := fun k => by rw [csnFactor_eq, sub_div]
  unfold csnKernel
  simp only [h]
  cases a with
  | none => cases b with
    | none => simp only [lenW]; ring
    | some _ => simp only [lenW]; ring
  | some _ => cases b with
    | none => simp only [lenW]; ring
    | some _ => simp only [lenW]; ring

theorem cubicFlag_symm (a b : Bool) (r : ℝ) : cubicFlag a b r = cubicFlag b a (-r) := by
  match a, b with
  | false, false => simp [cubicFlag, cubicB_even]
  | true, false => simp [cubicFlag, cubicB1_odd]
  | false, true => simp [cubicFlag, cubicB1_odd]
  | true, true => simp [cubicFlag, cubicB2_even]

theorem csnKernel_symm {d : ℕ} (l s : ℝ) (a b : Option (Fin d)) (x y : Pt d) : csnKernel l s a b x y = csnKernel l s b a y x := by
  rw [csnKernel_eq, csnKernel_eq, mul_comm (lenW l a)]
  congr 1
  refine Finset.prod_congr rfl (fun k _ => ?_)
  rw [cubicFlag_symm]
  congr 1
  ring

open Matrix in
theorem prod_posSemidef {n : ℕ} {κ : Type} [DecidableEq κ] (S : Finset κ) (A : κ → Matrix (Fin n) (Fin n) ℝ) (hA : ∀ k ∈ S, (A k).PosSemidef) :
    (Matrix.of (fun i j => ∏ k ∈ S, A k i j)).PosSemidef := by
  induction S using Finset.induction_on with
  | empty =>
    simp only [Finset.prod_empty]
    refine Matrix.PosSemidef.of_dotProduct_mulVec_nonneg (by ext i j; simp) (fun x => ?_)
    simp only [dotProduct, mulVec, Matrix.of_apply, one_mul, Pi.star_apply, star_trivial]
    rw [← Finset.sum_mul]
    exact mul_self_nonneg _
  | insert k S hk ih =>
    have := (hA k (Finset.mem_insert_self k S)).hadamard (ih (fun j hj => hA j (Finset.mem_insert_of_mem hj)))
    have e : Matrix.of (fun i j => ∏ k ∈ insert k S, A k i j) = Matrix.hadamard (A k) (Matrix.of (fun i j => ∏ k ∈ S, A k i j)) := by
      ext i j
      simp [Finset.prod_insert hk, Matrix.hadamard]
    rw [e]
    exact this

theorem psd_quad {n : ℕ} {A : Matrix (Fin n) (Fin n) ℝ} (h : A.PosSemidef) (w : Fin n → ℝ) : 0 ≤ ∑ i, ∑ j, w i * w j * A i j := by
  have := h.dotProduct_mulVec_nonneg w
  refine this.trans_eq ?_
  simp only [dotProduct, Matrix.mulVec, Pi.star_apply, star_trivial, Finset.mul_sum]
  exact Finset.sum_congr rfl (fun i _ => Finset.sum_congr rfl (fun j _ => by ring))

/-- **C82** (covariance).  The compactly supported kernel is a covariance function, also together with its derivatives. -/
theorem C82_covariance {d : ℕ} (l s : ℝ) (hl : 0 < l) (hs : 0 ≤ s) : PsdKernel (fun (p q : Pt d × Option (Fin d)) => csnKernel l s p.2 q.2 p.1 q.1) := by
  refine ⟨fun p q => csnKernel_symm l s p.2 q.2 p.1 q.1, fun n x w => ?_⟩
  have hk : ∀ k : Fin d, (Matrix.of (fun i j : Fin n => cubicFlag (decide ((x i).2 = some k)) (decide ((x j).2 = some k)) ((x i).1 k / l - (x j).1 k / l))).PosSemidef := by
    intro k
    refine Matrix.PosSemidef.of_dotProduct_mulVec_nonneg ?_ (fun w => ?_)
    · ext i j
      simp only [Matrix.conjTranspose_apply, Matrix.of_apply, star_trivial]
      rw [cubicFlag_symm]
      congr 1
      ring
    · have := cubicFlag_psd (fun i => (x i).1 k / l) (fun i => decide ((x i).2 = some k)) w
      refine this.trans_eq ?_
      simp only [dotProduct, Matrix.mulVec, Pi.star_apply, star_trivial, Finset.mul_sum, Matrix.of_apply]
      exact Finset.sum_congr rfl (fun i _ => Finset.sum_congr rfl (fun j _ => by ring))
  have key := psd_quad (prod_posSemidef Finset.univ _ (fun k _ => hk k)) (fun i => w i * lenW l (x i).2)
  have hc : 0 ≤ s / l ^ d := by positivity
  refine (mul_nonneg hc key).trans_eq ?_
  rw [Finset.mul_sum]
  refine Finset.sum_congr rfl (fun i _ => ?_)
  rw [Finset.mul_sum]
  refine Finset.sum_congr rfl (fun j _ => ?_)
  rw [csnKernel_eq]
  simp only [Matrix.of_apply]
  ring

theorem prod_update_deriv {d : ℕ} {f : Fin d → ℝ → ℝ} {f' l : ℝ} (x y : Pt d) (i : Fin d) (h : HasDerivAt (f i) f' (x i / l - y i / l)) :
    HasDerivAt (fun t => ∏ k, f k (Function.update x i t k / l - y k / l)) (f' / l * ∏ k ∈ Finset.univ.erase i, f k (x k / l - y k / l)) (x i) := by
  have : ∀ t : ℝ, ∏ k, f k (Function.update x i t k / l - y k / l) = f i (t / l - y i / l) * ∏ k ∈ Finset.univ.erase i, f k (x k / l - y k / l) := by
    intro t
    rw [← Finset.mul_prod_erase _ _ (Finset.mem_univ i)]
    congr 1
    · simp
    · exact Finset.prod_congr rfl (fun k hk => by rw [Function.update_of_ne (Finset.ne_of_mem_erase hk)])
  rw [funext this]
  refine HasDerivAt.mul_const ?_ _
  have h1 : HasDerivAt (fun t : ℝ => t / l - y i / l) (1 / l) (x i) := ((hasDerivAt_id (x i)).div_const l).sub_const _
  have := h.comp (x i) h1
  exact this.congr_deriv (by ring)

/-- **C82** (derivatives).  `derivatives=(i,-1)` returns the partial derivative in coordinate `i` of the first point, `derivatives=(-1,j)` the one in coordinate `j` of the second point, and
`derivatives=(i,j)` the mixed second derivative. -/
theorem C82_derivatives {d : ℕ} (l s : ℝ) (x y : Pt d) (i j : Fin d) :
    HasDerivAt (fun h => csnKernel l s none none (Function.update x i h) y) (csnKernel l s (some i) none x y) (x i) ∧
    HasDerivAt (fun h => csnKernel l s none none x (Function.update y j h)) (csnKernel l s none (some j) x y) (y j) ∧
    HasDerivAt (fun h => csnKernel l s (some i) none x (Function.update y j h)) (csnKernel l s (some i) (some j) x y) (y j) ∧
    HasDerivAt (fun h => csnKernel l s none (some j) (Function.update x i h) y) (csnKernel l s (some i) (some j) x y) (x i) := by
  -- derivative in the first point, whatever has been done to the second
  have hB : ∀ (x y : Pt d) (i : Fin d) (b : Option (Fin d)), HasDerivAt (fun h => csnKernel l s none b (Function.update x i h) y) (csnKernel l s (some i) b x y) (x i) := by
    intro x y i b
    have hd : HasDerivAt (cubicFlag (decide ((none : Option (Fin d)) = some i)) (decide (b = some i))) (cubicFlag true (decide (b = some i)) (x i / l - y i / l)) (x i / l - y i / l) := by
      have e0 : decide ((none : Option (Fin d)) = some i) = false := by simp
      rw [e0]
      generalize decide (b = some i) = c
      match c with
      | false => exact cubicB_deriv _
      | true => exact (cubicB1_deriv _).neg
    have := (prod_update_deriv (f := fun k => cubicFlag (decide ((none : Option (Fin d)) = some k)) (decide (b = some k))) x y i hd).const_mul (s / l ^ d * (lenW l (none : Option (Fin d)) * lenW l b))
    rw [show (fun h => csnKernel l s none b (Function.update x i h) y) = _ from funext (fun h => csnKernel_eq l s none b _ y)]
    refine this.congr_deriv ?_
    rw [csnKernel_eq, ← Finset.mul_prod_erase _ _ (Finset.mem_univ i)]
    have e : ∏ k ∈ Finset.univ.erase i, cubicFlag (decide (some i = some k)) (decide (b = some k)) (x k / l - y k / l) =
        ∏ k ∈ Finset.univ.erase i, cubicFlag (decide ((none : Option (Fin d)) = some k)) (decide (b = some k)) (x k / l - y k / l) := by
      refine Finset.prod_congr rfl (fun k hk => ?_)
      have : decide (some i = some k) = decide ((none : Option (Fin d)) = some k) := by
        have := Finset.ne_of_mem_erase hk
        simp [Ne.symm this]
      rw [this]
    rw [e]
    simp only [lenW, decide_true]
    ring
  refine ⟨hB x y i none, ?_, ?_, hB x y i (some j)⟩
  · have := hB y x j none
    rw [csnKernel_symm l s (some j) none y x] at this
    exact this.congr_of_eventuallyEq (Filter.Eventually.of_forall (fun h => csnKernel_symm l s none none x _))
  · have := hB y x j (some i)
    rw [csnKernel_symm l s (some j) (some i) y x] at this
    exact this.congr_of_eventuallyEq (Filter.Eventually.of_forall (fun h => csnKernel_symm l s (some i) none x _))

theorem cubicB_pos {r : ℝ} (h : |r| < 2) : 0 < cubicB r := by
  have hf := cubic_cases r
  unfold cubicB
  rw [abs_lt] at h
  rcases hf with ⟨g, a, b, c, _⟩ | ⟨g, a, b, c, _⟩ | ⟨g, a, b, c, _⟩ | ⟨g, a, b, c, _⟩ | ⟨g, a, b, c, _⟩ | ⟨g, a, b, c, _⟩
  · linarith [h.1]
  · simp only [a, b]; rw [c]
    have h2 : 0 < r + 2 := by linarith [h.1]
    have := pow_pos h2 3
    nlinarith
  · simp only [a, b]; rw [c]; nlinarith [mul_pos (show 0 < r + 1 by linarith [g.1]) (show 0 < -r by linarith [g.2]), sq_nonneg r]
  · simp only [a, b]; rw [c]; nlinarith [mul_nonneg g.1 (show 0 ≤ 1 - r by linarith [g.2]), sq_nonneg r]
  · simp only [a, b]; rw [c]
    have h2 : 0 < 2 - r := by linarith [h.2]
    have := pow_pos h2 3
    nlinarith
  · linarith [h.2]

theorem cubicB_zero {r : ℝ} (h : 2 ≤ |r|) : cubicB r = 0 := by
  have h1 : ¬ |r| < 1 := by linarith
  rcases eq_or_lt_of_le h with h2 | h2
  · unfold cubicB
    rw [← h2]
    norm_num [cond01]
  · have : ¬ |r| ≤ 2 := by linarith
    unfold cubicB
    rw [cond01_false h1, cond01_false this]
    ring

/-- **C82** (support).  The value is positive if all coordinates differ by less than `2 * length`, and zero otherwise. -/
theorem C82_support {d : ℕ} (l s : ℝ) (hl : 0 < l) (hs : 0 < s) (x y : Pt d) :
    ((∀ k, |x k - y k| < 2 * l) → 0 < csnKernel l s none none x y) ∧ ((∃ k, 2 * l ≤ |x k - y k|) → csnKernel l s none none x y = 0) := by
  have ha : ∀ k, |x k / l - y k / l| = |x k - y k| / l := fun k => by rw [← sub_div, abs_div, abs_of_pos hl]
  have hc : 0 < s / l ^ d := by positivity
  constructor
  · intro h
    rw [csnKernel_eq]
    simp only [lenW, mul_one]
    refine mul_pos hc (Finset.prod_pos (fun k _ => ?_))
    simp only [reduceCtorEq, decide_false, cubicFlag]
    apply cubicB_pos
    rw [ha, div_lt_iff₀ hl]
    exact h k
  · rintro ⟨k, hk⟩
    rw [csnKernel_eq]
    refine mul_eq_zero_of_right _ (Finset.prod_eq_zero (Finset.mem_univ k) ?_)
    simp only [reduceCtorEq, decide_false, cubicFlag]
    apply cubicB_zero
    rw [ha, le_div_iff₀ hl]
    exact hk

/-- the default parameters -/
example : PsdKernel (fun (p q : Pt 3 × Option (Fin 3)) => csnKernel 0.2 1 p.2 q.2 p.1 q.1) := C82_covariance 0.2 1 (by norm_num) (by norm_num)

example : csnKernel 1 1 none none (fun _ : Fin 1 => 0) (fun _ => 0) = 2 / 3 := by
  simp [csnKernel, csnFactor, cubicB, cond01]; norm_num

end Gpy
