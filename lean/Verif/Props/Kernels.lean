import Verif.Proofs.Kernels
import Mathlib.Analysis.Calculus.Deriv.Pi
import Mathlib.Analysis.Calculus.Deriv.Mul
import Mathlib.Analysis.Calculus.Deriv.Pow

/-! # C81: `squared_exponential_kernel` -/

set_option autoImplicit false
namespace Gpy
open Finset

theorem sqdist_deriv {d : ℕ} (x y : Pt d) (i : Fin d) (t : ℝ) :
    HasDerivAt (fun h : ℝ => ∑ k, (Function.update x i h k - y k) * (Function.update x i h k - y k)) (2 * (t - y i)) t := by
  have : ∀ h : ℝ, ∑ k, (Function.update x i h k - y k) * (Function.update x i h k - y k) = (h - y i) * (h - y i) + ∑ k ∈ Finset.univ.erase i, (x k - y k) * (x k - y k) := by
    intro h
    rw [← Finset.add_sum_erase _ _ (Finset.mem_univ i)]
    congr 1
    · simp
    · refine Finset.sum_congr rfl (fun k hk => ?_)
      rw [Function.update_of_ne (Finset.ne_of_mem_erase hk)]
  rw [funext this]
  have h1 : HasDerivAt (fun h : ℝ => h - y i) 1 t := (hasDerivAt_id t).sub_const _
  have := (h1.mul h1).add_const (∑ k ∈ Finset.univ.erase i, (x k - y k) * (x k - y k))
  exact this.congr_deriv (by ring)

theorem sqExpValue_deriv {d : ℕ} (l s : ℝ) (x y : Pt d) (i : Fin d) (t : ℝ) :
    HasDerivAt (fun h : ℝ => sqExpValue l s (Function.update x i h) y) (-(1 / l ^ 2) * (t - y i) * sqExpValue l s (Function.update x i t) y) t := by
  unfold sqExpValue
  have h1 := ((((sqdist_deriv x y i t).const_mul (-0.5 : ℝ)).div_const (l ^ 2)).exp).const_mul s
  refine h1.congr_deriv ?_
  ring

theorem sqExpValue_symm {d : ℕ} (l s : ℝ) (x y : Pt d) : sqExpValue l s x y = sqExpValue l s y x := by
  unfold sqExpValue
  have : ∑ k, (x k - y k) * (x k - y k) = ∑ k, (y k - x k) * (y k - x k) := Finset.sum_congr rfl (fun k _ => by ring)
  rw [this]

theorem sqExp_symm {d : ℕ} (l s : ℝ) (a b : Option (Fin d)) (x y : Pt d) : sqExp l s a b x y = sqExp l s b a y x := by
  rw [sqExp_eq, sqExp_eq, sqExpValue_symm l s x y]
  have r : ∀ (a : Fin d → ℝ), ∑ k, a k * (x k - y k) = -∑ k, a k * (y k - x k) := by
    intro a
    rw [← Finset.sum_neg_distrib]
    exact Finset.sum_congr rfl (fun k _ => by ring)
  rw [r, r, Finset.sum_congr rfl (fun k _ => mul_comm (dirW a k) (dirW b k))]
  ring

/-- **C81** (derivatives).  `derivatives=(i,-1)` returns the partial derivative in coordinate `i` of the first point, `derivatives=(-1,j)` the one in coordinate `j` of the second point, and
`derivatives=(i,j)` the mixed second derivative. -/
theorem C81_derivatives {d : ℕ} (l s : ℝ) (x y : Pt d) (i j : Fin d) :
    HasDerivAt (fun h => sqExp l s none none (Function.update x i h) y) (sqExp l s (some i) none x y) (x i) ∧
    HasDerivAt (fun h => sqExp l s none none x (Function.update y j h)) (sqExp l s none (some j) x y) (y j) ∧
    HasDerivAt (fun h => sqExp l s (some i) none x (Function.update y j h)) (sqExp l s (some i) (some j) x y) (y j) ∧
    HasDerivAt (fun h => sqExp l s none (some j) (Function.update x i h) y) (sqExp l s (some i) (some j) x y) (x i) := by
  have hA : ∀ (x y : Pt d) (i : Fin d), HasDerivAt (fun h => sqExp l s none none (Function.update x i h) y) (sqExp l s (some i) none x y) (x i) := by
    intro x y i
    have := sqExpValue_deriv l s x y i (x i)
    rw [Function.update_eq_self] at this
    refine this.congr_deriv ?_
    have sg : Int.sign ((i.val : ℤ) - -1) = 1 := Int.sign_eq_one_of_pos (by omega)
    simp only [sqExp, derivIdx, sg]
    push_cast
    ring
  have hB : ∀ (x y : Pt d) (i j : Fin d), HasDerivAt (fun h => sqExp l s none (some j) (Function.update x i h) y) (sqExp l s (some i) (some j) x y) (x i) := by
    intro x y i j
    have sg : Int.sign (-1 - (j.val : ℤ)) = -1 := Int.sign_eq_neg_one_of_neg (by omega)
    have h1 : HasDerivAt (fun h : ℝ => Function.update x i h j - y j) (if i = j then 1 else 0) (x i) := by
      by_cases hij : i = j
      · subst hij
        simp only [Function.update_self, if_true]
        exact (hasDerivAt_id _).sub_const _
      · rw [if_neg hij]
        simp only [Function.update_of_ne (Ne.symm hij)]
        exact hasDerivAt_const _ _
    have h2 := sqExpValue_deriv l s x y i (x i)
    have h3 := (h1.mul h2).const_mul (1 / l ^ 2)
    have e : (fun h => sqExp l s none (some j) (Function.update x i h) y) =
        fun h : ℝ => 1 / l ^ 2 * ((Function.update x i h j - y j) * sqExpValue l s (Function.update x i h) y) := by
      funext h
      simp only [sqExp, derivIdx, sg]
      push_cast
      ring
    rw [e]
    refine h3.congr_deriv ?_
    simp only [sqExp, Function.update_eq_self]
    ring
  refine ⟨hA x y i, ?_, ?_, hB x y i j⟩
  · have := hA y x j
    rw [sqExp_symm l s (some j) none y x] at this
    refine this.congr_of_eventuallyEq (Filter.Eventually.of_forall (fun h => ?_))
    exact sqExp_symm l s none none x _
  · have := hB y x j i
    rw [sqExp_symm l s (some j) (some i) y x] at this
    refine this.congr_of_eventuallyEq (Filter.Eventually.of_forall (fun h => ?_))
    exact sqExp_symm l s (some i) none x _

/-- **C81** (covariance).  The kernel is a covariance function, also together with its derivatives: for any points and any choice of value or partial derivative at each of them, the matrix is symmetric
and positive semidefinite. -/
theorem C81_covariance {d : ℕ} (l s : ℝ) (hl : l ≠ 0) (hs : 0 ≤ s) : PsdKernel (fun (p q : Pt d × Option (Fin d)) => sqExp l s p.2 q.2 p.1 q.1) :=
  ⟨fun p q => sqExp_symm l s p.2 q.2 p.1 q.1, fun _ x w => sqExp_psd hl hs (fun i => (x i).1) (fun i => (x i).2) w⟩

/-- **C81** (values).  The value is `scale` where the points agree and between `0` and `scale` otherwise, it depends only on the distance and decreases with it. -/
theorem C81_values {d : ℕ} (l s : ℝ) (hl : l ≠ 0) (hs : 0 < s) (x y : Pt d) :
    sqExp l s none none x y = s * Real.exp (-(pnorm (fun k => x k - y k)) ^ 2 / (2 * l ^ 2)) ∧ sqExp l s none none x x = s ∧ (x ≠ y → sqExp l s none none x y < s) ∧
      0 < sqExp l s none none x y ∧
      ∀ x' y' : Pt d, pnorm (fun k => x k - y k) < pnorm (fun k => x' k - y' k) → sqExp l s none none x' y' < sqExp l s none none x y := by
  have hf : ∀ x y : Pt d, sqExp l s none none x y = s * Real.exp (-(pnorm (fun k => x k - y k)) ^ 2 / (2 * l ^ 2)) := by
    intro x y
    show sqExpValue l s x y = _
    unfold sqExpValue pnorm psq
    rw [Real.sq_sqrt (Finset.sum_nonneg (fun k _ => sq_nonneg _))]
    congr 2
    have : ∑ k, (x k - y k) * (x k - y k) = ∑ k, (x k - y k) ^ 2 := Finset.sum_congr rfl (fun k _ => by ring)
    rw [this]
    field_simp
    ring
  have hl2 : 0 < 2 * l ^ 2 := by positivity
  have hmono : ∀ a b : ℝ, 0 ≤ a → a < b → s * Real.exp (-b ^ 2 / (2 * l ^ 2)) < s * Real.exp (-a ^ 2 / (2 * l ^ 2)) := by
    intro a b ha hab
    have : a ^ 2 < b ^ 2 := by nlinarith
    refine mul_lt_mul_of_pos_left (Real.exp_lt_exp.2 ?_) hs
    rw [div_lt_div_iff_of_pos_right hl2]
    linarith
  have h0 : ∀ x : Pt d, pnorm (fun k => x k - x k) = 0 := fun x => by simp [pnorm, psq]
  have hself : sqExp l s none none x x = s := by rw [hf, h0]; simp
  refine ⟨hf x y, hself, ?_, by rw [hf]; positivity, ?_⟩
  · intro hxy
    have hp : 0 < pnorm (fun k => x k - y k) := by
      unfold pnorm psq
      apply Real.sqrt_pos.2
      obtain ⟨k, hk⟩ := Function.ne_iff.1 hxy
      exact Finset.sum_pos' (fun k _ => sq_nonneg _) ⟨k, Finset.mem_univ k, by have := sub_ne_zero.2 hk; positivity⟩
    have := hmono 0 _ (le_refl _) hp
    rw [hf]
    simpa using this
  · intro x' y' h
    rw [hf x y, hf x' y']
    exact hmono _ _ (Real.sqrt_nonneg _) h

/-- the default parameters -/
example : PsdKernel (fun (p q : Pt 2 × Option (Fin 2)) => sqExp 0.2 1 p.2 q.2 p.1 q.1) := C81_covariance 0.2 1 (by norm_num) (by norm_num)

/-- one entry: the variance of the derivative is `1 / length²` -/
example (x : Pt 2) : sqExp 0.2 1 (some 1) (some 1) x x = 25 := by
  have : sqExpValue 0.2 1 x x = 1 := by unfold sqExpValue; simp
  simp only [sqExp, this, if_true]
  norm_num

end Gpy
