import Verif.Spec.SphereFlow
import Mathlib.LinearAlgebra.Matrix.ToLin
import Mathlib.Tactic.LinearCombination
import Mathlib.Tactic.Positivity

/-!
# Lemmas for the flow step
-/

set_option autoImplicit false
namespace Gpy.Spheres
open Classical

variable {d n nf m : ℕ}

theorem wu_zero_one (q : Hit d n nf m) (u : Smp d m) (clamp : Option ℝ) (pseudo : Bool) (k : Fin m) : q.wu u clamp pseudo k = 0 ∨ q.wu u clamp pseudo k = 1 := by
  unfold Hit.wu
  split <;> split <;> simp

/-- the matrix applied to vertices -/
theorem A_mul (q : Hit d n nf m) (w : Fin m → ℝ) (X : Fin n → Pt d) (k : Fin m) (j : Fin d) : ∑ v, q.A w k v * X v j = w k * q.at X k j := by
  unfold Hit.A Hit.at
  simp only [Finset.sum_mul, ite_mul, zero_mul]
  rw [Finset.sum_comm, Finset.mul_sum]
  refine Finset.sum_congr rfl (fun c _ => ?_)
  rw [Finset.sum_ite_eq]
  simp
  ring

/-- one column of the energy -/
noncomputable def colE (M : Fin n → ℝ) (A : Matrix (Fin m) (Fin n) ℝ) (t : ℝ) (v0 : Fin n → ℝ) (c : Fin m → ℝ) (x : Fin n → ℝ) : ℝ :=
  ∑ v, M v * (x v - v0 v) ^ 2 + t / m * ∑ k, ((∑ v, A k v * x v) - c k) ^ 2

theorem flowQ_mulVec (M : Fin n → ℝ) (A : Matrix (Fin m) (Fin n) ℝ) (t : ℝ) (x : Fin n → ℝ) (v : Fin n) :
    (flowQ M A t).mulVec x v = M v * x v + t * ∑ k, A k v * (1 / m * ∑ w, A k w * x w) := by
  unfold flowQ
  rw [Matrix.add_mulVec, Matrix.smul_mulVec, ← Matrix.mulVec_mulVec, ← Matrix.mulVec_mulVec]
  simp only [Pi.add_apply, Matrix.mulVec_diagonal, Pi.smul_apply, smul_eq_mul]
  have : ∀ z : Fin m → ℝ, A.transpose.mulVec z v = ∑ k, A k v * z k := fun z => rfl
  rw [this]
  simp only [Matrix.mulVec_diagonal]
  rfl

/-- the energy around a vector where the equations hold in the places where `y` differs -/
theorem colE_expand (M : Fin n → ℝ) (A : Matrix (Fin m) (Fin n) ℝ) (t : ℝ) (v0 : Fin n → ℝ) (c : Fin m → ℝ) (x y : Fin n → ℝ)
    (h : ∀ v, y v = x v ∨ (flowQ M A t).mulVec x v = M v * v0 v + t * ∑ k, A k v * (1 / m * c k)) :
    colE M A t v0 c y = colE M A t v0 c x + ∑ v, M v * (y v - x v) ^ 2 + t / m * ∑ k, (∑ v, A k v * (y v - x v)) ^ 2 := by
  have key : ∑ v, (y v - x v) * (M v * (x v - v0 v)) + t / m * ∑ k, (∑ v, A k v * (y v - x v)) * ((∑ v, A k v * x v) - c k) = 0 := by
    have e1 : ∑ k, (∑ v, A k v * (y v - x v)) * ((∑ v, A k v * x v) - c k) = ∑ v, (y v - x v) * ∑ k, A k v * ((∑ w, A k w * x w) - c k) := by
      simp only [Finset.sum_mul, Finset.mul_sum]
      rw [Finset.sum_comm]
      refine Finset.sum_congr rfl (fun v _ => Finset.sum_congr rfl (fun k _ => by ring))
    rw [e1, Finset.mul_sum, ← Finset.sum_add_distrib]
    refine Finset.sum_eq_zero (fun v _ => ?_)
    rcases h v with h | h
    · rw [h]; ring
    · rw [flowQ_mulVec] at h
      have e2 : ∑ k, A k v * ((∑ w, A k w * x w) - c k) = ∑ k, A k v * (∑ w, A k w * x w) - ∑ k, A k v * c k := by
        rw [← Finset.sum_sub_distrib]
        exact Finset.sum_congr rfl (fun k _ => by ring)
      have e3 : ∑ k, A k v * (1 / m * ∑ w, A k w * x w) = 1 / m * ∑ k, A k v * (∑ w, A k w * x w) := by
        rw [Finset.mul_sum]; exact Finset.sum_congr rfl (fun k _ => by ring)
      have e4 : ∑ k, A k v * (1 / m * c k) = 1 / m * ∑ k, A k v * c k := by
        rw [Finset.mul_sum]; exact Finset.sum_congr rfl (fun k _ => by ring)
      rw [e3, e4] at h
      rw [e2]
      linear_combination (y v - x v) * h
  unfold colE
  have f1 : ∑ v, M v * (y v - v0 v) ^ 2 = ∑ v, M v * (x v - v0 v) ^ 2 + ∑ v, M v * (y v - x v) ^ 2 + 2 * ∑ v, (y v - x v) * (M v * (x v - v0 v)) := by
    rw [Finset.mul_sum, ← Finset.sum_add_distrib, ← Finset.sum_add_distrib]
    exact Finset.sum_congr rfl (fun v _ => by ring)
  have f2 : ∑ k, ((∑ v, A k v * y v) - c k) ^ 2 = ∑ k, ((∑ v, A k v * x v) - c k) ^ 2 + ∑ k, (∑ v, A k v * (y v - x v)) ^ 2 +
      2 * ∑ k, (∑ v, A k v * (y v - x v)) * ((∑ v, A k v * x v) - c k) := by
    rw [Finset.mul_sum, ← Finset.sum_add_distrib, ← Finset.sum_add_distrib]
    refine Finset.sum_congr rfl (fun k _ => ?_)
    have : ∑ v, A k v * y v = ∑ v, A k v * x v + ∑ v, A k v * (y v - x v) := by
      rw [← Finset.sum_add_distrib]; exact Finset.sum_congr rfl (fun v _ => by ring)
    rw [this]; ring
  rw [f1, f2]
  linear_combination 2 * key

theorem flowQ_unit (M : Fin n → ℝ) (hM : ∀ v, 0 < M v) (A : Matrix (Fin m) (Fin n) ℝ) (t : ℝ) (ht : 0 ≤ t) : IsUnit (flowQ M A t) := by
  rw [← Matrix.mulVec_injective_iff_isUnit]
  intro x y hxy
  have h := colE_expand M A t (fun _ => 0) (fun _ => 0) 0 (x - y) (fun v => Or.inr (by
    rw [flowQ_mulVec]; simp))
  have h' := colE_expand M A t (fun _ => 0) (fun _ => 0) (x - y) 0 (fun v => Or.inr (by
    have h0 : (flowQ M A t).mulVec (x - y) = 0 := by
      rw [Matrix.mulVec_sub]
      exact sub_eq_zero.mpr hxy
    rw [h0]
    simp))
  simp only [Pi.zero_apply, sub_zero, zero_sub] at h h'
  have g1 : 0 ≤ ∑ v, M v * ((x - y) v) ^ 2 := Finset.sum_nonneg (fun v _ => mul_nonneg (hM v).le (sq_nonneg _))
  have g2 : 0 ≤ ∑ v, M v * (-(x - y) v) ^ 2 := Finset.sum_nonneg (fun v _ => mul_nonneg (hM v).le (sq_nonneg _))
  have g3 : 0 ≤ t / m * ∑ k, (∑ v, A k v * (x - y) v) ^ 2 := mul_nonneg (by positivity) (Finset.sum_nonneg (fun k _ => sq_nonneg _))
  have g4 : 0 ≤ t / m * ∑ k, (∑ v, A k v * -(x - y) v) ^ 2 := mul_nonneg (by positivity) (Finset.sum_nonneg (fun k _ => sq_nonneg _))
  have g5 : ∑ v, M v * ((x - y) v) ^ 2 = 0 := by linarith
  funext v
  have := (Finset.sum_eq_zero_iff_of_nonneg (fun v _ => mul_nonneg (hM v).le (sq_nonneg _))).mp g5 v (Finset.mem_univ v)
  have := pow_eq_zero_iff (two_ne_zero) |>.mp ((mul_eq_zero.mp this).resolve_left (hM v).ne')
  simp only [Pi.sub_apply] at this
  linarith

/-- the energy is the sum over the columns -/
theorem energy_cols (q : Hit d n nf m) (M : Fin n → ℝ) (t : ℝ) (w : Fin m → ℝ) (hw : ∀ k, w k = 0 ∨ w k = 1) (target : Fin m → Pt d) (X : Fin n → Pt d) :
    q.energy M t w target X = ∑ j, colE M (q.A w) t (fun v => q.V v j) (fun k => w k * target k j) (fun v => X v j) := by
  unfold Hit.energy Hit.misfit colE psq
  rw [Finset.sum_add_distrib, ← Finset.mul_sum]
  congr 1
  · rw [Finset.sum_comm]
    exact Finset.sum_congr rfl (fun v _ => by rw [Finset.mul_sum]; rfl)
  · congr 1
    rw [Finset.sum_comm]
    refine Finset.sum_congr rfl (fun k _ => ?_)
    rw [Finset.mul_sum]
    refine Finset.sum_congr rfl (fun j _ => ?_)
    rw [A_mul, ← mul_sub, mul_pow]
    rcases hw k with h | h <;> rw [h] <;> simp

/-- where the equations hold, the energy is strictly smallest -/
theorem energy_lt (q : Hit d n nf m) (M : Fin n → ℝ) (hM : ∀ v, 0 < M v) (t : ℝ) (ht : 0 ≤ t) (w : Fin m → ℝ) (hw : ∀ k, w k = 0 ∨ w k = 1) (target : Fin m → Pt d) (X Y : Fin n → Pt d)
    (h : ∀ v j, Y v j = X v j ∨ (flowQ M (q.A w) t).mulVec (fun v => X v j) v = flowRhs M (q.A w) t q.V (fun k j => w k * target k j) j v) (hne : Y ≠ X) :
    q.energy M t w target X < q.energy M t w target Y := by
  rw [energy_cols q M t w hw, energy_cols q M t w hw]
  have hle : ∀ j, colE M (q.A w) t (fun v => q.V v j) (fun k => w k * target k j) (fun v => X v j) + ∑ v, M v * (Y v j - X v j) ^ 2 ≤
      colE M (q.A w) t (fun v => q.V v j) (fun k => w k * target k j) (fun v => Y v j) := by
    intro j
    rw [colE_expand M (q.A w) t (fun v => q.V v j) (fun k => w k * target k j) (fun v => X v j) (fun v => Y v j) (fun v => h v j)]
    have : 0 ≤ t / m * ∑ k, (∑ v, q.A w k v * (Y v j - X v j)) ^ 2 := mul_nonneg (by positivity) (Finset.sum_nonneg (fun k _ => sq_nonneg _))
    linarith
  obtain ⟨v, hv⟩ := Function.ne_iff.mp hne
  obtain ⟨j, hj⟩ := Function.ne_iff.mp hv
  refine Finset.sum_lt_sum (fun j _ => ?_) ⟨j, Finset.mem_univ j, ?_⟩
  · have : 0 ≤ ∑ v, M v * (Y v j - X v j) ^ 2 := Finset.sum_nonneg (fun v _ => mul_nonneg (hM v).le (sq_nonneg _))
    linarith [hle j]
  · have : 0 < ∑ v, M v * (Y v j - X v j) ^ 2 :=
      Finset.sum_pos' (fun v _ => mul_nonneg (hM v).le (sq_nonneg _)) ⟨v, Finset.mem_univ v, mul_pos (hM v) (by have := sub_ne_zero.mpr hj; positivity)⟩
    linarith [hle j]

end Gpy.Spheres
