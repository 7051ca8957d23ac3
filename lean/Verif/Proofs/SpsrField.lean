import Verif.Model.StochasticPoisson
import Mathlib.Data.Matrix.Mul
import Mathlib.Tactic.LinearCombination
import Mathlib.Tactic.Linarith
import Mathlib.Tactic.Positivity
import Mathlib.Algebra.BigOperators.Field

/-! The regularised least squares problem of `stochastic_poisson_surface_reconstruction`. -/

set_option autoImplicit false
namespace Gpy.Spsr
open Np Finset

/-- `‖Gu-v‖² + eps‖u‖²` -/
noncomputable def energy {m n : ℕ} (G : Matrix (Fin m) (Fin n) ℝ) (v : Fin m → ℝ) (u : Fin n → ℝ) : ℝ :=
  ∑ i, (G.mulVec u i - v i) ^ 2 + eps * ∑ j, u j ^ 2

theorem eps_pos : 0 < eps := by unfold eps; norm_num

variable {m n p : ℕ} (G : Matrix (Fin m) (Fin n) ℝ)

theorem dot_sq (a : Fin m → ℝ) : ∑ i, a i ^ 2 = a ⬝ᵥ a := by
  unfold dotProduct
  exact Finset.sum_congr rfl (fun i _ => by ring)

theorem system_mulVec (u : Fin n → ℝ) : (system G).mulVec u = G.transpose.mulVec (G.mulVec u) + eps • u := by
  unfold system
  rw [Matrix.add_mulVec, Matrix.smul_mulVec, Matrix.one_mulVec, Matrix.mulVec_mulVec]

theorem energy_diff (v : Fin m → ℝ) (x y : Fin n → ℝ) :
    energy G v y = energy G v x + 2 * (((system G).mulVec x - G.transpose.mulVec v) ⬝ᵥ (y - x)) + ∑ i, (G.mulVec (y - x)) i ^ 2 + eps * ∑ j, (y j - x j) ^ 2 := by
  have e1 : y = x + (y - x) := by abel
  generalize hz : y - x = z at *
  subst e1
  have h1 : ((system G).mulVec x - G.transpose.mulVec v) ⬝ᵥ z = (G.mulVec x - v) ⬝ᵥ G.mulVec z + eps * (x ⬝ᵥ z) := by
    rw [system_mulVec, sub_dotProduct, add_dotProduct, smul_dotProduct, Matrix.mulVec_transpose, Matrix.mulVec_transpose, ← Matrix.dotProduct_mulVec, ← Matrix.dotProduct_mulVec, sub_dotProduct, smul_eq_mul]
    ring
  rw [h1]
  unfold energy
  rw [Matrix.mulVec_add]
  have h2 : ∑ i, ((G.mulVec x + G.mulVec z) i - v i) ^ 2 = ∑ i, (G.mulVec x i - v i) ^ 2 + 2 * ((G.mulVec x - v) ⬝ᵥ G.mulVec z) + ∑ i, G.mulVec z i ^ 2 := by
    unfold dotProduct
    rw [Finset.mul_sum, ← Finset.sum_add_distrib, ← Finset.sum_add_distrib]
    exact Finset.sum_congr rfl (fun i _ => by simp only [Pi.add_apply, Pi.sub_apply]; ring)
  have h3 : ∑ j, (x + z) j ^ 2 = ∑ j, x j ^ 2 + 2 * (x ⬝ᵥ z) + ∑ j, ((x + z) j - x j) ^ 2 := by
    unfold dotProduct
    rw [Finset.mul_sum, ← Finset.sum_add_distrib, ← Finset.sum_add_distrib]
    exact Finset.sum_congr rfl (fun i _ => by simp only [Pi.add_apply]; ring)
  rw [h2, h3]
  ring

/-- an almost solution almost minimises -/
theorem energy_near (v : Fin m → ℝ) (x y : Fin n → ℝ) : energy G v x ≤ energy G v y + (∑ j, ((system G).mulVec x j - G.transpose.mulVec v j) ^ 2) / eps := by
  have h := energy_diff G v x y
  generalize hr : (system G).mulVec x - G.transpose.mulVec v = r at *
  have hr' : ∀ j, (system G).mulVec x j - G.transpose.mulVec v j = r j := fun j => by rw [← hr]; rfl
  simp only [hr']
  have e0 := eps_pos
  have h1 : 0 ≤ ∑ i, (G.mulVec (y - x)) i ^ 2 := Finset.sum_nonneg (fun i _ => sq_nonneg _)
  have h2 : 0 ≤ 2 * (r ⬝ᵥ (y - x)) + eps * ∑ j, (y j - x j) ^ 2 + (∑ j, r j ^ 2) / eps := by
    unfold dotProduct
    rw [Finset.mul_sum, Finset.mul_sum, Finset.sum_div, ← Finset.sum_add_distrib, ← Finset.sum_add_distrib]
    refine Finset.sum_nonneg (fun j _ => ?_)
    have : 2 * (r j * (y - x) j) + eps * (y j - x j) ^ 2 + r j ^ 2 / eps = (r j + eps * (y j - x j)) ^ 2 / eps := by
      simp only [Pi.sub_apply]
      field_simp
      ring
    rw [this]
    positivity
  linarith

/-- the solution is the only minimiser -/
theorem energy_unique (v : Fin m → ℝ) (x y : Fin n → ℝ) (h : (system G).mulVec x = G.transpose.mulVec v) (hy : energy G v y ≤ energy G v x) : y = x := by
  have e := energy_diff G v x y
  rw [h, sub_self, zero_dotProduct] at e
  have h1 : 0 ≤ ∑ i, (G.mulVec (y - x)) i ^ 2 := Finset.sum_nonneg (fun i _ => sq_nonneg _)
  have h2 : eps * ∑ j, (y j - x j) ^ 2 ≤ 0 := by linarith
  have h3 : ∑ j, (y j - x j) ^ 2 ≤ 0 := by
    by_contra hc
    exact absurd h2 (not_le.mpr (mul_pos eps_pos (not_le.mp hc)))
  funext j
  have h4 := (Finset.sum_eq_zero_iff_of_nonneg (fun j _ => sq_nonneg (y j - x j))).mp (le_antisymm h3 (Finset.sum_nonneg (fun j _ => sq_nonneg _))) j (Finset.mem_univ _)
  nlinarith [pow_eq_zero_iff (n := 2) (by norm_num) |>.mp h4]

theorem system_inj {x y : Fin n → ℝ} (h : (system G).mulVec x = (system G).mulVec y) : x = y := by
  have hz : (system G).mulVec (x - y) = G.transpose.mulVec 0 := by rw [Matrix.mulVec_sub, h, sub_self, Matrix.mulVec_zero]
  have h0 : (system G).mulVec 0 = G.transpose.mulVec 0 := by rw [Matrix.mulVec_zero, Matrix.mulVec_zero]
  have := energy_near G 0 (x - y) 0
  have hs : ∑ j, ((system G).mulVec (x - y) j - G.transpose.mulVec 0 j) ^ 2 = 0 := by rw [hz]; simp
  rw [hs, zero_div, add_zero] at this
  have := energy_unique G 0 0 (x - y) h0 this
  exact sub_eq_zero.mp this

/-- the average over the points vanishes -/
theorem meanField_avg {bicg : BicgSolver} {W : Matrix (Fin p) (Fin n) ℝ} {v : Fin m → ℝ} {x : Fin n → ℝ} (hp : 0 < p) (hW : ∀ i, ∑ j, W i j = 1)
    (h : meanField bicg G W v = some x) : ∑ i, W.mulVec x i = 0 := by
  unfold meanField at h
  cases hb : bicg n (system G) (G.transpose.mulVec v) with
  | none => simp [hb] at h
  | some y =>
    simp only [hb, Option.bind_eq_bind, Option.bind_some, Option.some.injEq] at h
    subst h
    have e : ∀ (c : ℝ) i, W.mulVec (fun j => y j - c) i = W.mulVec y i - c := by
      intro c i
      unfold Matrix.mulVec dotProduct
      simp only [mul_sub]
      rw [Finset.sum_sub_distrib, ← Finset.sum_mul, hW, one_mul]
    simp only [e]
    rw [Finset.sum_sub_distrib, Finset.sum_const, Finset.card_univ, Fintype.card_fin, nsmul_eq_mul]
    have : (p : ℝ) ≠ 0 := by exact_mod_cast hp.ne'
    field_simp
    ring

end Gpy.Spsr
