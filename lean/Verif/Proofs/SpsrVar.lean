import Verif.Proofs.SpsrRun
import Verif.Proofs.SpsrNodes
import Verif.Props.SpsrMean
import Mathlib.LinearAlgebra.Matrix.ToLin
import Mathlib.LinearAlgebra.FiniteDimensional.Basic

/-! The variance of `stochastic_poisson_surface_reconstruction`. -/

set_option autoImplicit false
namespace Gpy.Spsr
open Np Finset

theorem solveCols_correct {solve : LinSolver ℝ} (hc : solve.Correct) {n m : ℕ} {A : Matrix (Fin n) (Fin n) ℝ} {B S : Matrix (Fin n) (Fin m) ℝ} (h : solveCols solve A B = some S) : A * S = B := by
  unfold solveCols at h
  cases hm : (List.finRange m).mapM (fun j => solve (Fin n) A (fun i => B i j)) with
  | none => rw [hm] at h; simp at h
  | some cols =>
    choose g hg using fun j : Fin m => mapM_mem hm j (List.mem_finRange j)
    have := mapM_some_map (List.finRange m) _ g (fun j _ => hg j)
    rw [hm, Option.some.injEq] at this
    subst this
    rw [hm, Option.map_some, Option.some.injEq] at h
    subst h
    ext i j
    rw [Matrix.mul_apply]
    have := hc (Fin n) A _ _ (hg j) i
    rw [← this]
    refine Finset.sum_congr rfl (fun k _ => ?_)
    simp

variable {m n : ℕ} (G : Matrix (Fin m) (Fin n) ℝ)

theorem system_symm : (system G).transpose = system G := by
  unfold system
  rw [Matrix.transpose_add, Matrix.transpose_mul, Matrix.transpose_transpose, Matrix.transpose_smul, Matrix.transpose_one]

theorem system_surj (b : Fin n → ℝ) : ∃ x, (system G).mulVec x = b := by
  have hinj : Function.Injective (system G).mulVecLin := by
    intro x y h
    exact system_inj G (by simpa using h)
  obtain ⟨x, hx⟩ := (LinearMap.injective_iff_surjective.mp hinj) b
  exact ⟨x, by simpa using hx⟩

/-- the weights with which the vector field determines the value at a node -/
theorem weights_exist : ∃ w : Fin n → Fin m → ℝ, (∀ j, ∃ u, (system G).mulVec u = Pi.single j 1 ∧ w j = G.mulVec u) ∧
    ∀ (v : Fin m → ℝ) (x : Fin n → ℝ), (system G).mulVec x = G.transpose.mulVec v → ∀ j, x j = ∑ e, w j e * v e := by
  choose u hu using fun j : Fin n => system_surj G (Pi.single j (1 : ℝ))
  refine ⟨fun j => G.mulVec (u j), fun j => ⟨u j, hu j, rfl⟩, ?_⟩
  intro v x hx j
  have h1 : x j = x ⬝ᵥ (system G).mulVec (u j) := by rw [hu j]; simp
  rw [h1, Matrix.dotProduct_mulVec, ← Matrix.mulVec_transpose, system_symm, hx, Matrix.mulVec_transpose, ← Matrix.dotProduct_mulVec, dotProduct_comm]
  rfl

/-- the diagonal of the covariance of the scalar field -/
theorem cov_diag {C : Matrix (Fin m) (Fin m) ℝ} {D S : Matrix (Fin n) (Fin n) ℝ} (hD : system G * D = G.transpose * C * G) (hS : system G * S = D.transpose) {u : Fin n → ℝ} {j : Fin n}
    (hu : (system G).mulVec u = Pi.single j 1) : S j j = ∑ e, ∑ e', G.mulVec u e * C e e' * G.mulVec u e' := by
  have h1 : (system G * S * system G) = (G.transpose * C * G).transpose := by
    rw [hS]
    have : (system G * D).transpose = (G.transpose * C * G).transpose := by rw [hD]
    rw [Matrix.transpose_mul, system_symm] at this
    exact this
  have h2 : S j j = (Pi.single j (1 : ℝ)) ⬝ᵥ S.mulVec (Pi.single j 1) := by simp
  rw [h2]
  rw [← hu]
  have h3 : (system G).mulVec u ⬝ᵥ S.mulVec ((system G).mulVec u) = u ⬝ᵥ (system G * S * system G).mulVec u := by
    rw [← Matrix.mulVec_mulVec, ← Matrix.mulVec_mulVec, Matrix.dotProduct_mulVec u, ← Matrix.mulVec_transpose, system_symm]
  rw [h3, h1, Matrix.transpose_mul, Matrix.transpose_mul, Matrix.transpose_transpose, ← Matrix.mulVec_mulVec, ← Matrix.mulVec_mulVec, Matrix.dotProduct_mulVec, ← Matrix.mulVec_transpose, Matrix.transpose_transpose]
  generalize G.mulVec u = g
  unfold dotProduct Matrix.mulVec
  simp only [dotProduct, Matrix.transpose_apply]
  simp only [Finset.mul_sum]
  rw [Finset.sum_comm]
  refine Finset.sum_congr rfl (fun e _ => Finset.sum_congr rfl (fun e' _ => ?_))
  ring

theorem list_min_spec {l : List ℝ} {lo : ℝ} (h : l.min? = some lo) : lo ∈ l ∧ ∀ a ∈ l, lo ≤ a := by
  have := List.min?_eq_some_iff.mp h
  exact ⟨this.1, this.2⟩

/-- the variance -/
theorem varField_spec {solve : LinSolver ℝ} (hc : solve.Correct) {sigmaN : ℝ} {C : Matrix (Fin m) (Fin m) ℝ} {y : Fin n → ℝ} (h : varField solve sigmaN G C = some y) :
    ∃ w : Fin n → Fin m → ℝ, (∀ (v : Fin m → ℝ) (x : Fin n → ℝ), (∀ z, energy G v x ≤ energy G v z) → ∀ j, x j = ∑ e, w j e * v e) ∧
      (∃ j0 : Fin n, ∀ j, (∑ e, ∑ e', w j0 e * C e e' * w j0 e') ≤ (∑ e, ∑ e', w j e * C e e' * w j e') ∧
        y j = (∑ e, ∑ e', w j e * C e e' * w j e') - (∑ e, ∑ e', w j0 e * C e e' * w j0 e') + sigmaN * sigmaN + eps) := by
  obtain ⟨w, hw1, hw2⟩ := weights_exist G
  refine ⟨w, ?_, ?_⟩
  · intro v x hx
    apply hw2
    obtain ⟨x0, hx0⟩ := system_surj G (G.transpose.mulVec v)
    rw [energy_unique G v x0 x hx0 (hx x0)]
    exact hx0
  · unfold varField at h
    cases hD : solveCols solve (system G) (G.transpose * C * G) with
    | none => simp [hD] at h
    | some D =>
      simp only [hD, Option.bind_eq_bind, Option.bind_some] at h
      cases hS : solveCols solve (system G) D.transpose with
      | none => simp [hS] at h
      | some S =>
        simp only [hS, Option.bind_some] at h
        cases hl : (List.ofFn (fun j => S j j)).min? with
        | none => simp [hl] at h
        | some lo =>
          simp only [hl, Option.bind_some, Option.some.injEq] at h
          subst h
          have hd : ∀ j, S j j = ∑ e, ∑ e', w j e * C e e' * w j e' := by
            intro j
            obtain ⟨u, hu, hwj⟩ := hw1 j
            rw [hwj]
            exact cov_diag G (solveCols_correct hc hD) (solveCols_correct hc hS) hu
          obtain ⟨l1, l2⟩ := list_min_spec hl
          obtain ⟨j0, hj0⟩ := List.mem_ofFn.mp l1
          refine ⟨j0, fun j => ?_⟩
          rw [← hd j, ← hd j0]
          have := l2 (S j j) (List.mem_ofFn.mpr ⟨j, rfl⟩)
          have hj1 : S j0 j0 = lo := hj0
          rw [hj1]
          exact ⟨this, rfl⟩

end Gpy.Spsr
