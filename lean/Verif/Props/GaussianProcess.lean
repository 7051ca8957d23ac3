import Verif.Proofs.GaussianProcess
import Verif.Props.Kernels
import Mathlib.Tactic.LinearCombination
import Mathlib.Analysis.MeanInequalities

/-! # C84: `gaussian_process` -/

set_option autoImplicit false
namespace Gpy
open Np Matrix

/-- The contract of `scipy.sparse.linalg.cg` with its default tolerances, for a symmetric positive definite matrix: the residual is at most `1e-5` times the right hand side. -/
def CgSolver.Accurate (cg : CgSolver) : Prop :=
  ∀ (n : ℕ) (A : Matrix (Fin n) (Fin n) ℝ) (b : Fin n → ℝ), (∀ i j, A i j = A j i) → (∀ w : Fin n → ℝ, w ≠ 0 → 0 < ∑ i, ∑ j, w i * w j * A i j) →
    pnorm (fun i => (∑ j, A i j * cg n A b j) - b i) ≤ 1e-5 * pnorm b

theorem obs_flag {d : ℕ} {X : List (Pt d)} {g : Bool} {p : Pt d × Option (Fin d)} (h : p ∈ obs X g) : g = true ∨ p.2 = none := by
  unfold obs at h
  split at h
  · left; assumption
  · obtain ⟨x, -, rfl⟩ := List.mem_map.mp h
    right; rfl

theorem CovFor.symm {d : ℕ} {ker : Kernel d} {g : Bool} (h : CovFor ker g) (p q : Pt d × Option (Fin d)) (hp : g = true ∨ p.2 = none) (hq : g = true ∨ q.2 = none) : obsKer ker p q = obsKer ker q p := by
  unfold CovFor at h
  cases g with
  | true => simp only [if_true] at h; exact h.symm p q
  | false =>
    simp only [Bool.false_eq_true, false_or, if_false] at h hp hq
    unfold obsKer
    rw [hp, hq]
    exact h.symm _ _

theorem CovFor.nonneg {d : ℕ} {ker : Kernel d} {g : Bool} (h : CovFor ker g) {n : ℕ} (x : Fin n → Pt d × Option (Fin d)) (hx : ∀ i, g = true ∨ (x i).2 = none) (w : Fin n → ℝ) :
    0 ≤ ∑ i, ∑ j, w i * w j * obsKer ker (x i) (x j) := by
  unfold CovFor at h
  cases g with
  | true => simp only [if_true] at h; exact h.nonneg n x w
  | false =>
    simp only [Bool.false_eq_true, false_or, if_false] at h hx
    refine (h.nonneg n (fun i => (x i).1) w).trans_eq ?_
    refine Finset.sum_congr rfl (fun i _ => Finset.sum_congr rfl (fun j _ => ?_))
    unfold obsKer
    rw [hx i, hx j]

/-- the error of a prediction is not negative -/
theorem predError_nonneg {d : ℕ} {ker : Kernel d} {g : Bool} (h : CovFor ker g) (X Xt : List (Pt d)) {s2 : ℝ} (hs : 0 ≤ s2) (c : Fin (obs Xt g).length → ℝ) (w : Fin (obs X g).length → ℝ) :
    0 ≤ predError (obsKer ker) s2 (obs X g) (obs Xt g) c w := by
  have hm : ∀ i : Fin (obs X g).length, g = true ∨ ((obs X g)[i]).2 = none := fun i => obs_flag (List.getElem_mem i.isLt)
  have hm' : ∀ i : Fin (obs Xt g).length, g = true ∨ ((obs Xt g)[i]).2 = none := fun i => obs_flag (List.getElem_mem i.isLt)
  have := h.nonneg (Fin.append (fun i : Fin (obs X g).length => (obs X g)[i]) (fun i : Fin (obs Xt g).length => (obs Xt g)[i])) (by
    intro i
    induction i using Fin.addCases with
    | left i => simpa using hm i
    | right i => simpa using hm' i) (Fin.append (fun i => -w i) c)
  simp only [Fin.sum_univ_add, Fin.append_left, Fin.append_right, Finset.sum_add_distrib] at this
  unfold predError
  have e1 : ∑ x, ∑ x_1, -w x * -w x_1 * obsKer ker (obs X g)[x] (obs X g)[x_1] = ∑ i, ∑ j, w i * w j * obsKer ker (obs X g)[i] (obs X g)[j] :=
    Finset.sum_congr rfl (fun i _ => Finset.sum_congr rfl (fun j _ => by ring))
  have e2 : ∑ x, ∑ x_1, -w x * c x_1 * obsKer ker (obs X g)[x] (obs Xt g)[x_1] = - ∑ i, ∑ j, w i * c j * obsKer ker (obs X g)[i] (obs Xt g)[j] := by
    rw [← Finset.sum_neg_distrib]
    refine Finset.sum_congr rfl (fun i _ => ?_)
    rw [← Finset.sum_neg_distrib]
    exact Finset.sum_congr rfl (fun j _ => by ring)
  have e3 : ∑ x, ∑ x_1, c x * -w x_1 * obsKer ker (obs Xt g)[x] (obs X g)[x_1] = - ∑ i, ∑ j, w i * c j * obsKer ker (obs X g)[i] (obs Xt g)[j] := by
    rw [Finset.sum_comm, ← Finset.sum_neg_distrib]
    refine Finset.sum_congr rfl (fun i _ => ?_)
    rw [← Finset.sum_neg_distrib]
    refine Finset.sum_congr rfl (fun j _ => ?_)
    rw [h.symm _ _ (hm' j) (hm i)]
    ring
  rw [e1, e2, e3] at this
  have := mul_nonneg hs (Finset.sum_nonneg (fun i (_ : i ∈ Finset.univ) => sq_nonneg (w i)))
  linarith

theorem train_pd {d : ℕ} {ker : Kernel d} {g : Bool} (h : CovFor ker g) (X : List (Pt d)) {s : ℝ} (hs : s ≠ 0) :
    ∀ w, w ≠ 0 → 0 < qform (kerMat (obsKer ker) (obs X g) (obs X g) + s ^ 2 • (1 : Matrix (Fin (obs X g).length) (Fin (obs X g).length) ℝ)) w := by
  intro w hw
  have e : qform (kerMat (obsKer ker) (obs X g) (obs X g) + s ^ 2 • (1 : Matrix (Fin (obs X g).length) (Fin (obs X g).length) ℝ)) w =
      qform (kerMat (obsKer ker) (obs X g) (obs X g)) w + s ^ 2 * (w ⬝ᵥ w) := by
    unfold qform
    rw [add_mulVec, dotProduct_add, smul_mulVec, one_mulVec, dotProduct_smul, smul_eq_mul]
  rw [e, qform_eq]
  have h1 := h.nonneg (fun i : Fin (obs X g).length => (obs X g)[i]) (fun i => obs_flag (List.getElem_mem i.isLt)) w
  have h2 : 0 < w ⬝ᵥ w := by
    have h3 : 0 ≤ w ⬝ᵥ w := Finset.sum_nonneg (fun i _ => mul_self_nonneg _)
    exact lt_of_le_of_ne h3 (fun e => hw (dotProduct_self_eq_zero.mp e.symm))
  have h4 : 0 < s ^ 2 := by positivity
  exact add_pos_of_nonneg_of_pos h1 (mul_pos h4 h2)

theorem train_symm {d : ℕ} {ker : Kernel d} {g : Bool} (h : CovFor ker g) (X : List (Pt d)) : (kerMat (obsKer ker) (obs X g) (obs X g)).transpose = kerMat (obsKer ker) (obs X g) (obs X g) := by
  ext i j
  exact h.symm _ _ (obs_flag (List.getElem_mem j.isLt)) (obs_flag (List.getElem_mem i.isLt))

theorem trainValues_length {d : ℕ} {X : List (Pt d)} {y : List ℝ} {grad : Option (List (Pt d))} (hy : y.length = X.length) (hg : ∀ g, grad = some g → g.length = X.length) :
    (trainValues y grad).length = (obs X grad.isSome).length := by
  cases grad with
  | none => simp [trainValues, obs, hy]
  | some g => simp [trainValues, obs, hy, hg g rfl, List.length_flatMap, List.map_const', List.sum_replicate, List.flatMap_map]

theorem trainValues_eq {d : ℕ} (y : List ℝ) (grad : Option (List (Pt d))) : trainValues y grad = obsVals y grad := by
  cases grad <;> rfl

/-- the value that belongs to the derivative `a` at point `i` (compare `C83_rows`) -/
theorem C84_values {d : ℕ} (y : List ℝ) (g : List (Pt d)) (hl : g.length = y.length) (i : ℕ) (v : ℝ) (r : Pt d) (hv : y[i]? = some v) (hr : g[i]? = some r) :
    (obsVals y (some g))[i]? = some v ∧ ∀ a : Fin d, (obsVals y (some g))[(a.val + 1) * y.length + i]? = some (r a) := by
  have hi : i < g.length := (List.getElem?_eq_some_iff.mp hr).1
  have hi' : i < y.length := (List.getElem?_eq_some_iff.mp hv).1
  have key : ∀ (as : List (Fin d)) (a : ℕ) (b : Fin d), as[a]? = some b → (as.flatMap (fun a => g.map (fun r => r a)))[a * g.length + i]? = some (r b) := by
    intro as
    induction as with
    | nil => intro a b hb; simp at hb
    | cons c t ih =>
      intro a b hb
      rw [List.flatMap_cons]
      cases a with
      | zero =>
        simp only [List.getElem?_cons_zero, Option.some.injEq] at hb
        subst hb
        rw [List.getElem?_append_left (by simpa using hi)]
        simp [hr]
      | succ a =>
        rw [List.getElem?_append_right (by simp; nlinarith)]
        have : (a + 1) * g.length + i - (g.map (fun r => r c)).length = a * g.length + i := by
          rw [List.length_map, Nat.add_mul]; omega
        rw [this]
        exact ih a b (by simpa using hb)
  unfold obsVals
  refine ⟨by rw [List.getElem?_append_left hi']; exact hv, fun a => ?_⟩
  rw [List.getElem?_append_right (by nlinarith)]
  have : (a.val + 1) * y.length + i - y.length = a.val * g.length + i := by rw [hl, Nat.add_mul]; omega
  rw [this]
  exact key (List.finRange d) a.val a (by simp)

theorem pnorm_dot {n : ℕ} (u v : Fin n → ℝ) : |u ⬝ᵥ v| ≤ pnorm u * pnorm v := by
  unfold pnorm psq
  rw [← Real.sqrt_mul (Finset.sum_nonneg (fun i _ => sq_nonneg _))]
  refine Real.abs_le_sqrt ?_
  exact Finset.sum_mul_sq_le_sq_mul_sq _ _ _

theorem rowEntry_ofFn {n : ℕ} (f : Fin n → Fin n → ℝ) (i j : Fin n) : rowEntry (List.ofFn (fun i => List.ofFn (fun j => f i j))) i j = f i j := by
  unfold rowEntry
  simp [List.getD_eq_getElem?_getD]

/-- everything the core computes, in terms of the prediction error -/
theorem gpCore_spec {solve : LinSolver ℝ} (hc : solve.Correct) (hs : solve.Complete) {cg : CgSolver} (hcg : cg.Accurate) {α : Type} {k : α → α → ℝ} {s : ℝ} {o ot : List α}
    (hsym : (kerMat k o o).transpose = kerMat k o o) (hsymt : (kerMat k ot ot).transpose = kerMat k ot ot)
    (hpd : ∀ w, w ≠ 0 → 0 < qform (kerMat k o o + s ^ 2 • (1 : Matrix (Fin o.length) (Fin o.length) ℝ)) w) (y : Fin o.length → ℝ) :
    ∃ mean cov, gpCore solve cg (kerMat k o o + s ^ 2 • (1 : Matrix (Fin o.length) (Fin o.length) ℝ)) (kerMat k o ot) (kerMat k ot ot) y = some (mean, cov) ∧
      mean.length = ot.length ∧ cov.length = ot.length ∧ (∀ r ∈ cov, r.length = ot.length) ∧ (∀ t u : Fin ot.length, rowEntry cov t u = rowEntry cov u t) ∧
      (∀ c, IsLeast (Set.range (predError k (s ^ 2) o ot c)) (∑ t : Fin ot.length, ∑ u : Fin ot.length, c t * c u * rowEntry cov t u)) ∧
      (∀ (t : Fin ot.length) (w : Fin o.length → ℝ), (∀ w', predError k (s ^ 2) o ot (Pi.single t 1) w ≤ predError k (s ^ 2) o ot (Pi.single t 1) w') →
        |mean.getD t 0 - ∑ i, w i * y i| ≤ 1e-5 * pnorm w * pnorm y) := by
  set A := kerMat k o o + s ^ 2 • (1 : Matrix (Fin o.length) (Fin o.length) ℝ) with hA
  have hAs : A.transpose = A := by
    rw [hA, transpose_add, hsym, transpose_smul, transpose_one]
  set B := kerMat k o ot with hB
  obtain ⟨S, hS, hAS⟩ := solveCols_pd hc hs hpd B
  have hpe : ∀ c w, predError k (s ^ 2) o ot c w = qform (kerMat k ot ot) c - 2 * (w ⬝ᵥ B.mulVec c) + qform A w := fun c w => predError_eq k (s ^ 2) o ot c w
  have hw0 : ∀ c, A.mulVec (S.mulVec c) = B.mulVec c := fun c => by rw [mulVec_mulVec, hAS]
  have hsq : ∀ c w, predError k (s ^ 2) o ot c w = qform (kerMat k ot ot) c - (S.mulVec c) ⬝ᵥ B.mulVec c + qform A (w - S.mulVec c) := by
    intro c w
    have := square_complete hAs (B.mulVec c) (S.mulVec c) w (hw0 c)
    rw [hpe]
    linarith
  have hnn : ∀ w, 0 ≤ qform A w := by
    intro w
    by_cases h : w = 0
    · subst h; unfold qform; simp
    · exact (hpd w h).le
  have hsymBS : (B.transpose * S).transpose = B.transpose * S := by
    have : B.transpose * S = S.transpose * A * S := by
      rw [← hAS, transpose_mul, hAs, Matrix.mul_assoc]
    rw [this]
    simp only [transpose_mul, transpose_transpose, hAs, Matrix.mul_assoc]
  refine ⟨_, _, by unfold gpCore; rw [hS]; rfl, by simp, by simp, ?_, ?_, ?_, ?_⟩
  · intro r hr
    obtain ⟨i, rfl⟩ := (List.mem_ofFn' _ _).mp hr
    simp
  · intro t u
    rw [rowEntry_ofFn, rowEntry_ofFn]
    have h1 := congrFun (congrFun hsymt t) u
    have h2 := congrFun (congrFun hsymBS t) u
    rw [transpose_apply] at h1 h2
    rw [h1, h2]
  · intro c
    have e : ∑ t : Fin ot.length, ∑ u : Fin ot.length, c t * c u * rowEntry (List.ofFn (fun i => List.ofFn (fun j => kerMat k ot ot i j - (B.transpose * S) i j))) t u =
        predError k (s ^ 2) o ot c (S.mulVec c) := by
      simp only [rowEntry_ofFn]
      have h1 := (qform_eq (kerMat k ot ot - B.transpose * S) c).symm
      rw [show (∑ t : Fin ot.length, ∑ u : Fin ot.length, c t * c u * (kerMat k ot ot t u - (B.transpose * S) t u)) = qform (kerMat k ot ot - B.transpose * S) c from h1, hsq, sub_self]
      unfold qform
      rw [sub_mulVec, dotProduct_sub, ← mulVec_mulVec, mulVec_zero, dotProduct_zero, add_zero, dotProduct_mulVec c B.transpose, vecMul_transpose, dotProduct_comm (B.mulVec c)]
    rw [e]
    refine ⟨⟨_, rfl⟩, ?_⟩
    rintro _ ⟨w, rfl⟩
    rw [hsq, hsq, sub_self]
    have := hnn (w - S.mulVec c)
    have h0 : qform A (0 : Fin o.length → ℝ) = 0 := by unfold qform; simp
    rw [h0]
    linarith
  · intro t w hw
    have hwe : w = S.mulVec (Pi.single t 1) := by
      by_contra hne
      have h1 := hw (S.mulVec (Pi.single t 1))
      rw [hsq, hsq, sub_self] at h1
      have h0 : qform A (0 : Fin o.length → ℝ) = 0 := by unfold qform; simp
      have := hpd (w - S.mulVec (Pi.single t 1)) (sub_ne_zero.mpr hne)
      rw [h0] at h1
      linarith
    have hBt : A.mulVec w = B.mulVec (Pi.single t 1) := by rw [hwe, hw0]
    have hmean : (List.ofFn (B.transpose.mulVec (cg o.length A y))).getD t 0 = w ⬝ᵥ A.mulVec (cg o.length A y) := by
      rw [symm_dot hAs, hBt]
      simp only [List.getD_eq_getElem?_getD]
      simp [mulVec, dotProduct_comm, Matrix.col, Matrix.transpose]
      rfl
    rw [hmean]
    have e2 : w ⬝ᵥ A.mulVec (cg o.length A y) - ∑ i, w i * y i = w ⬝ᵥ (fun i => (∑ j, A i j * cg o.length A y j) - y i) := by
      have : (fun i => (∑ j, A i j * cg o.length A y j) - y i) = A.mulVec (cg o.length A y) - y := rfl
      rw [this, dotProduct_sub]
      rfl
    rw [e2]
    refine (pnorm_dot _ _).trans ?_
    have := hcg o.length A y (fun i j => (congrFun (congrFun hAs j) i)) (fun w hw => by rw [← qform_eq]; exact hpd w hw)
    have hn : 0 ≤ pnorm w := Real.sqrt_nonneg _
    nlinarith

/-- **C84** (regression).  Without inducing points, lumping or `compact_kernel`, for a covariance kernel and non-zero noise, `gaussian_process` returns.  The covariance is symmetric and its quadratic form
at every combination of test observations is the smallest mean squared error of a linear prediction from the noisy training observations; every mean differs from the best linear prediction by at most the tolerance of the iterative solver. -/
theorem C84_regression {d : ℕ} {solve : LinSolver ℝ} (hc : solve.Correct) (hs : solve.Complete) {cg : CgSolver} (hcg : cg.Accurate) {query : BallQuery d} {X : List (Pt d)} {y : List ℝ} {Xt : List (Pt d)}
    {kernel : Option (Kernel d)} {grad : Option (List (Pt d))} {compact : Bool} {sigma : ℝ} (hsig : sigma ≠ 0) (hy : y.length = X.length) (hg : ∀ g, grad = some g → g.length = X.length)
    (hcomp : kernel = none ∨ compact = false) (hk : CovFor (kernel.getD (defaultKernel d)) grad.isSome) :
    ∃ mean cov, gaussianProcess solve cg query X y Xt kernel none grad false compact sigma = some (mean, cov) ∧
      mean.length = (obs Xt grad.isSome).length ∧ cov.length = (obs Xt grad.isSome).length ∧ (∀ r ∈ cov, r.length = (obs Xt grad.isSome).length) ∧
      (∀ t u : Fin (obs Xt grad.isSome).length, rowEntry cov t u = rowEntry cov u t) ∧
      (∀ c, IsLeast (Set.range (predError (obsKer (kernel.getD (defaultKernel d))) (sigma ^ 2) (obs X grad.isSome) (obs Xt grad.isSome) c))
        (∑ t : Fin (obs Xt grad.isSome).length, ∑ u : Fin (obs Xt grad.isSome).length, c t * c u * rowEntry cov t u)) ∧
      (∀ (t : Fin (obs Xt grad.isSome).length) (w : Fin (obs X grad.isSome).length → ℝ),
        (∀ w', predError (obsKer (kernel.getD (defaultKernel d))) (sigma ^ 2) (obs X grad.isSome) (obs Xt grad.isSome) (Pi.single t 1) w ≤
          predError (obsKer (kernel.getD (defaultKernel d))) (sigma ^ 2) (obs X grad.isSome) (obs Xt grad.isSome) (Pi.single t 1) w') →
        |mean.getD t 0 - ∑ i, w i * (obsVals y grad).getD i 0| ≤ 1e-5 * pnorm w * pnorm (fun i : Fin (obs X grad.isSome).length => (obsVals y grad).getD i 0)) := by
  rw [← trainValues_eq]
  unfold gaussianProcess
  rw [if_neg (by simpa using hy.symm)]
  have e1 : gpKernel kernel compact = (kernel.getD (defaultKernel d), none) := by
    unfold gpKernel
    cases kernel with
    | none => rfl
    | some k =>
      rcases hcomp with h | h
      · cases h
      · simp [h]
  simp only [e1]
  set ker := kernel.getD (defaultKernel d) with hker
  obtain ⟨K3, h3, r3⟩ := covMatrix_full query ker X X grad.isSome
  obtain ⟨K2, h2, r2⟩ := covMatrix_full query ker X Xt grad.isSome
  obtain ⟨K1, h1, r1⟩ := covMatrix_full query ker Xt Xt grad.isSome
  rw [gpPlain_core h3 r3 h2 r2 h1 r1]
  have hv : vecOf (trainValues y grad) (obs X grad.isSome).length = some (fun i => (trainValues y grad).getD i.val 0) := by
    unfold vecOf
    rw [if_pos (trainValues_length hy hg)]
  rw [hv, Option.bind_some]
  exact gpCore_spec hc hs hcg (train_symm hk X) (train_symm hk Xt) (train_pd hk X hsig) _

end Gpy
