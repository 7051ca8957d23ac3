import Verif.Props.GaussianProcess4

/-! # C84: non-trivial cases -/

set_option autoImplicit false
namespace Gpy
open Np Matrix

/-- a solver that meets the contracts -/
noncomputable def exactCg : CgSolver := fun n A b => open Classical in if h : ∃ x : Fin n → ℝ, ∀ i, ∑ j, A i j * x j = b i then h.choose else 0

theorem exactCg_exact : exactCg.Exact := by
  intro n A b hsym hpd
  obtain ⟨x, hx⟩ := exactSolver_complete (K := ℝ) (Fin n) A (fun x h => pd_inj (A := A) (fun w hw => by rw [qform_eq]; exact hpd w hw) x (funext h)) b
  have hx' := exactSolver_correct (K := ℝ) (Fin n) A b x hx
  have h : ∃ x : Fin n → ℝ, ∀ i, ∑ j, A i j * x j = b i := ⟨x, hx'⟩
  intro i
  unfold exactCg
  rw [dif_pos h]
  exact h.choose_spec i

theorem exactCg_accurate : exactCg.Accurate := by
  intro n A b hsym hpd
  have h := exactCg_exact n A b hsym hpd
  have : (fun i => (∑ j, A i j * exactCg n A b j) - b i) = fun _ => 0 := funext (fun i => by rw [h i, sub_self])
  rw [this]
  have h0 : pnorm (fun _ : Fin n => (0 : ℝ)) = 0 := by simp [pnorm, psq]
  rw [h0]
  have : 0 ≤ pnorm b := Real.sqrt_nonneg _
  positivity

/-- a ball query that meets its contract -/
noncomputable def exactQuery (d : ℕ) : BallQuery d := fun X2 X1 r => open Classical in
  X1.map (fun x => (List.range X2.length).filter (fun j => decide (∃ y, X2[j]? = some y ∧ pnorm (fun k => x k - y k) ≤ r)))

theorem exactQuery_correct (d : ℕ) : (exactQuery d).Correct := by
  intro X2 X1 r
  refine ⟨by simp [exactQuery], ?_⟩
  intro i x l hx hl
  simp only [exactQuery, List.getElem?_map, hx, Option.map_some, Option.some.injEq] at hl
  subst hl
  refine ⟨List.nodup_range.filter _, fun j => ?_⟩
  simp only [List.mem_filter, List.mem_range, decide_eq_true_eq, and_iff_right_iff_imp]
  rintro ⟨y, hy, -⟩
  exact (List.getElem?_eq_some_iff.mp hy).1

theorem defaultKernel_cov (d : ℕ) (g : Bool) : CovFor (defaultKernel d) g := by
  have h := C81_covariance (d := d) (0.2 : ℝ) 1 (by norm_num) (by norm_num)
  unfold CovFor
  cases g with
  | true => simp only [if_true]; exact h
  | false =>
    simp only [Bool.false_eq_true, if_false]
    exact ⟨fun x y => h.symm (x, none) (y, none), fun n x w => h.nonneg n (fun i => (x i, none)) w⟩

/-- regression with the default kernel and observed gradients: all hypotheses of `C84_regression` hold -/
example : ∃ mean cov, gaussianProcess exactSolver exactCg (exactQuery 1) [fun _ => 0, fun _ => 1] [3, 5] [fun _ => 0.5] none none (some [fun _ => 2, fun _ => 2]) false false 0.02 = some (mean, cov) ∧
    mean.length = 2 := by
  obtain ⟨mean, cov, h, hl, -⟩ := C84_regression exactSolver_correct exactSolver_complete exactCg_accurate (query := exactQuery 1) (X := [fun _ => 0, fun _ => 1]) (y := [3, 5]) (Xt := [fun _ => 0.5])
    (kernel := none) (grad := some [fun _ => 2, fun _ => 2]) (compact := false) (sigma := 0.02) (by norm_num) rfl (by simp) (Or.inl rfl) (defaultKernel_cov 1 true)
  exact ⟨mean, cov, h, by rw [hl]; simp [obs, List.finRange_succ]⟩

/-- one inducing point: the hypothesis of `C84_induced` holds -/
example : ∃ mean cov, gaussianProcess exactSolver exactCg (exactQuery 2) [fun _ => 0, fun _ => 1] [3, 5] [fun _ => 0.5] none (some [fun _ => 0.25]) none false false 0.02 = some (mean, cov) ∧
    0 ≤ rowEntry cov 0 0 ∧ rowEntry cov 0 0 ≤ 1 := by
  obtain ⟨mean, cov, h, -, -, -, -, hl⟩ := C84_induced exactSolver_correct exactSolver_complete (cg := exactCg) (query := exactQuery 2) (X := [fun _ => 0, fun _ => 1]) (y := [3, 5]) (Z := [fun _ => 0.25])
    (Xt := [fun _ => 0.5]) (kernel := none) (grad := none) (lump := false) (compact := false) (sigma := 0.02) (by norm_num) rfl (by simp) (Or.inl rfl) (defaultKernel_cov 2 false) (by
      intro w hw
      simp only [Option.getD_none, Option.isSome_none]
      have e : ∀ (w : Fin 1 → ℝ), w ≠ 0 → 0 < ∑ i : Fin 1, ∑ j : Fin 1, w i * w j * obsKer (defaultKernel 2) ((fun _ => 0.25), none) ((fun _ => 0.25), none) := by
        intro w hw
        have : w 0 ≠ 0 := fun h => hw (funext (fun i => by rw [Subsingleton.elim i 0]; exact h))
        have h1 : obsKer (defaultKernel 2) ((fun _ => 0.25), none) ((fun _ => 0.25), none) = 1 := by
          simp [obsKer, defaultKernel, sqExp, sqExpValue]
        simp only [h1, Fin.sum_univ_one, mul_one]
        exact mul_self_pos.mpr this
      exact (e w hw).trans_eq (Finset.sum_congr rfl (fun i _ => Finset.sum_congr rfl (fun j _ => by
        have hi : i = (0 : Fin 1) := Subsingleton.elim (α := Fin 1) i 0
        have hj : j = (0 : Fin 1) := Subsingleton.elim (α := Fin 1) j 0
        subst hi hj
        rfl))))
  refine ⟨mean, cov, h, ?_⟩
  obtain ⟨h1, -, h3⟩ := hl (fun _ => 1)
  have e1 : ∑ t : Fin 1, ∑ u : Fin 1, (1 : ℝ) * 1 * rowEntry cov t u = rowEntry cov 0 0 := by simp
  have e2 : ∑ t : Fin 1, ∑ u : Fin 1, (1 : ℝ) * 1 * obsKer (defaultKernel 2) ((fun _ => 0.5), none) ((fun _ => 0.5), none) = 1 := by
    simp [obsKer, defaultKernel, sqExp, sqExpValue]
  refine ⟨e1 ▸ h1, ?_⟩
  refine (e1 ▸ h3 : rowEntry cov 0 0 ≤ _).trans_eq ?_
  refine Eq.trans ?_ e2
  refine Finset.sum_congr rfl (fun i _ => Finset.sum_congr rfl (fun j _ => ?_))
  have hi : i = (0 : Fin 1) := Subsingleton.elim (α := Fin 1) i 0
  have hj : j = (0 : Fin 1) := Subsingleton.elim (α := Fin 1) j 0
  subst hi hj
  rfl

/-- the compactly supported kernel of length 1 on the line, at distance 3/2 from the only training point: the hypotheses of `C84_compact_violated` hold -/
example : ∃ mean cov mean' cov', gaussianProcess exactSolver exactCg (exactQuery 1) [fun _ => 0] [1] [fun _ => 1.5] (some (csnKernel 1 1)) none none false true 0.02 = some (mean, cov) ∧
    gaussianProcess exactSolver exactCg (exactQuery 1) [fun _ => 0] [1] [fun _ => 1.5] (some (csnKernel 1 1)) none none false false 0.02 = some (mean', cov') ∧ mean = [0] ∧ rowEntry cov' 0 0 < rowEntry cov 0 0 := by
  have hpsd : PsdKernel (csnKernel (d := 1) 1 1 none none) := by
    have h := C82_covariance (d := 1) (1 : ℝ) 1 (by norm_num) (by norm_num)
    exact ⟨fun x y => h.symm (x, none) (y, none), fun n x w => h.nonneg n (fun i => (x i, none)) w⟩
  have hval : ∀ x y : Pt 1, csnKernel 1 1 none none x y = cubicB (x 0 - y 0) := by
    intro x y
    simp [csnKernel, csnFactor]
  have hcf : CovFor (csnKernel (d := 1) 1 1) false := by unfold CovFor; simpa using hpsd
  have habs : ∀ x y : Pt 1, pnorm (fun k => x k - y k) = |x 0 - y 0| := by
    intro x y
    simp [pnorm, psq, Real.sqrt_sq_eq_abs]
  have hrad : ∀ x y : Pt 1, csnKernel 1 1 none none x y = cubicB (pnorm (fun k => x k - y k)) := by
    intro x y
    rw [hval, habs]
    rcases abs_choice (x 0 - y 0) with h | h
    · rw [h]
    · rw [h, cubicB_even]
  obtain ⟨mean', cov', h', -⟩ := C84_regression exactSolver_correct exactSolver_complete exactCg_accurate (query := exactQuery 1) (X := [fun _ => 0]) (y := [1]) (Xt := [fun _ => 1.5])
    (kernel := some (csnKernel 1 1)) (grad := none) (compact := false) (sigma := 0.02) (by norm_num) rfl (by simp) (Or.inr rfl) hcf
  -- with the cut the matrix is still positive definite
  have hret : ∃ mean cov, gaussianProcess exactSolver exactCg (exactQuery 1) [fun _ => 0] [1] [fun _ => 1.5] (some (csnKernel 1 1)) none none false true 0.02 = some (mean, cov) := by
    unfold gaussianProcess
    rw [if_neg (by simp)]
    simp only [gpKernel, if_true]
    obtain ⟨K1, h1, r1⟩ := covMatrix_full (exactQuery 1) (csnKernel 1 1) [fun _ => 1.5] [fun _ => 1.5] false
    obtain ⟨K3', h3', r3'⟩ := covMatrix_cut (exactQuery_correct 1) (csnKernel 1 1) (X1 := [fun _ => 0]) (by simp) [fun _ => 0] (compactSupport (csnKernel (d := 1) 1 1))
    obtain ⟨K2', h2', r2'⟩ := covMatrix_cut (exactQuery_correct 1) (csnKernel 1 1) (X1 := [fun _ => 0]) (by simp) [fun _ => 1.5] (compactSupport (csnKernel (d := 1) 1 1))
    rw [gpPlain_core (grad := none) h3' r3' h2' r2' h1 r1]
    have hv : vecOf (trainValues [1] (none : Option (List (Pt 1)))) (obs [fun _ : Fin 1 => (0 : ℝ)] false).length = some (fun i => [(1 : ℝ)].getD i.val 0) := rfl
    rw [hv, Option.bind_some]
    obtain ⟨S, hS, -⟩ := solveCols_pd exactSolver_correct exactSolver_complete
      (A := kerMat (cutKernel (csnKernel 1 1) (compactSupport (csnKernel (d := 1) 1 1))) (obs [fun _ : Fin 1 => (0 : ℝ)] false) (obs [fun _ : Fin 1 => (0 : ℝ)] false) + (0.02 : ℝ) ^ 2 • (1 : Matrix (Fin (obs [fun _ : Fin 1 => (0 : ℝ)] false).length) (Fin (obs [fun _ : Fin 1 => (0 : ℝ)] false).length) ℝ)) (by
        intro w hw
        have e : ∀ (M : Matrix (Fin 1) (Fin 1) ℝ), 0 ≤ M 0 0 → ∀ w : Fin 1 → ℝ, w ≠ 0 → 0 < qform (M + (0.02 : ℝ) ^ 2 • (1 : Matrix (Fin 1) (Fin 1) ℝ)) w := by
          intro M hM w hw
          have hw0 : w 0 ≠ 0 := fun h => hw (funext (fun i => by rw [Subsingleton.elim i 0]; exact h))
          rw [qform_eq]
          simp only [Fin.sum_univ_one, Matrix.add_apply, Matrix.smul_apply, Matrix.one_apply_eq, smul_eq_mul, mul_one]
          have := mul_self_pos.mpr hw0
          nlinarith
        refine e _ ?_ w hw
        show 0 ≤ cutKernel (csnKernel 1 1) (compactSupport (csnKernel (d := 1) 1 1)) ((fun _ => 0), none) ((fun _ => 0), none)
        unfold cutKernel
        split
        · simp only [obsKer]
          rw [hval]
          exact (cubicB_pos (by norm_num)).le
        · exact le_rfl) (kerMat (cutKernel (csnKernel 1 1) (compactSupport (csnKernel (d := 1) 1 1))) (obs [fun _ : Fin 1 => (0 : ℝ)] false) (obs [fun _ : Fin 1 => (1.5 : ℝ)] false))
    unfold gpCore
    rw [hS]
    exact ⟨_, _, rfl⟩
  obtain ⟨mean, cov, h⟩ := hret
  refine ⟨mean, cov, mean', cov', h, h', ?_⟩
  have := C84_compact_violated (by norm_num) exactSolver_correct exactSolver_complete exactCg_accurate (exactQuery_correct 1) hpsd cubicB hrad 2 (by norm_num)
    (fun r hr => cubicB_zero (by rw [abs_of_nonneg (by linarith)]; exact hr)) (X := [fun _ => 0]) (by simp) rfl (by norm_num) (fun _ => 1.5)
    (by
      intro x hx
      rw [List.mem_singleton.mp hx, habs]
      refine lt_of_le_of_lt (min_le_left _ _) ?_
      norm_num [abs_of_nonneg, abs_lt])
    ⟨_, List.mem_singleton.mpr rfl, by
      rw [hval]
      refine (cubicB_pos ?_).ne'
      rw [abs_lt]; norm_num⟩ h h'
  refine ⟨this.1, ?_⟩
  rw [this.2.1]
  exact this.2.2

end Gpy
