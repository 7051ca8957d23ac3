import Verif.Props.GaussianProcess5

/-! # C84: `lump_K3` -/

set_option autoImplicit false
namespace Gpy
open Np Matrix

theorem qform_diagonal {n : ℕ} (r w : Fin n → ℝ) : qform (Matrix.diagonal r) w = ∑ i, r i * w i ^ 2 := by
  unfold qform dotProduct
  refine Finset.sum_congr rfl (fun i _ => ?_)
  rw [mulVec_diagonal]
  ring

/-- the core with a diagonal matrix -/
theorem gpCore_diagonal {solve : LinSolver ℝ} (hc : solve.Correct) (hs : solve.Complete) {cg : CgSolver} (hcg : cg.Accurate) {n m : ℕ} {r : Fin n → ℝ} (hr : ∀ i, 0 < r i) (B : Matrix (Fin n) (Fin m) ℝ)
    (K1 : Matrix (Fin m) (Fin m) ℝ) (y : Fin n → ℝ) :
    ∃ mean cov, gpCore solve cg (Matrix.diagonal r) B K1 y = some (mean, cov) ∧ mean.length = m ∧ cov.length = m ∧ (∀ row ∈ cov, row.length = m) ∧
      (∀ t u : Fin m, rowEntry cov t u = K1 t u - ∑ i, B i t * B i u / r i) ∧
      ∀ t : Fin m, |mean.getD t 0 - ∑ i, B i t / r i * y i| ≤ 1e-5 * pnorm (fun i => B i t / r i) * pnorm y := by
  have hpd : ∀ w : Fin n → ℝ, w ≠ 0 → 0 < qform (Matrix.diagonal r) w := by
    intro w hw
    rw [qform_diagonal]
    obtain ⟨i, hi⟩ := Function.ne_iff.mp hw
    refine Finset.sum_pos' (fun j _ => mul_nonneg (hr j).le (sq_nonneg _)) ⟨i, Finset.mem_univ _, mul_pos (hr i) ?_⟩
    have : w i ≠ 0 := hi
    positivity
  obtain ⟨S, hS, hAS⟩ := solveCols_pd hc hs hpd B
  have hSe : ∀ i j, S i j = B i j / r i := by
    intro i j
    have := congrFun (congrFun hAS i) j
    rw [Matrix.diagonal_mul] at this
    rw [eq_div_iff (hr i).ne', ← this]
    ring
  refine ⟨_, _, by unfold gpCore; rw [hS]; rfl, by simp, by simp, ?_, ?_, ?_⟩
  · intro row hrow
    obtain ⟨i, rfl⟩ := (List.mem_ofFn' _ _).mp hrow
    simp
  · intro t u
    rw [rowEntry_ofFn, Matrix.mul_apply]
    congr 1
    refine Finset.sum_congr rfl (fun i _ => ?_)
    rw [hSe, Matrix.transpose_apply]
    ring
  · intro t
    have hx := hcg n (Matrix.diagonal r) y (fun i j => by
      by_cases h : i = j
      · subst h; rfl
      · rw [Matrix.diagonal_apply_ne _ h, Matrix.diagonal_apply_ne _ (Ne.symm h)]) (fun w hw => by rw [← qform_eq]; exact hpd w hw)
    have hm : (List.ofFn (B.transpose.mulVec (cg n (Matrix.diagonal r) y))).getD t 0 = ∑ i, B i t * cg n (Matrix.diagonal r) y i := by
      simp [List.getD_eq_getElem?_getD, mulVec, dotProduct]
    have he : ∀ i, ∑ j, Matrix.diagonal r i j * cg n (Matrix.diagonal r) y j = r i * cg n (Matrix.diagonal r) y i := by
      intro i
      rw [Finset.sum_eq_single i (fun j _ hj => by rw [Matrix.diagonal_apply_ne _ (Ne.symm hj), zero_mul]) (fun h => absurd (Finset.mem_univ _) h), Matrix.diagonal_apply_eq]
    have hd : (∑ i, B i t * cg n (Matrix.diagonal r) y i) - ∑ i, B i t / r i * y i = (fun i => B i t / r i) ⬝ᵥ (fun i => (∑ j, Matrix.diagonal r i j * cg n (Matrix.diagonal r) y j) - y i) := by
      rw [← Finset.sum_sub_distrib]
      refine Finset.sum_congr rfl (fun i _ => ?_)
      change _ = B i t / r i * ((∑ j, Matrix.diagonal r i j * cg n (Matrix.diagonal r) y j) - y i)
      rw [he]
      have := (hr i).ne'
      field_simp
    rw [hm, hd]
    refine (pnorm_dot _ _).trans ?_
    have hn : 0 ≤ pnorm (fun i => B i t / r i) := Real.sqrt_nonneg _
    nlinarith

section
variable {d : ℕ} {solve : LinSolver ℝ} {cg : CgSolver} {query : BallQuery d} {X : List (Pt d)} {y : List ℝ} {Xt : List (Pt d)} {kernel : Option (Kernel d)} {grad : Option (List (Pt d))} {compact : Bool} {sigma : ℝ}

theorem gpKernel_full (hcomp : kernel = none ∨ compact = false) : gpKernel kernel compact = (kernel.getD (defaultKernel d), none) := by
  unfold gpKernel
  cases kernel with
  | none => rfl
  | some k =>
    rcases hcomp with h | h
    · cases h
    · simp [h]

/-- **C84** (lumping).  With `lump_K3=True`, two or more training observations, and row sums `rᵢ = Σⱼ k(oᵢ,oⱼ) + σ²` that are positive, `gaussian_process` returns; the covariance of two test observations is
`k(t,u) - Σᵢ k(oᵢ,t)k(oᵢ,u)/rᵢ` and the mean is `Σᵢ k(oᵢ,t)yᵢ/rᵢ` up to the tolerance of the iterative solver. -/
theorem C84_lumped (hc : solve.Correct) (hs : solve.Complete) (hcg : cg.Accurate) (hy : y.length = X.length) (hg : ∀ g, grad = some g → g.length = X.length)
    (hcomp : kernel = none ∨ compact = false) (h2 : (obs X grad.isSome).length ≠ 1)
    (hr : ∀ i : Fin (obs X grad.isSome).length, 0 < ∑ j : Fin (obs X grad.isSome).length, obsKer (kernel.getD (defaultKernel d)) (obs X grad.isSome)[i] (obs X grad.isSome)[j] + sigma ^ 2) :
    ∃ mean cov, gaussianProcess solve cg query X y Xt kernel none grad true compact sigma = some (mean, cov) ∧
      mean.length = (obs Xt grad.isSome).length ∧ cov.length = (obs Xt grad.isSome).length ∧ (∀ r ∈ cov, r.length = (obs Xt grad.isSome).length) ∧
      (∀ t u : Fin (obs Xt grad.isSome).length, rowEntry cov t u = obsKer (kernel.getD (defaultKernel d)) (obs Xt grad.isSome)[t] (obs Xt grad.isSome)[u] -
        ∑ i : Fin (obs X grad.isSome).length, obsKer (kernel.getD (defaultKernel d)) (obs X grad.isSome)[i] (obs Xt grad.isSome)[t] * obsKer (kernel.getD (defaultKernel d)) (obs X grad.isSome)[i] (obs Xt grad.isSome)[u] /
          (∑ j : Fin (obs X grad.isSome).length, obsKer (kernel.getD (defaultKernel d)) (obs X grad.isSome)[i] (obs X grad.isSome)[j] + sigma ^ 2)) ∧
      ∀ (t : Fin (obs Xt grad.isSome).length) (w : Fin (obs X grad.isSome).length → ℝ),
        (∀ i, w i = obsKer (kernel.getD (defaultKernel d)) (obs X grad.isSome)[i] (obs Xt grad.isSome)[t] / (∑ j : Fin (obs X grad.isSome).length, obsKer (kernel.getD (defaultKernel d)) (obs X grad.isSome)[i] (obs X grad.isSome)[j] + sigma ^ 2)) →
        |mean.getD t 0 - ∑ i, w i * (obsVals y grad).getD i 0| ≤ 1e-5 * pnorm w * pnorm (fun i : Fin (obs X grad.isSome).length => (obsVals y grad).getD i 0) := by
  rw [← trainValues_eq]
  unfold gaussianProcess
  rw [if_neg (by simpa using hy.symm)]
  simp only [gpKernel_full hcomp]
  set ker := kernel.getD (defaultKernel d) with hker
  obtain ⟨K3, h3, r3⟩ := covMatrix_full query ker X X grad.isSome
  obtain ⟨K2, h2', r2⟩ := covMatrix_full query ker X Xt grad.isSome
  obtain ⟨K1, h1, r1⟩ := covMatrix_full query ker Xt Xt grad.isSome
  rw [gpPlain_lump h3 r3 h2' r2 h1 r1 h2]
  have hv : vecOf (trainValues y grad) (obs X grad.isSome).length = some (fun i => (trainValues y grad).getD i.val 0) := by
    unfold vecOf
    rw [if_pos (trainValues_length hy hg)]
  rw [hv, Option.bind_some]
  obtain ⟨mean, cov, e, a1, a2, a3, a4, a5⟩ := gpCore_diagonal hc hs hcg hr (kerMat (obsKer ker) (obs X grad.isSome) (obs Xt grad.isSome)) (kerMat (obsKer ker) (obs Xt grad.isSome) (obs Xt grad.isSome))
    (fun i => (trainValues y grad).getD i.val 0)
  refine ⟨mean, cov, e, a1, a2, a3, a4, fun t w hw => ?_⟩
  have : w = fun i => kerMat (obsKer ker) (obs X grad.isSome) (obs Xt grad.isSome) i t / (∑ j : Fin (obs X grad.isSome).length, obsKer ker (obs X grad.isSome)[i] (obs X grad.isSome)[j] + sigma ^ 2) := funext hw
  rw [this]
  exact a5 t

/-- **C84** (lumping is cautious).  For a covariance kernel with non-negative values between the training observations and non-zero noise, the covariance returned with `lump_K3=True` is nowhere smaller than the one without: at no
combination of test observations does lumping report a smaller variance. -/
theorem C84_lumped_cautious (hc : solve.Correct) (hs : solve.Complete) (hcg : cg.Accurate) (hsig : sigma ≠ 0) (hy : y.length = X.length) (hg : ∀ g, grad = some g → g.length = X.length)
    (hcomp : kernel = none ∨ compact = false) (h2 : (obs X grad.isSome).length ≠ 1) (hk : CovFor (kernel.getD (defaultKernel d)) grad.isSome)
    (h0 : ∀ i j : Fin (obs X grad.isSome).length, 0 ≤ obsKer (kernel.getD (defaultKernel d)) (obs X grad.isSome)[i] (obs X grad.isSome)[j]) :
    ∃ mean cov mean' cov', gaussianProcess solve cg query X y Xt kernel none grad true compact sigma = some (mean, cov) ∧
      gaussianProcess solve cg query X y Xt kernel none grad false compact sigma = some (mean', cov') ∧
      ∀ c : Fin (obs Xt grad.isSome).length → ℝ, 0 ≤ ∑ t : Fin (obs Xt grad.isSome).length, ∑ u : Fin (obs Xt grad.isSome).length, c t * c u * rowEntry cov' t u ∧
        ∑ t : Fin (obs Xt grad.isSome).length, ∑ u : Fin (obs Xt grad.isSome).length, c t * c u * rowEntry cov' t u ≤
        ∑ t : Fin (obs Xt grad.isSome).length, ∑ u : Fin (obs Xt grad.isSome).length, c t * c u * rowEntry cov t u := by
  have hs2 : 0 < sigma ^ 2 := by positivity
  have hr : ∀ i : Fin (obs X grad.isSome).length, 0 < ∑ j : Fin (obs X grad.isSome).length, obsKer (kernel.getD (defaultKernel d)) (obs X grad.isSome)[i] (obs X grad.isSome)[j] + sigma ^ 2 :=
    fun i => add_pos_of_nonneg_of_pos (Finset.sum_nonneg (fun j _ => h0 i j)) hs2
  obtain ⟨mean, cov, e, -, -, -, hcov, -⟩ := C84_lumped (query := query) (Xt := Xt) hc hs hcg hy hg hcomp h2 hr
  obtain ⟨mean', cov', e', -, -, -, -, hleast, -⟩ := C84_regression (query := query) (Xt := Xt) hc hs hcg hsig hy hg hcomp hk
  refine ⟨mean, cov, mean', cov', e, e', ?_⟩
  set ker := kernel.getD (defaultKernel d) with hker
  set o := obs X grad.isSome with ho
  set ot := obs Xt grad.isSome with hot
  set r : Fin o.length → ℝ := fun i => ∑ j : Fin o.length, obsKer ker o[i] o[j] + sigma ^ 2 with hrd
  intro c
  obtain ⟨⟨w0, hw0⟩, hle⟩ := hleast c
  refine ⟨by rw [← hw0]; exact predError_nonneg hk X Xt hs2.le c w0, ?_⟩
  set B := kerMat (obsKer ker) o ot with hB
  refine (hle ⟨fun i => B.mulVec c i / r i, rfl⟩).trans ?_
  rw [predError_eq]
  have hq : qform (kerMat (obsKer ker) o o + sigma ^ 2 • (1 : Matrix (Fin o.length) (Fin o.length) ℝ)) (fun i => B.mulVec c i / r i) ≤ ∑ i, r i * (B.mulVec c i / r i) ^ 2 := by
    change qform _ (fun i => B.mulVec c i / r i) ≤ ∑ i, r i * (fun i => B.mulVec c i / r i) i ^ 2
    generalize (fun i => B.mulVec c i / r i) = w
    have e1 : qform (kerMat (obsKer ker) o o + sigma ^ 2 • (1 : Matrix (Fin o.length) (Fin o.length) ℝ)) w = qform (kerMat (obsKer ker) o o) w + sigma ^ 2 * ∑ i, w i ^ 2 := by
      unfold qform
      rw [add_mulVec, dotProduct_add, smul_mulVec, one_mulVec, dotProduct_smul, smul_eq_mul]
      congr 2
      exact Finset.sum_congr rfl (fun i _ => by ring)
    have e2 : ∑ i, r i * w i ^ 2 = (∑ i, ∑ j, kerMat (obsKer ker) o o i j * w i ^ 2) + sigma ^ 2 * ∑ i, w i ^ 2 := by
      rw [Finset.mul_sum, ← Finset.sum_add_distrib]
      refine Finset.sum_congr rfl (fun i _ => ?_)
      rw [hrd, ← Finset.sum_mul]
      simp only [kerMat]
      ring
    have e3 : (∑ i, ∑ j, kerMat (obsKer ker) o o i j * w i ^ 2) = ∑ i, ∑ j, kerMat (obsKer ker) o o i j * w j ^ 2 := by
      rw [Finset.sum_comm]
      refine Finset.sum_congr rfl (fun i _ => Finset.sum_congr rfl (fun j _ => ?_))
      have := congrFun (congrFun (train_symm hk X) i) j
      rw [Matrix.transpose_apply] at this
      rw [this]
    rw [e1, e2, qform_eq]
    have e4 : 2 * (∑ i, ∑ j, w i * w j * kerMat (obsKer ker) o o i j) ≤ (∑ i, ∑ j, kerMat (obsKer ker) o o i j * w i ^ 2) + ∑ i, ∑ j, kerMat (obsKer ker) o o i j * w j ^ 2 := by
      rw [Finset.mul_sum, ← Finset.sum_add_distrib]
      refine Finset.sum_le_sum (fun i _ => ?_)
      rw [Finset.mul_sum, ← Finset.sum_add_distrib]
      refine Finset.sum_le_sum (fun j _ => ?_)
      have h : 0 ≤ kerMat (obsKer ker) o o i j := h0 i j
      have := mul_nonneg h (sq_nonneg (w i - w j))
      linarith
    linarith
  have hw : (fun i => B.mulVec c i / r i) ⬝ᵥ B.mulVec c = ∑ i, B.mulVec c i ^ 2 / r i := Finset.sum_congr rfl (fun i _ => by ring)
  have hw2 : ∑ i, r i * (B.mulVec c i / r i) ^ 2 = ∑ i, B.mulVec c i ^ 2 / r i := Finset.sum_congr rfl (fun i _ => by
    have := (hr i).ne'
    field_simp)
  have hfin : ∑ t : Fin ot.length, ∑ u : Fin ot.length, c t * c u * rowEntry cov t u = qform (kerMat (obsKer ker) ot ot) c - ∑ i, B.mulVec c i ^ 2 / r i := by
    have e1 : ∑ t : Fin ot.length, ∑ u : Fin ot.length, c t * c u * rowEntry cov t u = (∑ t : Fin ot.length, ∑ u : Fin ot.length, c t * c u * kerMat (obsKer ker) ot ot t u) -
        ∑ t : Fin ot.length, ∑ u : Fin ot.length, ∑ i, c t * c u * (B i t * B i u / r i) := by
      rw [← Finset.sum_sub_distrib]
      refine Finset.sum_congr rfl (fun t _ => ?_)
      rw [← Finset.sum_sub_distrib]
      refine Finset.sum_congr rfl (fun u _ => ?_)
      rw [hcov t u, mul_sub, Finset.mul_sum]
      rfl
    rw [e1, qform_eq]
    congr 1
    have e2 : ∀ i, B.mulVec c i ^ 2 / r i = ∑ t : Fin ot.length, ∑ u : Fin ot.length, c t * c u * (B i t * B i u / r i) := by
      intro i
      have : B.mulVec c i ^ 2 = ∑ t : Fin ot.length, ∑ u : Fin ot.length, (B i t * c t) * (B i u * c u) := by
        rw [sq, ← Finset.sum_mul_sum]
        rfl
      rw [this, Finset.sum_div]
      refine Finset.sum_congr rfl (fun t _ => ?_)
      rw [Finset.sum_div]
      exact Finset.sum_congr rfl (fun u _ => by ring)
    simp only [e2]
    rw [Finset.sum_comm]
    conv_rhs => rw [Finset.sum_comm]
    rw [Finset.sum_comm]
    refine Finset.sum_congr rfl (fun t _ => ?_)
    rw [Finset.sum_comm]
  rw [hfin, hw]
  linarith

/-- **C84** (lumping one observation).  With a single training observation, `lump_K3=True` raises. -/
theorem C84_lumped_one (hcomp : kernel = none ∨ compact = false) (h1 : (obs X grad.isSome).length = 1) : gaussianProcess solve cg query X y Xt kernel none grad true compact sigma = none := by
  unfold gaussianProcess
  split
  · rfl
  · simp only [gpKernel_full hcomp]
    obtain ⟨K3, h3, r3⟩ := covMatrix_full query (kernel.getD (defaultKernel d)) X X grad.isSome
    unfold gpPlain
    rw [h3]
    simp only [Option.bind_eq_bind, Option.bind_some]
    rw [if_pos ⟨trivial, by rw [r3.rows, h1]⟩]
end

/-- the default kernel at two training points: the hypotheses of `C84_lumped_cautious` hold -/
example : ∃ mean cov mean' cov', gaussianProcess exactSolver exactCg (exactQuery 1) [fun _ => 0, fun _ => 1] [3, 5] [fun _ => 0.5] none none none true false 0.02 = some (mean, cov) ∧
    gaussianProcess exactSolver exactCg (exactQuery 1) [fun _ => 0, fun _ => 1] [3, 5] [fun _ => 0.5] none none none false false 0.02 = some (mean', cov') := by
  obtain ⟨a, b, c, e, h, h', -⟩ := C84_lumped_cautious exactSolver_correct exactSolver_complete exactCg_accurate (query := exactQuery 1) (X := [fun _ => 0, fun _ => 1]) (y := [3, 5]) (Xt := [fun _ => 0.5])
    (kernel := none) (grad := none) (compact := false) (sigma := 0.02) (by norm_num) rfl (by simp) (Or.inl rfl) (by simp [obs]) (defaultKernel_cov 1 false) (by
      intro i j
      have hn : ∀ i : Fin (obs (d := 1) [fun _ => 0, fun _ => 1] (none : Option (List (Pt 1))).isSome).length, ((obs (d := 1) [fun _ => 0, fun _ => 1] (none : Option (List (Pt 1))).isSome)[i]).2 = none :=
        fun i => (obs_flag (List.getElem_mem i.isLt)).resolve_left (by simp)
      unfold obsKer
      rw [hn i, hn j]
      simp only [Option.getD_none, defaultKernel, sqExp, sqExpValue]
      positivity)
  exact ⟨a, b, c, e, h, h'⟩

/-- one observation -/
example : gaussianProcess exactSolver exactCg (exactQuery 1) [fun _ => 0] [3] [fun _ => 0.5] none none none true false 0.02 = none := C84_lumped_one (Or.inl rfl) rfl

end Gpy
