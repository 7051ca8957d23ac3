import Verif.Props.GaussianProcess
import Mathlib.Data.List.NodupEquivFin

/-! # C84: variance, more data, inducing points -/

set_option autoImplicit false
namespace Gpy
open Np Matrix

theorem quad_single {n : ℕ} (f : Fin n → Fin n → ℝ) (t : Fin n) : ∑ a, ∑ b, (Pi.single t (1 : ℝ) : Fin n → ℝ) a * (Pi.single t (1 : ℝ) : Fin n → ℝ) b * f a b = f t t := by
  rw [Finset.sum_eq_single t]
  · rw [Finset.sum_eq_single t]
    · simp
    · intro b _ hb; simp [hb]
    · simp
  · intro b _ hb; simp [hb]
  · simp

/-- **C84** (variance).  The predicted variances are between zero and the prior variance, and the covariance matrix is positive semidefinite. -/
theorem C84_variance {d : ℕ} {solve : LinSolver ℝ} (hc : solve.Correct) (hs : solve.Complete) {cg : CgSolver} (hcg : cg.Accurate) {query : BallQuery d} {X : List (Pt d)} {y : List ℝ} {Xt : List (Pt d)}
    {kernel : Option (Kernel d)} {grad : Option (List (Pt d))} {compact : Bool} {sigma : ℝ} (hsig : sigma ≠ 0) (hy : y.length = X.length) (hg : ∀ g, grad = some g → g.length = X.length)
    (hcomp : kernel = none ∨ compact = false) (hk : CovFor (kernel.getD (defaultKernel d)) grad.isSome) {mean : List ℝ} {cov : List (List ℝ)}
    (h : gaussianProcess solve cg query X y Xt kernel none grad false compact sigma = some (mean, cov)) :
    (∀ c : Fin (obs Xt grad.isSome).length → ℝ, 0 ≤ ∑ t : Fin (obs Xt grad.isSome).length, ∑ u : Fin (obs Xt grad.isSome).length, c t * c u * rowEntry cov t u) ∧
    ∀ t : Fin (obs Xt grad.isSome).length, 0 ≤ rowEntry cov t t ∧ rowEntry cov t t ≤ obsKer (kernel.getD (defaultKernel d)) (obs Xt grad.isSome)[t] (obs Xt grad.isSome)[t] := by
  obtain ⟨mean', cov', h', -, -, -, -, hl, -⟩ := C84_regression hc hs hcg (query := query) (Xt := Xt) hsig hy hg hcomp hk
  rw [h] at h'
  cases h'
  have hpos : ∀ c : Fin (obs Xt grad.isSome).length → ℝ, 0 ≤ ∑ t : Fin (obs Xt grad.isSome).length, ∑ u : Fin (obs Xt grad.isSome).length, c t * c u * rowEntry cov t u := by
    intro c
    obtain ⟨w, hw⟩ := (hl c).1
    rw [← hw]
    exact predError_nonneg hk X Xt (sq_nonneg _) c w
  refine ⟨hpos, fun t => ?_⟩
  have e := quad_single (fun a b : Fin (obs Xt grad.isSome).length => rowEntry cov a b) t
  refine ⟨by rw [← e]; exact hpos _, ?_⟩
  rw [← e]
  refine ((hl (Pi.single t 1)).2 ⟨0, rfl⟩).trans_eq ?_
  unfold predError
  simp only [Pi.zero_apply, zero_mul, Finset.sum_const_zero, mul_zero, sub_zero, add_zero]
  simp only [ne_eq, OfNat.ofNat_ne_zero, not_false_eq_true, zero_pow, Finset.sum_const_zero, mul_zero, add_zero]
  exact quad_single (fun a b : Fin (obs Xt grad.isSome).length => obsKer (kernel.getD (defaultKernel d)) (obs Xt grad.isSome)[a] (obs Xt grad.isSome)[b]) t

theorem obs_sublist {d : ℕ} (X X' : List (Pt d)) (g : Bool) : (obs X g).Sublist (obs (X ++ X') g) := by
  unfold obs
  split
  · generalize (none :: (List.finRange d).map some) = as
    induction as with
    | nil => simp
    | cons a t ih =>
      simp only [List.flatMap_cons]
      exact List.Sublist.append (List.Sublist.map _ (List.sublist_append_left X X')) ih
  · exact List.Sublist.map _ (List.sublist_append_left X X')

theorem predError_extend {α : Type} (k : α → α → ℝ) (s2 : ℝ) {o o' : List α} (hsub : o.Sublist o') (ot : List α) (c : Fin ot.length → ℝ) (w : Fin o.length → ℝ) :
    ∃ w', predError k s2 o' ot c w' = predError k s2 o ot c w := by
  obtain ⟨e, he⟩ := List.sublist_iff_exists_fin_orderEmbedding_get_eq.mp hsub
  have hinj : Function.Injective e := e.injective
  refine ⟨Function.extend e w 0, ?_⟩
  have hsum : ∀ f : Fin o'.length → ℝ, ∑ i, Function.extend e w 0 i * f i = ∑ i, w i * f (e i) := by
    intro f
    symm
    refine Fintype.sum_of_injective e hinj _ _ ?_ ?_
    · intro i hi
      rw [Function.extend_apply' _ _ _ (by simpa using hi)]
      simp
    · intro i
      rw [hinj.extend_apply]
  have hget : ∀ i : Fin o.length, o'[e i] = o[i] := fun i => (he i).symm
  unfold predError
  have e1 : ∑ i, ∑ t, Function.extend e w 0 i * c t * k o'[i] ot[t] = ∑ i, ∑ t, w i * c t * k o[i] ot[t] := by
    have := hsum (fun i => ∑ t, c t * k o'[i] ot[t])
    simp only [Finset.mul_sum, hget, ← mul_assoc] at this
    exact this
  have e2 : ∑ i, ∑ j, Function.extend e w 0 i * Function.extend e w 0 j * k o'[i] o'[j] = ∑ i, ∑ j, w i * w j * k o[i] o[j] := by
    have h1 := hsum (fun i => ∑ j, Function.extend e w 0 j * k o'[i] o'[j])
    have h2 : ∀ i : Fin o'.length, ∑ j, Function.extend e w 0 j * k o'[i] o'[j] = ∑ j, w j * k o'[i] o[j] := by
      intro i
      have := hsum (fun j => k o'[i] o'[j])
      simpa only [hget] using this
    simp only [h2] at h1
    simp only [hget] at h1
    refine Eq.trans ?_ (h1.trans ?_)
    · refine Finset.sum_congr rfl (fun i _ => ?_)
      rw [← h2, Finset.mul_sum]
      exact Finset.sum_congr rfl (fun j _ => by ring)
    · refine Finset.sum_congr rfl (fun i _ => ?_)
      rw [Finset.mul_sum]
      exact Finset.sum_congr rfl (fun j _ => by ring)
  have e3 : ∑ i, Function.extend e w 0 i ^ 2 = ∑ i, w i ^ 2 := by
    have := hsum (Function.extend e w 0)
    simp only [hinj.extend_apply] at this
    simpa only [sq] using this
  rw [e1, e2, e3]

/-- **C84** (more data).  Adding training points never increases the predicted variance of any combination of test observations, whatever values are observed there. -/
theorem C84_more_data {d : ℕ} {solve : LinSolver ℝ} (hc : solve.Correct) (hs : solve.Complete) {cg : CgSolver} (hcg : cg.Accurate) {query : BallQuery d} {X X' : List (Pt d)} {y y' : List ℝ} {Xt : List (Pt d)}
    {kernel : Option (Kernel d)} {grad grad' : Option (List (Pt d))} {compact : Bool} {sigma : ℝ} (hsig : sigma ≠ 0) (hy : y.length = X.length) (hg : ∀ g, grad = some g → g.length = X.length)
    (hy' : y'.length = (X ++ X').length) (hg' : ∀ g, grad' = some g → g.length = (X ++ X').length) (hgg : grad'.isSome = grad.isSome)
    (hcomp : kernel = none ∨ compact = false) (hk : CovFor (kernel.getD (defaultKernel d)) grad.isSome) {mean mean' : List ℝ} {cov cov' : List (List ℝ)}
    (h : gaussianProcess solve cg query X y Xt kernel none grad false compact sigma = some (mean, cov))
    (h' : gaussianProcess solve cg query (X ++ X') y' Xt kernel none grad' false compact sigma = some (mean', cov')) (c : Fin (obs Xt grad.isSome).length → ℝ) :
    ∑ t : Fin (obs Xt grad.isSome).length, ∑ u : Fin (obs Xt grad.isSome).length, c t * c u * rowEntry cov' t u ≤
      ∑ t : Fin (obs Xt grad.isSome).length, ∑ u : Fin (obs Xt grad.isSome).length, c t * c u * rowEntry cov t u := by
  obtain ⟨m1, c1, q1, -, -, -, -, hl, -⟩ := C84_regression hc hs hcg (query := query) (Xt := Xt) hsig hy hg hcomp hk
  obtain ⟨m2, c2, q2, -, -, -, -, hl', -⟩ := C84_regression hc hs hcg (query := query) (Xt := Xt) (grad := grad') hsig hy' hg' hcomp (by rw [hgg]; exact hk)
  rw [h] at q1
  rw [h'] at q2
  cases q1
  cases q2
  rw [hgg] at hl'
  obtain ⟨w, hw⟩ := (hl c).1
  obtain ⟨w', hw'⟩ := predError_extend (obsKer (kernel.getD (defaultKernel d))) (sigma ^ 2) (obs_sublist X X' grad.isSome) (obs Xt grad.isSome) c w
  rw [← hw, ← hw']
  exact (hl' c).2 ⟨w', rfl⟩

/-! ### Inducing points -/

noncomputable section

/-- regression through inducing points, with given matrices -/
def gpIndCore (solve : LinSolver ℝ) (cg : CgSolver) {m n t : ℕ} (sigma : ℝ) (Km : Matrix (Fin m) (Fin m) ℝ) (Kx : Matrix (Fin m) (Fin n) ℝ) (B : Matrix (Fin m) (Fin t) ℝ) (K1 : Matrix (Fin t) (Fin t) ℝ)
    (y : Fin n → ℝ) : Option (List ℝ × List (List ℝ)) :=
  (solveCols solve Km B).bind (fun S => (solveCols solve (Km + (1 / sigma ^ 2) • (Kx * Kx.transpose)) (Km * S)).map (fun T =>
    (List.ofFn (B.transpose.mulVec (cg m Km ((1 / sigma ^ 2) • Km.mulVec (cg m (Km + (1 / sigma ^ 2) • (Kx * Kx.transpose)) (Kx.mulVec y))))),
      List.ofFn (fun i => List.ofFn (fun j => K1 i j - (B.transpose * S) i j + (S.transpose * Km * T) i j)))))

theorem gpInduced_core {d : ℕ} {solve : LinSolver ℝ} {cg : CgSolver} {query : BallQuery d} {ker : Kernel d} {support : Option ℝ} {X : List (Pt d)} {y : List ℝ} {grad : Option (List (Pt d))}
    {Z Xt : List (Pt d)} {sigma : ℝ} (hsig : 0 < sigma) {Kmm Kmn K2 K1 : Csr ℝ} {β : Type} {o oz ot : List β} {k3 k4 k2 k1 : β → β → ℝ}
    (h3 : covMatrix query ker Z Z grad.isSome none = some Kmm) (r3 : Represents Kmm oz oz k3)
    (h4 : covMatrix query ker Z X grad.isSome none = some Kmn) (r4 : Represents Kmn oz o k4)
    (h2 : covMatrix query ker Z Xt grad.isSome support = some K2) (r2 : Represents K2 oz ot k2)
    (h1 : covMatrix query ker Xt Xt grad.isSome none = some K1) (r1 : Represents K1 ot ot k1) :
    gpInduced solve cg query ker support X y grad Z Xt sigma =
      (vecOf (trainValues y grad) o.length).bind (fun yv => gpIndCore solve cg sigma (kerMat k3 oz oz) (kerMat k4 oz o) (kerMat k2 oz ot) (kerMat k1 ot ot) yv) := by
  unfold gpInduced
  rw [if_neg (by simpa using hsig), h3, h4, h2, h1]
  simp only [Option.bind_eq_bind, Option.bind_some]
  obtain ⟨n3, c3, t3⟩ := Kmm
  obtain ⟨n4, c4, t4⟩ := Kmn
  obtain ⟨n2, c2, t2⟩ := K2
  obtain ⟨n1, c1, t1⟩ := K1
  have e1 := r3.rows
  have e2 := r4.cols
  have e3 := r2.cols
  simp only at e1 e2 e3
  subst e1 e2 e3
  have eA : (fun (i j : Fin oz.length) => Csr.get ⟨oz.length, c3, t3⟩ i.val j.val) = kerMat k3 oz oz := by
    funext i j
    exact r3.entry i.val j.val _ _ (List.getElem?_eq_getElem i.isLt) (List.getElem?_eq_getElem j.isLt)
  have eD : (fun (i : Fin oz.length) (j : Fin o.length) => Csr.get ⟨n4, o.length, t4⟩ i.val j.val) = kerMat k4 oz o := by
    funext i j
    exact r4.entry i.val j.val _ _ (List.getElem?_eq_getElem i.isLt) (List.getElem?_eq_getElem j.isLt)
  have eB : (fun (i : Fin oz.length) (j : Fin ot.length) => Csr.get ⟨n2, ot.length, t2⟩ i.val j.val) = kerMat k2 oz ot := by
    funext i j
    exact r2.entry i.val j.val _ _ (List.getElem?_eq_getElem i.isLt) (List.getElem?_eq_getElem j.isLt)
  have eC : ∀ i j : Fin ot.length, Csr.get ⟨n1, c1, t1⟩ i.val j.val = kerMat k1 ot ot i j := by
    intro i j
    exact r1.entry i.val j.val _ _ (List.getElem?_eq_getElem i.isLt) (List.getElem?_eq_getElem j.isLt)
  simp only [eA, eB, eC, eD]
  congr 1
  funext yv
  unfold gpIndCore
  congr 1
  funext S
  cases solveCols solve (kerMat k3 oz oz + (1 / sigma ^ 2) • (kerMat k4 oz o * (kerMat k4 oz o).transpose)) (kerMat k3 oz oz * S) <;> rfl

end

theorem qform_gram {m n : ℕ} (Kx : Matrix (Fin m) (Fin n) ℝ) (w : Fin m → ℝ) : qform (Kx * Kx.transpose) w = (Kx.transpose.mulVec w) ⬝ᵥ (Kx.transpose.mulVec w) := by
  unfold qform
  rw [← mulVec_mulVec, dotProduct_mulVec, ← mulVec_transpose]

theorem qform_sigma {m n : ℕ} (Km : Matrix (Fin m) (Fin m) ℝ) (Kx : Matrix (Fin m) (Fin n) ℝ) (s : ℝ) (w : Fin m → ℝ) :
    qform (Km + s • (Kx * Kx.transpose)) w = qform Km w + s * ((Kx.transpose.mulVec w) ⬝ᵥ (Kx.transpose.mulVec w)) := by
  rw [← qform_gram]
  unfold qform
  rw [add_mulVec, dotProduct_add, smul_mulVec, dotProduct_smul, smul_eq_mul]

theorem gpIndCore_spec {solve : LinSolver ℝ} (hc : solve.Correct) (hs : solve.Complete) {cg : CgSolver} {α : Type} {k : α → α → ℝ} {sigma : ℝ} (hsig : 0 < sigma) {oz o ot : List α}
    (hKs : (kerMat k oz oz).transpose = kerMat k oz oz) (hKts : (kerMat k ot ot).transpose = kerMat k ot ot) (hKpd : ∀ w, w ≠ 0 → 0 < qform (kerMat k oz oz) w)
    (hpe0 : ∀ c w, predError k 0 oz ot c w = qform (kerMat k ot ot) c - 2 * (w ⬝ᵥ (kerMat k oz ot).mulVec c) + qform (kerMat k oz oz) w)
    (hpn : ∀ c w, 0 ≤ predError k 0 oz ot c w) (y : Fin o.length → ℝ) :
    ∃ mean cov, gpIndCore solve cg sigma (kerMat k oz oz) (kerMat k oz o) (kerMat k oz ot) (kerMat k ot ot) y = some (mean, cov) ∧
      mean.length = ot.length ∧ cov.length = ot.length ∧ (∀ r ∈ cov, r.length = ot.length) ∧ (∀ t u : Fin ot.length, rowEntry cov t u = rowEntry cov u t) ∧
      ∀ c : Fin ot.length → ℝ, 0 ≤ ∑ t : Fin ot.length, ∑ u : Fin ot.length, c t * c u * rowEntry cov t u ∧
        (∃ w, predError k 0 oz ot c w ≤ ∑ t : Fin ot.length, ∑ u : Fin ot.length, c t * c u * rowEntry cov t u) ∧
        ∑ t : Fin ot.length, ∑ u : Fin ot.length, c t * c u * rowEntry cov t u ≤ ∑ t : Fin ot.length, ∑ u : Fin ot.length, c t * c u * k ot[t] ot[u] := by
  set Km := kerMat k oz oz with hKm
  set Kx := kerMat k oz o with hKx
  set B := kerMat k oz ot with hB
  set Kt := kerMat k ot ot with hKt
  set Sg := Km + (1 / sigma ^ 2) • (Kx * Kx.transpose) with hSg
  have hs2 : 0 < 1 / sigma ^ 2 := by positivity
  have hSgpd : ∀ w, w ≠ 0 → 0 < qform Sg w := by
    intro w hw
    rw [hSg, qform_sigma]
    have h5 : 0 ≤ (Kx.transpose.mulVec w) ⬝ᵥ (Kx.transpose.mulVec w) := Finset.sum_nonneg (fun i _ => mul_self_nonneg _)
    have := hKpd w hw
    have := mul_nonneg hs2.le h5
    linarith
  have hSgs : Sg.transpose = Sg := by
    rw [hSg, transpose_add, hKs, transpose_smul, transpose_mul, transpose_transpose]
  obtain ⟨S, hS, hKS⟩ := solveCols_pd hc hs hKpd B
  obtain ⟨T, hT, hST⟩ := solveCols_pd hc hs hSgpd (Km * S)
  rw [hKS] at hST
  have hcov : S.transpose * Km * T = B.transpose * T := by
    rw [← hKS, transpose_mul, hKs]
  have hsymS : (B.transpose * S).transpose = B.transpose * S := by
    have : B.transpose * S = S.transpose * Km * S := by rw [← hKS, transpose_mul, hKs, Matrix.mul_assoc]
    rw [this]
    simp only [transpose_mul, transpose_transpose, hKs, Matrix.mul_assoc]
  have hsymT : (B.transpose * T).transpose = B.transpose * T := by
    have : B.transpose * T = T.transpose * Sg * T := by
      conv_lhs => rw [← hST]
      rw [transpose_mul, hSgs, Matrix.mul_assoc]
    rw [this]
    simp only [transpose_mul, transpose_transpose, hSgs, Matrix.mul_assoc]
  refine ⟨_, _, by unfold gpIndCore; rw [hS, Option.bind_some, hT]; rfl, by simp, by simp, ?_, ?_, ?_⟩
  · intro r hr
    obtain ⟨i, rfl⟩ := (List.mem_ofFn' _ _).mp hr
    simp
  · intro t u
    rw [rowEntry_ofFn, rowEntry_ofFn, hcov]
    have q1 := congrFun (congrFun hKts t) u
    have q2 := congrFun (congrFun hsymS t) u
    have q3 := congrFun (congrFun hsymT t) u
    rw [transpose_apply] at q1 q2 q3
    rw [q1, q2, q3]
  · intro c
    have e : ∑ t : Fin ot.length, ∑ u : Fin ot.length, c t * c u * rowEntry (List.ofFn (fun i => List.ofFn (fun j => Kt i j - (B.transpose * S) i j + (S.transpose * Km * T) i j))) t u =
        qform Kt c - (S.mulVec c) ⬝ᵥ B.mulVec c + (T.mulVec c) ⬝ᵥ B.mulVec c := by
      simp only [rowEntry_ofFn, hcov]
      have q1 := (qform_eq (Kt - B.transpose * S + B.transpose * T) c).symm
      rw [show (∑ t : Fin ot.length, ∑ u : Fin ot.length, c t * c u * (Kt t u - (B.transpose * S) t u + (B.transpose * T) t u)) = qform (Kt - B.transpose * S + B.transpose * T) c from q1]
      unfold qform
      rw [add_mulVec, sub_mulVec, dotProduct_add, dotProduct_sub, ← mulVec_mulVec, ← mulVec_mulVec, dotProduct_mulVec c B.transpose, dotProduct_mulVec c B.transpose, vecMul_transpose, dotProduct_comm (B.mulVec c),
        dotProduct_comm (B.mulVec c)]
    rw [e]
    have hks : Km.mulVec (S.mulVec c) = B.mulVec c := by rw [mulVec_mulVec, hKS]
    have hsg : Sg.mulVec (T.mulVec c) = B.mulVec c := by rw [mulVec_mulVec, hST]
    have hTn : (T.mulVec c) ⬝ᵥ B.mulVec c = qform Sg (T.mulVec c) := by unfold qform; rw [hsg]
    have hSn : (S.mulVec c) ⬝ᵥ B.mulVec c = qform Km (S.mulVec c) := by unfold qform; rw [hks]
    have hnn : ∀ (A : Matrix (Fin oz.length) (Fin oz.length) ℝ), (∀ w, w ≠ 0 → 0 < qform A w) → ∀ w, 0 ≤ qform A w := by
      intro A hA w
      by_cases hw : w = 0
      · subst hw; unfold qform; simp
      · exact (hA w hw).le
    have hlow : predError k 0 oz ot c (S.mulVec c) ≤ qform Kt c - (S.mulVec c) ⬝ᵥ B.mulVec c + (T.mulVec c) ⬝ᵥ B.mulVec c := by
      rw [hpe0, hTn, ← hSn]
      have := hnn Sg hSgpd (T.mulVec c)
      linarith
    refine ⟨(hpn c (S.mulVec c)).trans hlow, ⟨_, hlow⟩, ?_⟩
    -- the inverse is monotone
    have hsq := square_complete hKs (B.mulVec c) (S.mulVec c) (T.mulVec c) hks
    have h5 := hnn Km hKpd (T.mulVec c - S.mulVec c)
    have h6 : qform Km (T.mulVec c) ≤ qform Sg (T.mulVec c) := by
      rw [hSg, qform_sigma]
      have h7 : 0 ≤ (Kx.transpose.mulVec (T.mulVec c)) ⬝ᵥ (Kx.transpose.mulVec (T.mulVec c)) := Finset.sum_nonneg (fun i _ => mul_self_nonneg _)
      have := mul_nonneg hs2.le h7
      linarith
    have hfin : qform Kt c - (S.mulVec c) ⬝ᵥ B.mulVec c + (T.mulVec c) ⬝ᵥ B.mulVec c ≤ qform Kt c := by linarith
    refine hfin.trans_eq ?_
    rw [qform_eq]
    rfl

/-- **C84** (inducing points).  For a covariance kernel that is strictly positive definite at the inducing observations and positive noise, `gaussian_process` with inducing points returns; the covariance is
symmetric, at least the covariance that exact data at the inducing points would leave, hence positive semidefinite, and at most the prior covariance. -/
theorem C84_induced {d : ℕ} {solve : LinSolver ℝ} (hc : solve.Correct) (hs : solve.Complete) {cg : CgSolver} {query : BallQuery d} {X : List (Pt d)} {y : List ℝ} {Z Xt : List (Pt d)}
    {kernel : Option (Kernel d)} {grad : Option (List (Pt d))} {lump compact : Bool} {sigma : ℝ} (hsig : 0 < sigma) (hy : y.length = X.length) (hg : ∀ g, grad = some g → g.length = X.length)
    (hcomp : kernel = none ∨ compact = false) (hk : CovFor (kernel.getD (defaultKernel d)) grad.isSome)
    (hpd : ∀ w : Fin (obs Z grad.isSome).length → ℝ, w ≠ 0 → 0 < ∑ i, ∑ j, w i * w j * obsKer (kernel.getD (defaultKernel d)) (obs Z grad.isSome)[i] (obs Z grad.isSome)[j]) :
    ∃ mean cov, gaussianProcess solve cg query X y Xt kernel (some Z) grad lump compact sigma = some (mean, cov) ∧
      mean.length = (obs Xt grad.isSome).length ∧ cov.length = (obs Xt grad.isSome).length ∧ (∀ r ∈ cov, r.length = (obs Xt grad.isSome).length) ∧
      (∀ t u : Fin (obs Xt grad.isSome).length, rowEntry cov t u = rowEntry cov u t) ∧
      ∀ c : Fin (obs Xt grad.isSome).length → ℝ,
        0 ≤ ∑ t : Fin (obs Xt grad.isSome).length, ∑ u : Fin (obs Xt grad.isSome).length, c t * c u * rowEntry cov t u ∧
        (∃ w, predError (obsKer (kernel.getD (defaultKernel d))) 0 (obs Z grad.isSome) (obs Xt grad.isSome) c w ≤
          ∑ t : Fin (obs Xt grad.isSome).length, ∑ u : Fin (obs Xt grad.isSome).length, c t * c u * rowEntry cov t u) ∧
        ∑ t : Fin (obs Xt grad.isSome).length, ∑ u : Fin (obs Xt grad.isSome).length, c t * c u * rowEntry cov t u ≤
          ∑ t : Fin (obs Xt grad.isSome).length, ∑ u : Fin (obs Xt grad.isSome).length, c t * c u * obsKer (kernel.getD (defaultKernel d)) (obs Xt grad.isSome)[t] (obs Xt grad.isSome)[u] := by
  unfold gaussianProcess
  rw [if_neg (by simpa using hy.symm)]
  have e1 : gpKernel kernel compact = (kernel.getD (defaultKernel d), none) := by
    unfold gpKernel
    cases kernel with
    | none => rfl
    | some k =>
      rcases hcomp with h | h
      · cases h
      · simp [h]
  simp only [e1]
  set ker := kernel.getD (defaultKernel d) with hker
  obtain ⟨K3, h3, r3⟩ := covMatrix_full query ker Z Z grad.isSome
  obtain ⟨K4, h4, r4⟩ := covMatrix_full query ker Z X grad.isSome
  obtain ⟨K2, h2, r2⟩ := covMatrix_full query ker Z Xt grad.isSome
  obtain ⟨K1, h1, r1⟩ := covMatrix_full query ker Xt Xt grad.isSome
  rw [gpInduced_core hsig h3 r3 h4 r4 h2 r2 h1 r1]
  have hv : vecOf (trainValues y grad) (obs X grad.isSome).length = some (fun i => (trainValues y grad).getD i.val 0) := by
    unfold vecOf
    rw [if_pos (trainValues_length hy hg)]
  rw [hv, Option.bind_some]
  have hKs : (kerMat (obsKer ker) (obs Z grad.isSome) (obs Z grad.isSome)).transpose = kerMat (obsKer ker) (obs Z grad.isSome) (obs Z grad.isSome) := train_symm hk Z
  have hKts : (kerMat (obsKer ker) (obs Xt grad.isSome) (obs Xt grad.isSome)).transpose = kerMat (obsKer ker) (obs Xt grad.isSome) (obs Xt grad.isSome) := train_symm hk Xt
  have hKpd : ∀ w, w ≠ 0 → 0 < qform (kerMat (obsKer ker) (obs Z grad.isSome) (obs Z grad.isSome)) w := fun w hw => by rw [qform_eq]; exact hpd w hw
  have hpe0 : ∀ c w, predError (obsKer ker) 0 (obs Z grad.isSome) (obs Xt grad.isSome) c w = qform (kerMat (obsKer ker) (obs Xt grad.isSome) (obs Xt grad.isSome)) c - 2 * (w ⬝ᵥ (kerMat (obsKer ker) (obs Z grad.isSome) (obs Xt grad.isSome)).mulVec c) + qform (kerMat (obsKer ker) (obs Z grad.isSome) (obs Z grad.isSome)) w := by
    intro c w
    have := predError_eq (obsKer ker) 0 (obs Z grad.isSome) (obs Xt grad.isSome) c w
    rwa [zero_smul, add_zero] at this
  have hpn : ∀ c w, 0 ≤ predError (obsKer ker) 0 (obs Z grad.isSome) (obs Xt grad.isSome) c w := fun c w => predError_nonneg hk Z Xt le_rfl c w
  exact gpIndCore_spec hc hs hsig hKs hKts hKpd hpe0 hpn _

end Gpy
