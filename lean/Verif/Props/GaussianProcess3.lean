import Verif.Props.GaussianProcess2
import Verif.Props.MatrixFromFunction
import Verif.Props.CsnKernel

/-! # C84: inducing points at the training points; `compact_kernel` -/

set_option autoImplicit false
namespace Gpy
open Np Matrix

/-- an exact iterative solver -/
def CgSolver.Exact (cg : CgSolver) : Prop :=
  ∀ (n : ℕ) (A : Matrix (Fin n) (Fin n) ℝ) (b : Fin n → ℝ), (∀ i j, A i j = A j i) → (∀ w : Fin n → ℝ, w ≠ 0 → 0 < ∑ i, ∑ j, w i * w j * A i j) → ∀ i, ∑ j, A i j * cg n A b j = b i

theorem CgSolver.Exact.eq {cg : CgSolver} (h : cg.Exact) {n : ℕ} {A : Matrix (Fin n) (Fin n) ℝ} (hs : A.transpose = A) (hpd : ∀ w, w ≠ 0 → 0 < qform A w) (b : Fin n → ℝ) : A.mulVec (cg n A b) = b :=
  funext (h n A b (fun i j => congrFun (congrFun hs j) i) (fun w hw => by rw [← qform_eq]; exact hpd w hw))

theorem indCore_same {solve : LinSolver ℝ} (hc : solve.Correct) (hs : solve.Complete) {cg : CgSolver} {n t : ℕ} {sigma : ℝ} (hsig : 0 < sigma) {K : Matrix (Fin n) (Fin n) ℝ} (B : Matrix (Fin n) (Fin t) ℝ)
    (K1 : Matrix (Fin t) (Fin t) ℝ) (y : Fin n → ℝ) (hKs : K.transpose = K) (hKpd : ∀ w, w ≠ 0 → 0 < qform K w) :
    ∃ m1 m2 cov, gpCore solve cg (K + sigma ^ 2 • (1 : Matrix (Fin n) (Fin n) ℝ)) B K1 y = some (m1, cov) ∧ gpIndCore solve cg sigma K K B K1 y = some (m2, cov) ∧ (cg.Exact → m1 = m2) := by
  have hs2 : 0 < 1 / sigma ^ 2 := by positivity
  have hne : sigma ^ 2 ≠ 0 := by positivity
  set A := K + sigma ^ 2 • (1 : Matrix (Fin n) (Fin n) ℝ) with hA
  set Sg := K + (1 / sigma ^ 2) • (K * K.transpose) with hSg
  have hAs : A.transpose = A := by rw [hA, transpose_add, hKs, transpose_smul, transpose_one]
  have hApd : ∀ w, w ≠ 0 → 0 < qform A w := by
    intro w hw
    have e : qform A w = qform K w + sigma ^ 2 * (w ⬝ᵥ w) := by
      unfold qform
      rw [hA, add_mulVec, dotProduct_add, smul_mulVec, one_mulVec, dotProduct_smul, smul_eq_mul]
    have h5 : 0 ≤ w ⬝ᵥ w := Finset.sum_nonneg (fun i _ => mul_self_nonneg _)
    have := hKpd w hw
    have := mul_nonneg (sq_nonneg sigma) h5
    rw [e]; linarith
  have hSgs : Sg.transpose = Sg := by rw [hSg, transpose_add, hKs, transpose_smul, transpose_mul, hKs]
  have hSgpd : ∀ w, w ≠ 0 → 0 < qform Sg w := by
    intro w hw
    rw [hSg, qform_sigma]
    have h5 : 0 ≤ (K.transpose.mulVec w) ⬝ᵥ (K.transpose.mulVec w) := Finset.sum_nonneg (fun i _ => mul_self_nonneg _)
    have := hKpd w hw
    have := mul_nonneg hs2.le h5
    linarith
  have hfac : ∀ v, Sg.mulVec v = K.mulVec (v + (1 / sigma ^ 2) • K.mulVec v) := by
    intro v
    rw [hSg, add_mulVec, Matrix.mulVec_add, mulVec_smul, smul_mulVec, ← mulVec_mulVec, hKs]
  have hA' : ∀ v, A.mulVec ((1 / sigma ^ 2) • K.mulVec v) = K.mulVec (v + (1 / sigma ^ 2) • K.mulVec v) := by
    intro v
    rw [hA, add_mulVec, smul_mulVec, one_mulVec, Matrix.mulVec_add, smul_smul, mul_one_div_cancel hne, one_smul, add_comm]
  obtain ⟨U, hU, hAU⟩ := solveCols_pd hc hs hApd B
  obtain ⟨S, hS, hKS⟩ := solveCols_pd hc hs hKpd B
  obtain ⟨T, hT, hST⟩ := solveCols_pd hc hs hSgpd (K * S)
  have hcov : ∀ i j, K1 i j - (B.transpose * S) i j + (S.transpose * K * T) i j = K1 i j - (B.transpose * U) i j := by
    have h1 : S.transpose * K * T = B.transpose * T := by rw [← hKS, transpose_mul, hKs]
    have h2 : U = S - T := by
      have : ∀ c, U.mulVec c = S.mulVec c - T.mulVec c := by
        intro c
        apply pd_inj' hApd
        have q1 : A.mulVec (U.mulVec c) = B.mulVec c := by rw [mulVec_mulVec, hAU]
        have q2 : K.mulVec (S.mulVec c) = B.mulVec c := by rw [mulVec_mulVec, hKS]
        have q3 : Sg.mulVec (T.mulVec c) = B.mulVec c := by rw [mulVec_mulVec, hST, hKS]
        have q4 : T.mulVec c + (1 / sigma ^ 2) • K.mulVec (T.mulVec c) = S.mulVec c := pd_inj' hKpd (by rw [← hfac, q3, q2])
        have q5 : S.mulVec c - T.mulVec c = (1 / sigma ^ 2) • K.mulVec (T.mulVec c) := by rw [← q4]; simp
        rw [q5, hA', q4, q1, q2]
      ext i j
      have := congrFun (this (Pi.single j 1)) i
      simpa [mulVec_single_one] using this
    intro i j
    rw [h1, h2, Matrix.mul_sub]
    rw [Matrix.sub_apply]
    ring
  refine ⟨_, List.ofFn (B.transpose.mulVec (cg n K ((1 / sigma ^ 2) • K.mulVec (cg n Sg (K.mulVec y))))), _, by unfold gpCore; rw [hU]; rfl, ?_, ?_⟩
  · unfold gpIndCore
    rw [hS, Option.bind_some, hT]
    simp only [Option.map_some, hcov]
    rfl
  · intro he
    congr 2
    apply pd_inj' hApd
    set q := cg n Sg (K.mulVec y) with hq
    have q1 : Sg.mulVec q = K.mulVec y := he.eq hSgs hSgpd _
    have q2 : K.mulVec (cg n K ((1 / sigma ^ 2) • K.mulVec q)) = (1 / sigma ^ 2) • K.mulVec q := he.eq hKs hKpd _
    have q3 : cg n K ((1 / sigma ^ 2) • K.mulVec q) = (1 / sigma ^ 2) • q := pd_inj' hKpd (by rw [q2, mulVec_smul])
    have q4 : q + (1 / sigma ^ 2) • K.mulVec q = y := pd_inj' hKpd (by rw [← hfac, q1])
    have q5 : A.mulVec (cg n A y) = y := he.eq hAs hApd y
    rw [q5, q3, hA, add_mulVec, smul_mulVec, one_mulVec, smul_smul, mul_one_div_cancel hne, one_smul, mulVec_smul, add_comm]
    exact q4.symm

/-- **C84** (inducing points at the training points).  Passing the training points as inducing points gives the same covariance as passing none, and (with an exact iterative solver) the same mean. -/
theorem C84_induced_train {d : ℕ} {solve : LinSolver ℝ} (hc : solve.Correct) (hs : solve.Complete) {cg : CgSolver} {query : BallQuery d} {X : List (Pt d)} {y : List ℝ} {Xt : List (Pt d)}
    {kernel : Option (Kernel d)} {grad : Option (List (Pt d))} {lump compact : Bool} {sigma : ℝ} (hsig : 0 < sigma) (hy : y.length = X.length) (hg : ∀ g, grad = some g → g.length = X.length)
    (hcomp : kernel = none ∨ compact = false) (hk : CovFor (kernel.getD (defaultKernel d)) grad.isSome)
    (hpd : ∀ w : Fin (obs X grad.isSome).length → ℝ, w ≠ 0 → 0 < ∑ i, ∑ j, w i * w j * obsKer (kernel.getD (defaultKernel d)) (obs X grad.isSome)[i] (obs X grad.isSome)[j]) :
    ∃ m1 m2 cov, gaussianProcess solve cg query X y Xt kernel none grad false compact sigma = some (m1, cov) ∧ gaussianProcess solve cg query X y Xt kernel (some X) grad lump compact sigma = some (m2, cov) ∧
      (cg.Exact → m1 = m2) := by
  unfold gaussianProcess
  rw [if_neg (by simpa using hy.symm)]
  have e1 : gpKernel kernel compact = (kernel.getD (defaultKernel d), none) := by
    unfold gpKernel
    cases kernel with
    | none => rfl
    | some k =>
      rcases hcomp with h | h
      · cases h
      · simp [h]
  simp only [e1]
  rw [if_neg (by simpa using hy.symm)]
  set ker := kernel.getD (defaultKernel d) with hker
  obtain ⟨K3, h3, r3⟩ := covMatrix_full query ker X X grad.isSome
  obtain ⟨K2, h2, r2⟩ := covMatrix_full query ker X Xt grad.isSome
  obtain ⟨K1, h1, r1⟩ := covMatrix_full query ker Xt Xt grad.isSome
  rw [gpInduced_core hsig h3 r3 h3 r3 h2 r2 h1 r1, gpPlain_core h3 r3 h2 r2 h1 r1]
  have hv : vecOf (trainValues y grad) (obs X grad.isSome).length = some (fun i => (trainValues y grad).getD i.val 0) := by
    unfold vecOf
    rw [if_pos (trainValues_length hy hg)]
  rw [hv, Option.bind_some, Option.bind_some]
  exact indCore_same hc hs hsig _ _ _ (train_symm hk X) (fun w hw => by rw [qform_eq]; exact hpd w hw)

/-! ### `compact_kernel` -/

/-- The contract of `KDTree(X2).query_ball_point(X1,r)`: for every row of `X1` the numbers of the rows of `X2` at distance at most `r`, each once. -/
def BallQuery.Correct {d : ℕ} (query : BallQuery d) : Prop :=
  ∀ (X2 X1 : List (Pt d)) (r : ℝ), (query X2 X1 r).length = X1.length ∧
    ∀ (i : ℕ) (x : Pt d) (l : List ℕ), X1[i]? = some x → (query X2 X1 r)[i]? = some l → l.Nodup ∧ ∀ j, j ∈ l ↔ ∃ y, X2[j]? = some y ∧ pnorm (fun k => x k - y k) ≤ r

open Classical in
/-- the kernel set to zero at distances larger than `r` -/
noncomputable def cutKernel {d : ℕ} (ker : Kernel d) (r : ℝ) (p q : Pt d × Option (Fin d)) : ℝ := if pnorm (fun k => p.1 k - q.1 k) ≤ r then obsKer ker p q else 0

theorem pattern_zip (ls : List (List ℕ)) (n : ℕ) : ((ls.zipIdx n).flatMap (fun p => List.replicate p.1.length p.2)).zip ls.flatten = (ls.zipIdx n).flatMap (fun p => p.1.map (fun j => (p.2, j))) := by
  induction ls generalizing n with
  | nil => simp
  | cons a t ih =>
    simp only [List.zipIdx_cons, List.flatMap_cons, List.flatten_cons]
    rw [List.zip_append (by simp), ih]
    congr 1
    apply List.ext_getElem
    · simp
    · intro m h1 h2; simp

theorem pattern_count (ls : List (List ℕ)) (n i j : ℕ) : (((ls.zipIdx n).flatMap (fun p => p.1.map (fun j => (p.2, j)))).count (i, j)) = if n ≤ i then ((ls[i - n]?).map (fun l => l.count j)).getD 0 else 0 := by
  induction ls generalizing n with
  | nil => simp
  | cons a t ih =>
    simp only [List.zipIdx_cons, List.flatMap_cons, List.count_append, ih]
    have hz : ∀ m, m ≠ i → List.count (i, j) (a.map (fun j => (m, j))) = 0 := by
      intro m hm
      rw [List.count_eq_zero]
      intro h
      obtain ⟨b, -, hb⟩ := List.mem_map.mp h
      exact hm (Prod.ext_iff.mp hb).1
    by_cases h : n = i
    · subst h
      have : List.count (n, j) (a.map (fun j => (n, j))) = a.count j := by
        exact List.count_map_of_injective a (fun j => (n, j)) (fun x y h => (Prod.ext_iff.mp h).2) j
      simp [this]
    · rw [hz n h]
      by_cases h2 : n ≤ i
      · have h3 : n + 1 ≤ i := by omega
        have h4 : i - n = (i - (n + 1)) + 1 := by omega
        simp only [h2, if_true, h3, zero_add, h4, List.getElem?_cons_succ]
      · simp [h2, show ¬ (n + 1 ≤ i) by omega]

theorem covMatrix_cut {d : ℕ} {query : BallQuery d} (hq : query.Correct) (ker : Kernel d) {X1 : List (Pt d)} (h0 : X1 ≠ []) (X2 : List (Pt d)) (r : ℝ) :
    ∃ M, covMatrix query ker X1 X2 false (some r) = some M ∧ Represents M (obs X1 false) (obs X2 false) (cutKernel ker r) := by
  obtain ⟨hl, hm⟩ := hq X2 X1 r
  set ls := query X2 X1 r with hls
  have hmem : ∀ (l : List ℕ) (i : ℕ), ls[i]? = some l → ∀ j ∈ l, j < X2.length := by
    intro l i hi j hj
    have hi' : i < X1.length := by rw [← hl]; exact (List.getElem?_eq_some_iff.mp hi).1
    obtain ⟨y, hy, -⟩ := ((hm i _ l (List.getElem?_eq_getElem hi') hi).2 j).mp hj
    exact (List.getElem?_eq_some_iff.mp hy).1
  have hlen : (ls.zipIdx.flatMap (fun p => List.replicate p.1.length p.2)).length = ls.flatten.length := by
    have : ∀ (ls : List (List ℕ)) (n : ℕ), ((ls.zipIdx n).flatMap (fun p => List.replicate p.1.length p.2)).length = ls.flatten.length := by
      intro ls
      induction ls with
      | nil => intro n; simp
      | cons a t ih =>
        intro n
        simp only [List.zipIdx_cons, List.flatMap_cons, List.flatten_cons, List.length_append, ih, List.length_replicate]
    exact this ls 0
  obtain ⟨M, h1, h2, h3, h4, h5, -⟩ := mff_pattern (ker none none) X1 X2 (ls.zipIdx.flatMap (fun p => List.replicate p.1.length p.2)) ls.flatten hlen
    (by
      intro i hi
      obtain ⟨p, hp, hi⟩ := List.mem_flatMap.mp hi
      have := (List.getElem?_eq_some_iff.mp (List.mem_zipIdx_iff_getElem?.mp hp)).1
      rw [(List.mem_replicate.mp hi).2, ← hl]
      exact this)
    (by
      intro j hj
      obtain ⟨l, hl', hj⟩ := List.mem_flatten.mp hj
      obtain ⟨i, hi⟩ := List.mem_iff_getElem?.mp hl'
      exact hmem l i hi j hj)
  refine ⟨M, ?_, h2, by simp [obs, h3], by simp [obs, h4], ?_⟩
  · unfold covMatrix
    simp only [Option.map_some, Option.isSome_some, true_and, h0, if_false, Bool.false_eq_true]
    exact h1
  · intro i j p q hp hq'
    simp only [obs, Bool.false_eq_true, if_false, List.getElem?_map, Option.map_eq_some_iff] at hp hq'
    obtain ⟨x, hx, rfl⟩ := hp
    obtain ⟨y, hy, rfl⟩ := hq'
    rw [h5 i j x y hx hy, pattern_zip, pattern_count]
    have hi : i < ls.length := by rw [hl]; exact (List.getElem?_eq_some_iff.mp hx).1
    simp only [Nat.zero_le, if_true, Nat.sub_zero, List.getElem?_eq_getElem hi, Option.map_some, Option.getD_some]
    obtain ⟨hn, hj⟩ := hm i x ls[i] hx (List.getElem?_eq_getElem hi)
    unfold cutKernel obsKer
    simp only
    split
    · next h =>
      rw [List.count_eq_one_of_mem hn ((hj j).mpr ⟨y, hy, h⟩)]
      simp
    · next h =>
      rw [List.count_eq_zero_of_not_mem]
      · simp
      · intro hh
        obtain ⟨y', hy', h'⟩ := (hj j).mp hh
        rw [hy] at hy'
        cases hy'
        exact h h'

theorem kerMat_congr {α : Type} {k k' : α → α → ℝ} {l1 l2 : List α} (h : ∀ p ∈ l1, ∀ q ∈ l2, k p q = k' p q) : kerMat k l1 l2 = kerMat k' l1 l2 := by
  funext i j
  exact h _ (List.getElem_mem i.isLt) _ (List.getElem_mem j.isLt)

/-- **C84** (`compact_kernel`).  Without gradients, `compact_kernel=True` gives the same result as `False` whenever the kernel vanishes between a training point and any training or test point farther away than the
support that was found. -/
theorem C84_compact {d : ℕ} {solve : LinSolver ℝ} {cg : CgSolver} {query : BallQuery d} (hq : query.Correct) {X : List (Pt d)} (h0 : X ≠ []) {y : List ℝ} {Xt : List (Pt d)} {ker : Kernel d} {sigma : ℝ}
    (hcut : ∀ x ∈ X, ∀ z ∈ X ++ Xt, compactSupport ker < pnorm (fun k => x k - z k) → ker none none x z = 0) :
    gaussianProcess solve cg query X y Xt (some ker) none none false true sigma = gaussianProcess solve cg query X y Xt (some ker) none none false false sigma := by
  unfold gaussianProcess
  split
  · rfl
  · simp only [gpKernel, if_true, Bool.false_eq_true, if_false]
    obtain ⟨K3, h3, r3⟩ := covMatrix_full query ker X X false
    obtain ⟨K2, h2, r2⟩ := covMatrix_full query ker X Xt false
    obtain ⟨K1, h1, r1⟩ := covMatrix_full query ker Xt Xt false
    obtain ⟨K3', h3', r3'⟩ := covMatrix_cut hq ker h0 X (compactSupport ker)
    obtain ⟨K2', h2', r2'⟩ := covMatrix_cut hq ker h0 Xt (compactSupport ker)
    rw [gpPlain_core (grad := none) h3 r3 h2 r2 h1 r1, gpPlain_core (grad := none) h3' r3' h2' r2' h1 r1]
    have hc : ∀ Y : List (Pt d), (∀ z ∈ Y, z ∈ X ++ Xt) → ∀ p ∈ obs X false, ∀ q ∈ obs Y false, cutKernel ker (compactSupport ker) p q = obsKer ker p q := by
      intro Y hY p hp q hq
      simp only [obs, Bool.false_eq_true, if_false, List.mem_map] at hp hq
      obtain ⟨x, hx, rfl⟩ := hp
      obtain ⟨z, hz, rfl⟩ := hq
      unfold cutKernel
      split
      · rfl
      · next h => exact (hcut x hx z (hY z hz) (not_le.mp h)).symm
    rw [kerMat_congr (hc X (fun z hz => List.mem_append_left _ hz)), kerMat_congr (hc Xt (fun z hz => List.mem_append_right _ hz))]

end Gpy
