import Verif.Props.GaussianProcess5

/-! # C84: the mean with inducing points is a regularised least squares fit -/

set_option autoImplicit false
namespace Gpy
open Np Matrix

/-- the misfit of `Σ_j α_j k(z_j,·)` at the training observations plus `s2` times its squared norm -/
def fitEnergy {β : Type} (k : β → β → ℝ) (s2 : ℝ) (oz o : List β) (v : List ℝ) (a : Fin oz.length → ℝ) : ℝ :=
  (∑ i : Fin o.length, (v.getD i 0 - ∑ j, a j * k oz[j] o[i]) ^ 2) + s2 * ∑ i, ∑ j, a i * a j * k oz[i] oz[j]

theorem fit_min {m n : ℕ} {Km : Matrix (Fin m) (Fin m) ℝ} {Kx : Matrix (Fin m) (Fin n) ℝ} {s : ℝ} (hs : 0 < s) (hKs : Km.transpose = Km) (hKpd : ∀ w, w ≠ 0 → 0 < qform Km w) (y : Fin n → ℝ) (a : Fin m → ℝ)
    (h : (Km + (1 / s ^ 2) • (Kx * Kx.transpose)).mulVec (s ^ 2 • a) = Kx.mulVec y) (b : Fin m → ℝ) :
    (y - Kx.transpose.mulVec a) ⬝ᵥ (y - Kx.transpose.mulVec a) + s ^ 2 * qform Km a ≤ (y - Kx.transpose.mulVec b) ⬝ᵥ (y - Kx.transpose.mulVec b) + s ^ 2 * qform Km b := by
  have hne : s ^ 2 ≠ 0 := by positivity
  -- the energy is a quadratic form
  have hE : ∀ b : Fin m → ℝ, (y - Kx.transpose.mulVec b) ⬝ᵥ (y - Kx.transpose.mulVec b) + s ^ 2 * qform Km b =
      y ⬝ᵥ y + s ^ 2 * (qform (Km + (1 / s ^ 2) • (Kx * Kx.transpose)) b - 2 * (b ⬝ᵥ ((1 / s ^ 2) • Kx.mulVec y))) := by
    intro b
    have e1 : y ⬝ᵥ Kx.transpose.mulVec b = b ⬝ᵥ Kx.mulVec y := by
      rw [dotProduct_mulVec, vecMul_transpose, dotProduct_comm]
    rw [qform_sigma, sub_dotProduct, dotProduct_sub, dotProduct_sub, dotProduct_comm (Kx.transpose.mulVec b) y, e1, dotProduct_smul, smul_eq_mul]
    field_simp
    ring
  have hSs : (Km + (1 / s ^ 2) • (Kx * Kx.transpose)).transpose = Km + (1 / s ^ 2) • (Kx * Kx.transpose) := by
    rw [transpose_add, hKs, transpose_smul, transpose_mul, transpose_transpose]
  have h' : (Km + (1 / s ^ 2) • (Kx * Kx.transpose)).mulVec a = (1 / s ^ 2) • Kx.mulVec y := by
    rw [← h, mulVec_smul, smul_smul, one_div_mul_cancel hne, one_smul]
  rw [hE, hE, square_complete hSs _ a a h', square_complete hSs _ a b h', sub_self]
  have h0 : qform (Km + (1 / s ^ 2) • (Kx * Kx.transpose)) (0 : Fin m → ℝ) = 0 := by unfold qform; simp
  have h1 : 0 ≤ qform (Km + (1 / s ^ 2) • (Kx * Kx.transpose)) (b - a) := by
    rw [qform_sigma]
    have h5 : 0 ≤ (Kx.transpose.mulVec (b - a)) ⬝ᵥ (Kx.transpose.mulVec (b - a)) := Finset.sum_nonneg (fun i _ => mul_self_nonneg _)
    have h6 : 0 ≤ qform Km (b - a) := by
      by_cases hw : b - a = 0
      · rw [hw]; unfold qform; simp
      · exact (hKpd _ hw).le
    have : 0 ≤ 1 / s ^ 2 := by positivity
    positivity
  rw [h0]
  have : 0 ≤ s ^ 2 := sq_nonneg s
  nlinarith

/-- **C84** (mean with inducing points).  With an exact iterative solver the predicted means are the values of the combination of kernels at the inducing points that minimises the squared misfit at the training
observations plus `sigma^2` times its squared norm. -/
theorem C84_induced_mean {d : ℕ} {solve : LinSolver ℝ} {cg : CgSolver} (he : cg.Exact) {query : BallQuery d} {X : List (Pt d)} {y : List ℝ} {Z Xt : List (Pt d)}
    {kernel : Option (Kernel d)} {grad : Option (List (Pt d))} {lump compact : Bool} {sigma : ℝ} (hsig : 0 < sigma) (hy : y.length = X.length) (hg : ∀ g, grad = some g → g.length = X.length)
    (hcomp : kernel = none ∨ compact = false) (hk : CovFor (kernel.getD (defaultKernel d)) grad.isSome)
    (hpd : ∀ w : Fin (obs Z grad.isSome).length → ℝ, w ≠ 0 → 0 < ∑ i, ∑ j, w i * w j * obsKer (kernel.getD (defaultKernel d)) (obs Z grad.isSome)[i] (obs Z grad.isSome)[j])
    {mean : List ℝ} {cov : List (List ℝ)} (h : gaussianProcess solve cg query X y Xt kernel (some Z) grad lump compact sigma = some (mean, cov)) :
    ∃ a : Fin (obs Z grad.isSome).length → ℝ,
      (∀ b, fitEnergy (obsKer (kernel.getD (defaultKernel d))) (sigma ^ 2) (obs Z grad.isSome) (obs X grad.isSome) (obsVals y grad) a ≤
        fitEnergy (obsKer (kernel.getD (defaultKernel d))) (sigma ^ 2) (obs Z grad.isSome) (obs X grad.isSome) (obsVals y grad) b) ∧
      ∀ t : Fin (obs Xt grad.isSome).length, mean.getD t 0 = ∑ j, a j * obsKer (kernel.getD (defaultKernel d)) (obs Z grad.isSome)[j] (obs Xt grad.isSome)[t] := by
  rw [← trainValues_eq]
  unfold gaussianProcess at h
  rw [if_neg (by simpa using hy.symm)] at h
  have e1 : gpKernel kernel compact = (kernel.getD (defaultKernel d), none) := by
    unfold gpKernel
    cases kernel with
    | none => rfl
    | some k =>
      rcases hcomp with h | h
      · cases h
      · simp [h]
  simp only [e1] at h
  set ker := kernel.getD (defaultKernel d) with hker
  obtain ⟨K3, h3, r3⟩ := covMatrix_full query ker Z Z grad.isSome
  obtain ⟨K4, h4, r4⟩ := covMatrix_full query ker Z X grad.isSome
  obtain ⟨K2, h2, r2⟩ := covMatrix_full query ker Z Xt grad.isSome
  obtain ⟨K1, h1, r1⟩ := covMatrix_full query ker Xt Xt grad.isSome
  rw [gpInduced_core hsig h3 r3 h4 r4 h2 r2 h1 r1] at h
  have hv : vecOf (trainValues y grad) (obs X grad.isSome).length = some (fun i => (trainValues y grad).getD i.val 0) := by
    unfold vecOf
    rw [if_pos (trainValues_length hy hg)]
  rw [hv, Option.bind_some] at h
  have hKs : (kerMat (obsKer ker) (obs Z grad.isSome) (obs Z grad.isSome)).transpose = kerMat (obsKer ker) (obs Z grad.isSome) (obs Z grad.isSome) := train_symm hk Z
  have hKpd : ∀ w, w ≠ 0 → 0 < qform (kerMat (obsKer ker) (obs Z grad.isSome) (obs Z grad.isSome)) w := fun w hw => by rw [qform_eq]; exact hpd w hw
  unfold gpIndCore at h
  obtain ⟨S, -, h⟩ := Option.bind_eq_some_iff.mp h
  obtain ⟨T, -, h⟩ := Option.map_eq_some_iff.mp h
  have hm := (Prod.ext_iff.mp h).1
  simp only at hm
  set Km := kerMat (obsKer ker) (obs Z grad.isSome) (obs Z grad.isSome) with hKm
  set Kx := kerMat (obsKer ker) (obs Z grad.isSome) (obs X grad.isSome) with hKx
  set yv : Fin (obs X grad.isSome).length → ℝ := fun i => (trainValues y grad).getD i.val 0 with hyv
  have hs2 : 0 < 1 / sigma ^ 2 := by positivity
  have hSgs : (Km + (1 / sigma ^ 2) • (Kx * Kx.transpose)).transpose = Km + (1 / sigma ^ 2) • (Kx * Kx.transpose) := by
    rw [transpose_add, hKs, transpose_smul, transpose_mul, transpose_transpose]
  have hSgpd : ∀ w, w ≠ 0 → 0 < qform (Km + (1 / sigma ^ 2) • (Kx * Kx.transpose)) w := by
    intro w hw
    rw [qform_sigma]
    have h5 : 0 ≤ (Kx.transpose.mulVec w) ⬝ᵥ (Kx.transpose.mulVec w) := Finset.sum_nonneg (fun i _ => mul_self_nonneg _)
    have := hKpd w hw
    have := mul_nonneg hs2.le h5
    linarith
  set q := cg (obs Z grad.isSome).length (Km + (1 / sigma ^ 2) • (Kx * Kx.transpose)) (Kx.mulVec yv) with hq
  have q1 : (Km + (1 / sigma ^ 2) • (Kx * Kx.transpose)).mulVec q = Kx.mulVec yv := he.eq hSgs hSgpd _
  have q2 : Km.mulVec (cg _ Km ((1 / sigma ^ 2) • Km.mulVec q)) = (1 / sigma ^ 2) • Km.mulVec q := he.eq hKs hKpd _
  have q3 : cg _ Km ((1 / sigma ^ 2) • Km.mulVec q) = (1 / sigma ^ 2) • q := pd_inj' hKpd (by rw [q2, mulVec_smul])
  rw [q3] at hm
  refine ⟨(1 / sigma ^ 2) • q, fun b => ?_, fun t => ?_⟩
  · have hne : sigma ^ 2 ≠ 0 := by positivity
    have := fit_min (Km := Km) (Kx := Kx) hsig hKs hKpd yv ((1 / sigma ^ 2) • q) (by rw [smul_smul, mul_one_div_cancel hne, one_smul]; exact q1) b
    have hE : ∀ a, fitEnergy (obsKer ker) (sigma ^ 2) (obs Z grad.isSome) (obs X grad.isSome) (trainValues y grad) a = (yv - Kx.transpose.mulVec a) ⬝ᵥ (yv - Kx.transpose.mulVec a) + sigma ^ 2 * qform Km a := by
      intro a
      unfold fitEnergy
      rw [qform_eq]
      congr 1
      unfold dotProduct
      refine Finset.sum_congr rfl (fun i _ => ?_)
      have : Kx.transpose.mulVec a i = ∑ j, a j * obsKer ker (obs Z grad.isSome)[j] (obs X grad.isSome)[i] := by
        unfold mulVec dotProduct
        exact Finset.sum_congr rfl (fun j _ => mul_comm _ _)
      rw [Pi.sub_apply, this, sq]
    rw [hE, hE]
    exact this
  · rw [← hm]
    simp only [List.getD_eq_getElem?_getD]
    simp only [Fin.is_lt, List.getElem?_eq_getElem, List.length_ofFn, Option.getD_some, List.getElem_ofFn]
    unfold mulVec dotProduct
    exact Finset.sum_congr rfl (fun j _ => mul_comm _ _)

end Gpy
