import Verif.Proofs.MatrixFromFunction
import Verif.Props.MinQuad
import Verif.Spec.Kernels
import Mathlib.LinearAlgebra.Matrix.DotProduct
import Mathlib.Order.Bounds.Basic

/-! Linear algebra of Gaussian process regression. -/

set_option autoImplicit false
namespace Gpy
open Np Matrix

/-- the quadratic form of `A` -/
def qform {n : ℕ} (A : Matrix (Fin n) (Fin n) ℝ) (w : Fin n → ℝ) : ℝ := w ⬝ᵥ A.mulVec w

theorem qform_eq {n : ℕ} (A : Matrix (Fin n) (Fin n) ℝ) (w : Fin n → ℝ) : qform A w = ∑ i, ∑ j, w i * w j * A i j := by
  unfold qform dotProduct mulVec dotProduct
  refine Finset.sum_congr rfl (fun i _ => ?_)
  rw [Finset.mul_sum]
  exact Finset.sum_congr rfl (fun j _ => by ring)

theorem symm_dot {n : ℕ} {A : Matrix (Fin n) (Fin n) ℝ} (hA : A.transpose = A) (v w : Fin n → ℝ) : v ⬝ᵥ A.mulVec w = w ⬝ᵥ A.mulVec v := by
  rw [dotProduct_mulVec, ← mulVec_transpose, hA, dotProduct_comm]

/-- completing the square -/
theorem square_complete {n : ℕ} {A : Matrix (Fin n) (Fin n) ℝ} (hA : A.transpose = A) (b w0 w : Fin n → ℝ) (h0 : A.mulVec w0 = b) :
    qform A w - 2 * (w ⬝ᵥ b) = qform A (w - w0) - w0 ⬝ᵥ b := by
  unfold qform
  rw [mulVec_sub, sub_dotProduct, dotProduct_sub, dotProduct_sub, symm_dot hA w0 w, h0]
  ring

theorem pd_inj {n : ℕ} {A : Matrix (Fin n) (Fin n) ℝ} (hpd : ∀ w, w ≠ 0 → 0 < qform A w) (x : Fin n → ℝ) (h : A.mulVec x = 0) : x = 0 := by
  by_contra hx
  have := hpd x hx
  unfold qform at this
  rw [h, dotProduct_zero] at this
  exact lt_irrefl _ this

theorem pd_inj' {n : ℕ} {A : Matrix (Fin n) (Fin n) ℝ} (hpd : ∀ w, w ≠ 0 → 0 < qform A w) {x y : Fin n → ℝ} (h : A.mulVec x = A.mulVec y) : x = y := by
  have : x - y = 0 := pd_inj hpd _ (by rw [mulVec_sub, h, sub_self])
  exact sub_eq_zero.mp this

theorem solve_pd {solve : LinSolver ℝ} (hc : solve.Correct) (hs : solve.Complete) {n : ℕ} {A : Matrix (Fin n) (Fin n) ℝ} (hpd : ∀ w, w ≠ 0 → 0 < qform A w) (b : Fin n → ℝ) :
    ∃ x, solve (Fin n) A b = some x ∧ A.mulVec x = b := by
  obtain ⟨x, hx⟩ := hs (Fin n) A (fun x h => pd_inj hpd x (funext h)) b
  exact ⟨x, hx, funext (hc (Fin n) A b x hx)⟩

theorem solveCols_pd {solve : LinSolver ℝ} (hc : solve.Correct) (hs : solve.Complete) {n m : ℕ} {A : Matrix (Fin n) (Fin n) ℝ} (hpd : ∀ w, w ≠ 0 → 0 < qform A w) (B : Matrix (Fin n) (Fin m) ℝ) :
    ∃ S, solveCols solve A B = some S ∧ A * S = B := by
  choose x hx hA using fun j : Fin m => solve_pd hc hs hpd (fun i => B i j)
  refine ⟨Matrix.of (fun i j => x j i), ?_, ?_⟩
  · unfold solveCols
    rw [mapM_some_map _ _ x (fun j _ => hx j)]
    simp only [Option.map_some, List.map_map, Option.some.injEq]
    ext i j
    simp
  · ext i j
    have := congrFun (hA j) i
    rw [Matrix.mul_apply]
    exact this

/-- from the stacked lists to matrices -/
def kerMat {α : Type} (k : α → α → ℝ) (l1 l2 : List α) : Matrix (Fin l1.length) (Fin l2.length) ℝ := fun i j => k l1[i] l2[j]

noncomputable section

/-- regression with given matrices -/
def gpCore (solve : LinSolver ℝ) (cg : CgSolver) {n m : ℕ} (A : Matrix (Fin n) (Fin n) ℝ) (B : Matrix (Fin n) (Fin m) ℝ) (K1 : Matrix (Fin m) (Fin m) ℝ) (y : Fin n → ℝ) : Option (List ℝ × List (List ℝ)) :=
  (solveCols solve A B).map (fun S => (List.ofFn (B.transpose.mulVec (cg n A y)), List.ofFn (fun i => List.ofFn (fun j => K1 i j - (B.transpose * S) i j))))

theorem gpPlain_core {d : ℕ} {solve : LinSolver ℝ} {cg : CgSolver} {query : BallQuery d} {ker : Kernel d} {support : Option ℝ} {X : List (Pt d)} {y : List ℝ} {grad : Option (List (Pt d))}
    {Xt : List (Pt d)} {sigma : ℝ} {K3 K2 K1 : Csr ℝ} {β : Type} {o ot : List β} {k3 k2 k1 : β → β → ℝ}
    (h3 : covMatrix query ker X X grad.isSome support = some K3) (r3 : Represents K3 o o k3)
    (h2 : covMatrix query ker X Xt grad.isSome support = some K2) (r2 : Represents K2 o ot k2)
    (h1 : covMatrix query ker Xt Xt grad.isSome none = some K1) (r1 : Represents K1 ot ot k1) :
    gpPlain solve cg query ker support X y grad Xt false sigma =
      (vecOf (trainValues y grad) o.length).bind (fun yv => gpCore solve cg (kerMat k3 o o + sigma ^ 2 • (1 : Matrix (Fin o.length) (Fin o.length) ℝ)) (kerMat k2 o ot) (kerMat k1 ot ot) yv) := by
  unfold gpPlain
  rw [h3, h2, h1]
  simp only [Option.bind_eq_bind, Option.bind_some, Bool.false_eq_true, false_and, if_false]
  obtain ⟨n3, c3, t3⟩ := K3
  obtain ⟨n2, c2, t2⟩ := K2
  obtain ⟨n1, c1, t1⟩ := K1
  have e1 := r3.rows
  have e2 := r2.rows
  have e3 := r2.cols
  simp only at e1 e2 e3
  subst e1 e2 e3
  have eA : gpSystem false sigma ⟨o.length, c3, t3⟩ = kerMat k3 o o + sigma ^ 2 • (1 : Matrix (Fin o.length) (Fin o.length) ℝ) := by
    ext i j
    simp only [gpSystem, Bool.false_eq_true, if_false, Matrix.add_apply, Matrix.smul_apply, smul_eq_mul, Matrix.one_apply, kerMat]
    rw [r3.entry i.val j.val _ _ (List.getElem?_eq_getElem i.isLt) (List.getElem?_eq_getElem j.isLt)]
    rfl
  have eB : (fun (i : Fin o.length) (j : Fin ot.length) => Csr.get ⟨o.length, ot.length, t2⟩ i.val j.val) = kerMat k2 o ot := by
    funext i j
    exact r2.entry i.val j.val _ _ (List.getElem?_eq_getElem i.isLt) (List.getElem?_eq_getElem j.isLt)
  have eC : ∀ i j : Fin ot.length, Csr.get ⟨n1, c1, t1⟩ i.val j.val = kerMat k1 ot ot i j := by
    intro i j
    exact r1.entry i.val j.val _ _ (List.getElem?_eq_getElem i.isLt) (List.getElem?_eq_getElem j.isLt)
  simp only [dite_true, eA, eB, eC]
  congr 1
  funext yv
  unfold gpCore
  cases solveCols solve (kerMat k3 o o + sigma ^ 2 • (1 : Matrix (Fin o.length) (Fin o.length) ℝ)) (kerMat k2 o ot) <;> rfl

/-- lumped: the diagonal of row sums -/
theorem gpPlain_lump {d : ℕ} {solve : LinSolver ℝ} {cg : CgSolver} {query : BallQuery d} {ker : Kernel d} {support : Option ℝ} {X : List (Pt d)} {y : List ℝ} {grad : Option (List (Pt d))}
    {Xt : List (Pt d)} {sigma : ℝ} {K3 K2 K1 : Csr ℝ} {β : Type} {o ot : List β} {k3 k2 k1 : β → β → ℝ}
    (h3 : covMatrix query ker X X grad.isSome support = some K3) (r3 : Represents K3 o o k3)
    (h2 : covMatrix query ker X Xt grad.isSome support = some K2) (r2 : Represents K2 o ot k2)
    (h1 : covMatrix query ker Xt Xt grad.isSome none = some K1) (r1 : Represents K1 ot ot k1) (hne : o.length ≠ 1) :
    gpPlain solve cg query ker support X y grad Xt true sigma =
      (vecOf (trainValues y grad) o.length).bind (fun yv => gpCore solve cg (Matrix.diagonal (fun i : Fin o.length => ∑ j : Fin o.length, k3 o[i] o[j] + sigma ^ 2)) (kerMat k2 o ot) (kerMat k1 ot ot) yv) := by
  unfold gpPlain
  rw [h3, h2, h1]
  simp only [Option.bind_eq_bind, Option.bind_some, true_and]
  rw [if_neg (by rw [r3.rows]; exact hne)]
  obtain ⟨n3, c3, t3⟩ := K3
  obtain ⟨n2, c2, t2⟩ := K2
  obtain ⟨n1, c1, t1⟩ := K1
  have e1 := r3.rows
  have e2 := r2.rows
  have e3 := r2.cols
  simp only at e1 e2 e3
  subst e1 e2 e3
  have e4 : c3 = o.length := r3.cols
  subst e4
  have eA : gpSystem true sigma ⟨o.length, o.length, t3⟩ = Matrix.diagonal (fun i : Fin o.length => ∑ j : Fin o.length, k3 o[i] o[j] + sigma ^ 2) := by
    ext i j
    have es : ∀ i : Fin o.length, ∑ k ∈ Finset.range o.length, Csr.get ⟨o.length, o.length, t3⟩ i.val k = ∑ j : Fin o.length, k3 o[i] o[j] := by
      intro i
      rw [Finset.sum_range]
      exact Finset.sum_congr rfl (fun j _ => r3.entry i.val j.val _ _ (List.getElem?_eq_getElem i.isLt) (List.getElem?_eq_getElem j.isLt))
    simp only [gpSystem, if_true, es]
    by_cases h : i = j
    · subst h; simp
    · simp [h]
  have eB : (fun (i : Fin o.length) (j : Fin ot.length) => Csr.get ⟨o.length, ot.length, t2⟩ i.val j.val) = kerMat k2 o ot := by
    funext i j
    exact r2.entry i.val j.val _ _ (List.getElem?_eq_getElem i.isLt) (List.getElem?_eq_getElem j.isLt)
  have eC : ∀ i j : Fin ot.length, Csr.get ⟨n1, c1, t1⟩ i.val j.val = kerMat k1 ot ot i j := by
    intro i j
    exact r1.entry i.val j.val _ _ (List.getElem?_eq_getElem i.isLt) (List.getElem?_eq_getElem j.isLt)
  simp only [dite_true, eA, eB, eC]
  congr 1
  funext yv
  unfold gpCore
  cases solveCols solve (Matrix.diagonal (fun i : Fin o.length => ∑ j : Fin o.length, k3 o[i] o[j] + sigma ^ 2)) (kerMat k2 o ot) <;> rfl

end

theorem predError_eq {α : Type} (k : α → α → ℝ) (s2 : ℝ) (train test : List α) (c : Fin test.length → ℝ) (w : Fin train.length → ℝ) :
    predError k s2 train test c w = qform (kerMat k test test) c - 2 * (w ⬝ᵥ (kerMat k train test).mulVec c) + qform (kerMat k train train + s2 • (1 : Matrix (Fin train.length) (Fin train.length) ℝ)) w := by
  unfold predError
  have e1 : qform (kerMat k test test) c = ∑ t, ∑ u, c t * c u * k test[t] test[u] := qform_eq _ _
  have e2 : w ⬝ᵥ (kerMat k train test).mulVec c = ∑ i, ∑ t, w i * c t * k train[i] test[t] := by
    unfold dotProduct mulVec dotProduct
    refine Finset.sum_congr rfl (fun i _ => ?_)
    rw [Finset.mul_sum]
    exact Finset.sum_congr rfl (fun j _ => by simp only [kerMat]; ring)
  have e3 : qform (kerMat k train train + s2 • (1 : Matrix (Fin train.length) (Fin train.length) ℝ)) w = (∑ i, ∑ j, w i * w j * k train[i] train[j]) + s2 * ∑ i, w i ^ 2 := by
    have : qform (kerMat k train train + s2 • (1 : Matrix (Fin train.length) (Fin train.length) ℝ)) w = qform (kerMat k train train) w + s2 * (w ⬝ᵥ w) := by
      unfold qform
      rw [add_mulVec, dotProduct_add, smul_mulVec, one_mulVec, dotProduct_smul, smul_eq_mul]
    rw [this, qform_eq]
    congr 2
    unfold dotProduct
    exact Finset.sum_congr rfl (fun i _ => by ring)
  rw [e1, e2, e3]
  ring

end Gpy
