import Verif.Proofs.Elasticity

/-! The stiffness matrix as a bilinear form. -/

set_option autoImplicit false
namespace Gpy
open Np Finset

variable {V : List (Pt 2)} {F : List Tri}

theorem mulE_apply (N k : ℕ) (f g : ℕ → ℕ → ℝ) (y : ℕ → ℝ) (i : ℕ) : ∑ j ∈ range N, mulE k f g i j * y j = ∑ l ∈ range k, f i l * ∑ j ∈ range N, g l j * y j := by
  simp only [mulE, Finset.sum_mul, Finset.mul_sum]
  rw [Finset.sum_comm]
  exact Finset.sum_congr rfl (fun l _ => Finset.sum_congr rfl (fun j _ => by ring))

/-- the strain energy form on one triangle, for strains `(p0,p1,p2)`, `(q0,q1,q2)` -/
def stressForm (l mu p0 p1 p2 q0 q1 q2 : ℝ) : ℝ := p0 * ((l + 2 * mu) * q0 + l * q1) + p1 * (l * q0 + (l + 2 * mu) * q1) + p2 * (mu * q2)

/-- the strain energy form on triangle `t` for the unknowns `x`, `y` -/
noncomputable def strainForm (V : List (Pt 2)) (l mu : ℝ) (t : Tri) (x y : ℕ → ℝ) : ℝ :=
  stressForm l mu (grad2 V t x 0) (grad2 V t (fun j => x (V.length + j)) 1) (grad2 V t x 1 + grad2 V t (fun j => x (V.length + j)) 0)
    (grad2 V t y 0) (grad2 V t (fun j => y (V.length + j)) 1) (grad2 V t y 1 + grad2 V t (fun j => y (V.length + j)) 0)

theorem diags_nrows (v : List ℝ) : (Csr.diags v).nrows = v.length := rfl
theorem diags_ncols (v : List ℝ) : (Csr.diags v).ncols = v.length := rfl

theorem volBlock (v : List ℝ) : let A := blockDiag2 (Csr.diags v) (blockDiag2 (Csr.diags v) (Csr.diags v))
    A.WF ∧ A.nrows = 3 * v.length ∧ A.ncols = 3 * v.length ∧ ∀ w f, f < v.length →
      A.mulVec w f = v.getD f 0 * w f ∧ A.mulVec w (v.length + f) = v.getD f 0 * w (v.length + f) ∧ A.mulVec w (2 * v.length + f) = v.getD f 0 * w (2 * v.length + f) := by
  intro A
  obtain ⟨w1, r1, c1, h1, h2⟩ := blockDiag2_spec (diags_wf v) (diags_wf v)
  obtain ⟨w2, r2, c2, h3, h4⟩ := blockDiag2_spec (diags_wf v) w1
  simp only [diags_nrows, diags_ncols] at r1 c1 h1 h2 r2 c2 h3 h4
  refine ⟨w2, by rw [show A.nrows = _ from r2, r1]; omega, by rw [show A.ncols = _ from c2, c1]; omega, fun w f hf => ⟨?_, ?_, ?_⟩⟩
  · rw [show A.mulVec w f = _ from h3 w f hf, diags_mulVec v w hf]
  · rw [show A.mulVec w (v.length + f) = _ from h4 w f, h1 _ f hf, diags_mulVec v _ hf]
  · rw [show 2 * v.length + f = v.length + (v.length + f) by omega, show A.mulVec w _ = _ from h4 w _, h2, diags_mulVec v _ hf]

theorem sum_three (m : ℕ) (f : ℕ → ℝ) : ∑ r ∈ range (3 * m), f r = ∑ r ∈ range m, (f r + f (m + r) + f (2 * m + r)) := by
  rw [show 3 * m = m + m + m by omega, Finset.sum_range_add, Finset.sum_range_add, Finset.sum_add_distrib, Finset.sum_add_distrib]
  simp only [two_mul]

theorem stressForm_symm (l mu p0 p1 p2 q0 q1 q2 : ℝ) : stressForm l mu p0 p1 p2 q0 q1 q2 = stressForm l mu q0 q1 q2 p0 p1 p2 := by
  unfold stressForm; ring

theorem elastic_core {K mu : ℝ} {volumes : Option (List ℝ)} {mass : Option (Csr ℝ)} (hF : InRange F V.length) (hA : ∀ t ∈ F, wedge2 V t ≠ 0) (hn : V.length ≤ 2 * F.length)
    {v : List ℝ} (hv : elementVolumes V F volumes = some v) (hvl : v.length = F.length) {M : Csr ℝ} (hM : elementMass V F mass = some M) :
    ∃ E, elasticStiffness V F K mu volumes mass = some E ∧ E.M = blockDiag2 M M ∧ E.K.nrows = 2 * V.length ∧ E.K.ncols = 2 * V.length ∧
      strainMatrix V F = some E.strain ∧ elasticC (K - 2 / 3 * mu) mu F.length = some E.C ∧
      (∀ x y : ℕ → ℝ, ∑ i ∈ range (2 * V.length), ∑ j ∈ range (2 * V.length), x i * E.K.get i j * y j =
        ∑ f : Fin F.length, v.getD f 0 * strainForm V (K - 2 / 3 * mu) mu F[f] x y) := by
  obtain ⟨S, eS, wS, rS, cS, hS⟩ := strain_ok hF hA hn
  obtain ⟨C, eC, wC, rC, cC, hC⟩ := elasticC_ok (K - 2 / 3 * mu) mu F.length
  obtain ⟨wA, rA, cA, hAA⟩ := volBlock v
  rw [hvl] at rA cA hAA
  set A := blockDiag2 (Csr.diags v) (blockDiag2 (Csr.diags v) (Csr.diags v)) with hAdef
  refine ⟨⟨⟨S.ncols, S.ncols, mulE C.ncols (mulE A.ncols (mulE S.nrows (fun i r => S.get r i) A.get) C.get) S.get⟩, C, S, A, blockDiag2 M M⟩, ?_, rfl, cS, cS, eS, eC, ?_⟩
  · unfold elasticStiffness
    rw [eS, hv]
    simp only [Option.bind_eq_bind, Option.bind_some]
    rw [eC, hM]
    simp only [Option.bind_some]
    unfold elasticAssemble
    rw [if_pos ⟨by rw [← hAdef, rA, rS], by rw [← hAdef, rC, cA]⟩]
  intro x y
  simp only
  have h1 : ∀ i, ∑ j ∈ range (2 * V.length), x i * mulE C.ncols (mulE A.ncols (mulE S.nrows (fun i r => S.get r i) A.get) C.get) S.get i j * y j =
      x i * ∑ r ∈ range (3 * F.length), S.get r i * A.mulVec (C.mulVec (S.mulVec y)) r := by
    intro i
    simp only [mul_assoc]
    rw [← Finset.mul_sum, mulE_apply, mulE_apply, mulE_apply, rS]
    simp only [Csr.mulVec, cS]
  rw [Finset.sum_congr rfl (fun i _ => h1 i)]
  have h2 : ∑ i ∈ range (2 * V.length), x i * ∑ r ∈ range (3 * F.length), S.get r i * A.mulVec (C.mulVec (S.mulVec y)) r =
      ∑ r ∈ range (3 * F.length), S.mulVec x r * A.mulVec (C.mulVec (S.mulVec y)) r := by
    have : ∀ r, S.mulVec x r = ∑ i ∈ range (2 * V.length), S.get r i * x i := fun r => by rw [Csr.mulVec, cS]
    simp only [this, Finset.mul_sum, Finset.sum_mul]
    rw [Finset.sum_comm]
    exact Finset.sum_congr rfl (fun r _ => Finset.sum_congr rfl (fun i _ => by ring))
  rw [h2, sum_three, Finset.sum_range]
  refine Finset.sum_congr rfl (fun f _ => ?_)
  have hf : F[f.val]? = some F[f] := List.getElem?_eq_getElem f.isLt
  obtain ⟨a0, a1, a2⟩ := hAA (C.mulVec (S.mulVec y)) f f.isLt
  obtain ⟨c0, c1, c2⟩ := hC (S.mulVec y) f f.isLt
  obtain ⟨x0, x1, x2⟩ := hS x f _ hf
  obtain ⟨y0, y1, y2⟩ := hS y f _ hf
  rw [a0, a1, a2, c0, c1, c2, x0, x1, x2, y0, y1, y2]
  unfold strainForm stressForm
  ring

end Gpy
