import Verif.Proofs.CsrBlocks
import Verif.Proofs.Grad
import Verif.Props.Laplacian
import Verif.Props.SignedArea
import Verif.Spec.Elasticity

/-! The strain matrix and the stiffness matrix of linear elasticity. -/

set_option autoImplicit false
namespace Gpy
open Np Finset

variable {V : List (Pt 2)} {F : List Tri}

theorem padZ_getD (V : List (Pt 2)) (i : ℕ) : (padZ V).getD i 0 = ⟨V.getD i 0 0, V.getD i 0 1, 0⟩ := by
  unfold padZ
  rw [List.getD_eq_getElem?_getD, List.getD_eq_getElem?_getD, List.getElem?_map]
  cases V[i]? with
  | none => rfl
  | some p => rfl

theorem padZ_length (V : List (Pt 2)) : (padZ V).length = V.length := by simp [padZ]

/-- the gradient on a triangle -/
noncomputable def grad2 (V : List (Pt 2)) (t : Tri) (u : ℕ → ℝ) : Pt 2 :=
  ![((u t.b - u t.a) * (V.getD t.c 0 1 - V.getD t.a 0 1) - (u t.c - u t.a) * (V.getD t.b 0 1 - V.getD t.a 0 1)) / wedge2 V t,
    ((u t.c - u t.a) * (V.getD t.b 0 0 - V.getD t.a 0 0) - (u t.b - u t.a) * (V.getD t.c 0 0 - V.getD t.a 0 0)) / wedge2 V t]

theorem grad2_is {t : Tri} (h : wedge2 V t ≠ 0) (u : ℕ → ℝ) : IsTriGrad V t u (grad2 V t u) := by
  constructor <;> simp only [grad2, Matrix.cons_val_zero, Matrix.cons_val_one, Matrix.cons_val_fin_one] <;> rw [div_mul_eq_mul_div, div_mul_eq_mul_div, ← add_div, eq_div_iff h] <;> unfold wedge2 <;> ring

theorem isTriGrad_eq {t : Tri} (h : wedge2 V t ≠ 0) {u : ℕ → ℝ} {g : Pt 2} (hg : IsTriGrad V t u g) : g = grad2 V t u := by
  obtain ⟨h1, h2⟩ := hg
  funext k
  fin_cases k
  · simp only [grad2, Fin.zero_eta, Matrix.cons_val_zero]
    rw [eq_div_iff h, h1, h2]; unfold wedge2; ring
  · simp only [grad2, Fin.mk_one, Matrix.cons_val_one, Matrix.cons_val_fin_one]
    rw [eq_div_iff h, h1, h2]; unfold wedge2; ring

theorem posArea_pad {t : Tri} (h : wedge2 V t ≠ 0) : PosArea (padZ V) t := by
  intro hc
  apply h
  have := congrArg V3.z hc
  simp only [padZ_getD, V3.cross, V3.sub_x, V3.sub_y] at this
  change _ = (0 : ℝ) at this
  unfold wedge2
  linarith

theorem triGrad_planar {t : Tri} (h : wedge2 V t ≠ 0) (u : ℕ → ℝ) :
    let g := triGrad ((padZ V).getD t.a 0) ((padZ V).getD t.b 0) ((padZ V).getD t.c 0) (u t.a) (u t.b) (u t.c)
    g.x = grad2 V t u 0 ∧ g.y = grad2 V t u 1 := by
  intro g
  have hp := posArea_normSq (posArea_pad h)
  have hne : (gradTri ((padZ V).getD t.a 0) ((padZ V).getD t.b 0) ((padZ V).getD t.c 0)).2 ≠ 0 := (Real.sqrt_pos.mpr hp).ne'
  obtain ⟨_, _, _, g1, g2⟩ := gradTri_eq _ _ _ hne
  have hN : V3.normSq (V3.cross ((padZ V).getD t.c 0 - (padZ V).getD t.b 0) ((padZ V).getD t.a 0 - (padZ V).getD t.c 0)) = wedge2 V t ^ 2 := by
    simp only [padZ_getD, V3.normSq, V3.dot, V3.cross, V3.sub_x, V3.sub_y, V3.sub_z, wedge2]; ring
  rw [hN] at g1 g2
  simp only [g, triGrad, g1, g2]
  constructor
  · simp only [padZ_getD, V3.add_x, V3.smul_x, V3.cross, V3.sub_x, V3.sub_y, V3.sub_z, grad2, Matrix.cons_val_zero]
    rw [eq_div_iff h]
    field_simp
    unfold wedge2
    ring
  · simp only [padZ_getD, V3.add_y, V3.smul_y, V3.cross, V3.sub_x, V3.sub_y, V3.sub_z, grad2, Matrix.cons_val_one, Matrix.cons_val_fin_one]
    rw [eq_div_iff h]
    field_simp
    unfold wedge2
    ring

theorem padGrad (hF : InRange F V.length) (hA : ∀ t ∈ F, wedge2 V t ≠ 0) :
    ∃ G, grad (padZ V) F = some G ∧ G.WF ∧ G.nrows = 3 * F.length ∧ G.ncols = V.length ∧ ∀ w (f : ℕ) (t : Tri), F[f]? = some t →
      G.mulVec w f = grad2 V t w 0 ∧ G.mulVec w (F.length + f) = grad2 V t w 1 := by
  have hF' : InRange F (padZ V).length := by rwa [padZ_length]
  refine ⟨_, grad_eq hF' (fun t ht => (Real.sqrt_pos.mpr (posArea_normSq (posArea_pad (hA t ht)))).ne'), grad_wf hF', rfl, padZ_length V, fun w f t hf => ?_⟩
  obtain ⟨hlt, rfl⟩ := List.getElem?_eq_some_iff.mp hf
  have k0 := grad_mulVec hF' w (by omega : 0 < 3) hlt
  have k1 := grad_mulVec hF' w (by omega : 1 < 3) hlt
  rw [Nat.zero_mul, Nat.zero_add] at k0
  rw [Nat.one_mul] at k1
  obtain ⟨e0, e1⟩ := triGrad_planar (hA _ (List.getElem_mem hlt)) w
  exact ⟨k0.trans e0, k1.trans e1⟩

theorem strain_ok (hF : InRange F V.length) (hA : ∀ t ∈ F, wedge2 V t ≠ 0) (hn : V.length ≤ 2 * F.length) :
    ∃ S, strainMatrix V F = some S ∧ S.WF ∧ S.nrows = 3 * F.length ∧ S.ncols = 2 * V.length ∧ ∀ w (f : ℕ) (t : Tri), F[f]? = some t →
      S.mulVec w f = grad2 V t w 0 ∧ S.mulVec w (F.length + f) = grad2 V t (fun j => w (V.length + j)) 1 ∧
      S.mulVec w (2 * F.length + f) = grad2 V t w 1 + grad2 V t (fun j => w (V.length + j)) 0 := by
  obtain ⟨G, eG, wG, rG, cG, hG⟩ := padGrad hF hA
  obtain ⟨w1, r1, c1, h1⟩ := csrRows_spec wG (a := 0) (b := 2 * F.length) (by omega)
  have e2 : csrCols (csrRows G 0 (2 * F.length)) (2 * F.length) = csrRows G 0 (2 * F.length) := csrCols_all w1 (by rw [c1, cG]; exact hn)
  set H := csrRows G 0 (2 * F.length) with hH
  obtain ⟨w0, r0, c0, h0⟩ := csrRows_spec w1 (a := 0) (b := F.length) (by omega)
  obtain ⟨w1', r1', c1', h1'⟩ := csrRows_spec w1 (a := F.length) (b := 2 * F.length) (by omega)
  have wZ : (⟨F.length, V.length, []⟩ : Csr ℝ).WF := by intro t ht; cases ht
  have zZ : ∀ (u : ℕ → ℝ) i, (⟨F.length, V.length, []⟩ : Csr ℝ).mulVec u i = 0 := fun u i => by rw [mulVec_eq _ wZ]; rfl
  obtain ⟨S0, s0, ws0, rs0, cs0, hs0⟩ := hstack2 w0 wZ (by rw [r0]; simp)
  obtain ⟨S1, s1, ws1, rs1, cs1, hs1⟩ := hstack2 wZ w1' (by rw [r1']; simp only; omega)
  obtain ⟨S2, s2, ws2, rs2, cs2, hs2⟩ := hstack2 w1' w0 (by rw [r0, r1']; omega)
  obtain ⟨S, s, ws, rs, cs, k1, k2, k3⟩ := vstack3 ws0 ws1 ws2 (by rw [cs0, cs1, c0, c1', c1]; simp only; omega) (by rw [cs0, cs2, c0, c1', c1, cG])
  have nS0 : S0.nrows = F.length := by rw [rs0, r0]; omega
  have nS1 : S1.nrows = F.length := by rw [rs1]
  have nS2 : S2.nrows = F.length := by rw [rs2, r1']; omega
  refine ⟨S, ?_, ws, by rw [rs]; omega, by rw [cs, cs0, c0, c1, cG]; simp only; omega, fun w f t hf => ?_⟩
  · unfold strainMatrix
    rw [eG]
    simp only [Option.bind_eq_bind, Option.bind_some]
    rw [← hH, e2, s0, s1, s2]
    exact s
  · have hlt : f < F.length := (List.getElem?_eq_some_iff.mp hf).1
    have g0 : ∀ w, (csrRows H 0 F.length).mulVec w f = grad2 V t w 0 := fun w => by
      rw [h0 w f (by omega), Nat.zero_add, h1 w f (by omega), Nat.zero_add, (hG w f t hf).1]
    have g1 : ∀ w, (csrRows H F.length (2 * F.length)).mulVec w f = grad2 V t w 1 := fun w => by
      rw [h1' w f (by omega), h1 w _ (by omega), Nat.zero_add, (hG w f t hf).2]
    refine ⟨?_, ?_, ?_⟩
    · rw [k1 w f (by omega), hs0, zZ, add_zero, g0]
    · have := k2 w f (by omega)
      rw [nS0] at this
      rw [this, hs1, zZ, zero_add, g1]
    · have := k3 w f
      rw [nS0, nS1] at this
      rw [show 2 * F.length + f = F.length + F.length + f by omega, this, hs2, g1, g0, c1', c1, cG]

theorem elasticC_ok (l mu : ℝ) (m : ℕ) : ∃ C, elasticC l mu m = some C ∧ C.WF ∧ C.nrows = 3 * m ∧ C.ncols = 3 * m ∧ ∀ w f, f < m →
    C.mulVec w f = (l + 2 * mu) * w f + l * w (m + f) ∧ C.mulVec w (m + f) = l * w f + (l + 2 * mu) * w (m + f) ∧ C.mulVec w (2 * m + f) = mu * w (2 * m + f) := by
  have we := fun s => (csrEye_spec s m).1
  have he := fun s => (csrEye_spec s m).2
  obtain ⟨C0, e0, w0, r0, c0, h0⟩ := hstack3 (we (l + 2 * mu)) (we l) (we 0) rfl rfl
  obtain ⟨C1, e1, w1, r1, c1, h1⟩ := hstack3 (we l) (we (l + 2 * mu)) (we 0) rfl rfl
  obtain ⟨C2, e2, w2, r2, c2, h2⟩ := hstack3 (we 0) (we 0) (we mu) rfl rfl
  obtain ⟨C, e, w, r, c, k0, k1, k2⟩ := vstack3 w0 w1 w2 (by rw [c0, c1]; rfl) (by rw [c0, c2]; rfl)
  simp only [csrEye] at r0 r1 r2 c0 c1 c2 h0 h1 h2
  refine ⟨C, ?_, w, by rw [r, r0, r1, r2]; omega, by rw [c, c0]; omega, fun v f hf => ⟨?_, ?_, ?_⟩⟩
  · unfold elasticC
    rw [e0, e1, e2]
    exact e
  · rw [k0 v f (by omega), h0]
    erw [he _ v f hf, he _ _ f hf, he _ _ f hf]
    ring
  · have := k1 v f (by omega)
    rw [r0] at this
    rw [this, h1]
    erw [he _ v f hf, he _ _ f hf, he _ _ f hf]
    ring
  · have := k2 v f
    rw [r0, r1] at this
    rw [show 2 * m + f = m + m + f by omega, this, h2]
    erw [he _ v f hf, he _ _ f hf, he _ _ f hf]
    ring

end Gpy
