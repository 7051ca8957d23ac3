import Verif.Props.RandomPoints
import Mathlib.Analysis.SpecialFunctions.PolarCoord
import Mathlib.Analysis.SpecialFunctions.Sqrt

/-! C58: samples of a triangle are uniformly distributed. -/

set_option autoImplicit false
namespace Gpy
open MeasureTheory Set

/-- the second and third barycentric coordinate of the sample computed from the random numbers `r` -/
noncomputable def baryPair (r : ℝ × ℝ) : ℝ × ℝ := ((triBary r)[1]?.getD 0, (triBary r)[2]?.getD 0)

theorem baryPair_eq (r : ℝ × ℝ) : baryPair r = (Real.sqrt r.2 * (1 - r.1), r.1 * Real.sqrt r.2) := rfl

/-- the derivative -/
noncomputable def baryPairD (p : ℝ × ℝ) : ℝ × ℝ →L[ℝ] ℝ × ℝ :=
  (Matrix.toLin (.finTwoProd ℝ) (.finTwoProd ℝ)
    !![-Real.sqrt p.2, (1 - p.1) * (1 / (2 * Real.sqrt p.2)); Real.sqrt p.2, p.1 * (1 / (2 * Real.sqrt p.2))]).toContinuousLinearMap

theorem hasFDerivAt_baryPair {p : ℝ × ℝ} (hp : 0 < p.2) : HasFDerivAt baryPair (baryPairD p) p := by
  unfold baryPairD
  rw [Matrix.toLin_finTwoProd_toContinuousLinearMap]
  have hs := (Real.hasDerivAt_sqrt hp.ne').comp_hasFDerivAt p (hasFDerivAt_snd (𝕜 := ℝ) (E := ℝ) (F := ℝ))
  have h1 : HasFDerivAt (fun q : ℝ × ℝ => 1 - q.1) (-(ContinuousLinearMap.fst ℝ ℝ ℝ)) p := hasFDerivAt_fst.const_sub 1
  have h := HasFDerivAt.prodMk (𝕜 := ℝ) (hs.mul h1) ((hasFDerivAt_fst (𝕜 := ℝ) (E := ℝ) (F := ℝ)).mul hs)
  refine HasFDerivAt.congr_fderiv (f := baryPair) h ?_
  ext <;> simp <;> ring

theorem det_baryPairD {p : ℝ × ℝ} (hp : 0 < p.2) : (baryPairD p).det = -(1 / 2) := by
  unfold baryPairD
  rw [LinearMap.det_toContinuousLinearMap, LinearMap.det_toLin, Matrix.det_fin_two_of]
  have : Real.sqrt p.2 ≠ 0 := (Real.sqrt_pos.mpr hp).ne'
  field_simp
  ring

/-- the open reference triangle -/
def openTriangle : Set (ℝ × ℝ) := {q | 0 < q.1 ∧ 0 < q.2 ∧ q.1 + q.2 < 1}

theorem baryPair_inj : InjOn baryPair (Ioo (0 : ℝ) 1 ×ˢ Ioo (0 : ℝ) 1) := by
  rintro ⟨a, b⟩ ⟨⟨a0, a1⟩, b0, b1⟩ ⟨a', b'⟩ ⟨⟨a0', a1'⟩, b0', b1'⟩ h
  simp only [baryPair_eq, Prod.mk.injEq] at h a0 a1 b0 b1 a0' a1' b0' b1' ⊢
  obtain ⟨h1, h2⟩ := h
  have hs : Real.sqrt b = Real.sqrt b' := by linarith
  have hb : b = b' := (Real.sqrt_inj b0.le b0'.le).mp hs
  have hp := Real.sqrt_pos.mpr b0'
  refine ⟨?_, hb⟩
  rw [hs] at h2
  exact mul_right_cancel₀ hp.ne' h2

theorem baryPair_image : baryPair '' (Ioo (0 : ℝ) 1 ×ˢ Ioo (0 : ℝ) 1) = openTriangle := by
  ext ⟨x, y⟩
  simp only [mem_image, mem_prod, mem_Ioo, Prod.exists, openTriangle, mem_setOf_eq]
  constructor
  · rintro ⟨a, b, ⟨⟨a0, a1⟩, b0, b1⟩, h⟩
    simp only [baryPair_eq, Prod.mk.injEq] at h
    obtain ⟨rfl, rfl⟩ := h
    have hp := Real.sqrt_pos.mpr b0
    have hl : Real.sqrt b < 1 := by rw [Real.sqrt_lt' one_pos]; simpa using b1
    refine ⟨mul_pos hp (by linarith), mul_pos a0 hp, by linarith⟩
  · rintro ⟨hx, hy, hxy⟩
    have h0 : 0 < x + y := by linarith
    refine ⟨y / (x + y), (x + y) ^ 2, ⟨⟨by positivity, by rw [div_lt_one h0]; linarith⟩, by positivity, by nlinarith⟩, ?_⟩
    rw [baryPair_eq]
    simp only [Real.sqrt_sq h0.le]
    ext
    · simp only; field_simp; ring
    · simp only; field_simp

/-- **C58** if the two random numbers are independent and uniform in `[0,1)`, the barycentric coordinates of the sample are uniformly distributed in
the triangle: their distribution is the constant density `2 = 1/area` on the reference triangle. -/
theorem C58_uniform_triangle : Measure.map baryPair (volume.restrict (Ico (0 : ℝ) 1 ×ˢ Ico (0 : ℝ) 1)) = (2 : ENNReal) • volume.restrict openTriangle := by
  have e1 : (volume : Measure (ℝ × ℝ)).restrict (Ico (0 : ℝ) 1 ×ˢ Ico (0 : ℝ) 1) = volume.restrict (Ioo (0 : ℝ) 1 ×ˢ Ioo (0 : ℝ) 1) := by
    rw [Measure.volume_eq_prod, ← Measure.prod_restrict, ← Measure.prod_restrict]
    rw [Measure.restrict_congr_set (Ioo_ae_eq_Ico (μ := (volume : Measure ℝ)) (a := 0) (b := 1))]
  rw [e1]
  have hm : MeasurableSet (Ioo (0 : ℝ) 1 ×ˢ Ioo (0 : ℝ) 1) := measurableSet_Ioo.prod measurableSet_Ioo
  have key := map_withDensity_abs_det_fderiv_eq_addHaar (μ := (volume : Measure (ℝ × ℝ))) (f := baryPair) (f' := baryPairD) hm.nullMeasurableSet
    (fun x hx => (hasFDerivAt_baryPair hx.2.1).hasFDerivWithinAt) baryPair_inj
  rw [baryPair_image] at key
  have e2 : ((volume : Measure (ℝ × ℝ)).restrict (Ioo (0 : ℝ) 1 ×ˢ Ioo (0 : ℝ) 1)).withDensity (fun x => ENNReal.ofReal |(baryPairD x).det|) =
      (2⁻¹ : ENNReal) • (volume : Measure (ℝ × ℝ)).restrict (Ioo (0 : ℝ) 1 ×ˢ Ioo (0 : ℝ) 1) := by
    rw [← withDensity_const]
    apply withDensity_congr_ae
    rw [Filter.EventuallyEq, ae_restrict_iff' hm]
    refine Filter.Eventually.of_forall ?_
    intro x hx
    rw [det_baryPairD hx.2.1, abs_neg, abs_of_pos (by norm_num), one_div, ENNReal.ofReal_inv_of_pos (by norm_num)]
    norm_num
  rw [e2, Measure.map_smul] at key
  rw [← key, smul_smul, ENNReal.mul_inv_cancel (by norm_num) (by norm_num), one_smul]

/-- Every sample of `random_points_on_mesh` in a triangle is the point with these coordinates: `a + u₁(b-a) + u₂(c-a)`. -/
theorem C58_point {d : ℕ} (a b c : Pt d) (r : ℝ × ℝ) :
    comb (triBary r) [a, b, c] = fun j => a j + (baryPair r).1 * (b j - a j) + (baryPair r).2 * (c j - a j) := by
  funext j
  simp only [comb, triBary, baryPair_eq, List.zip_cons_cons, List.zip_nil_right, List.map_cons, List.map_nil, List.sum_cons, List.sum_nil]
  ring

end Gpy
