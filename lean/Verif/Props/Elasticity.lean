import Verif.Proofs.Elasticity2
import Verif.Props.MassEntries
import Verif.Props.Biharmonic

/-! C90: the matrices of `linear_elasticity_stiffness`. -/

set_option autoImplicit false
namespace Gpy
open Np Finset

variable {V : List (Pt 2)} {F : List Tri}

theorem elementVolumes_ok (hne : F ≠ []) (hF : InRange F V.length) (volumes : Option (List ℝ)) : elementVolumes V F volumes = some (volumesOr V F volumes) := by
  cases volumes with
  | some v => rfl
  | none =>
    unfold elementVolumes volumesOr
    rw [doublearea_eq hne (by rwa [padZ_length])]
    simp only [Option.map_some, List.map_map, Option.getD_none]
    congr 1
    refine List.map_congr_left (fun t _ => ?_)
    simp only [Function.comp, triArea, V3.norm]
    have : V3.normSq (V3.cross ((padZ V).getD t.b 0 - (padZ V).getD t.a 0) ((padZ V).getD t.c 0 - (padZ V).getD t.a 0)) = wedge2 V t ^ 2 := by
      simp only [padZ_getD, V3.normSq, V3.dot, V3.cross, V3.sub_x, V3.sub_y, V3.sub_z, wedge2]; ring
    rw [this, Real.sqrt_sq_eq_abs]
    ring

theorem volumesOr_length (volumes : Option (List ℝ)) (hv : ∀ v, volumes = some v → v.length = F.length) : (volumesOr V F volumes).length = F.length := by
  cases volumes with
  | some v => exact hv v rfl
  | none => simp [volumesOr]

/-- the default mass matrix exists -/
theorem elementMass_ok (hne : F ≠ []) (hF : InRange F V.length) (hA : ∀ t ∈ F, wedge2 V t ≠ 0) (mass : Option (Csr ℝ)) : ∃ M, elementMass V F mass = some M := by
  cases mass with
  | some M => exact ⟨M, rfl⟩
  | none =>
    obtain ⟨M, e, _⟩ := (C86_areas hne (by rwa [padZ_length]) (fun t ht => posArea_pad (hA t ht))).2.2.1 .voronoi
    exact ⟨M, e⟩

/-- **C90** the strain matrix: for a displacement with components `u`, `v` at the vertices the rows of triangle `f` are `∂u/∂x`, `∂v/∂y` and `∂u/∂y + ∂v/∂x` of the linear interpolation on that triangle. -/
theorem C90_strain (hF : InRange F V.length) (hA : ∀ t ∈ F, wedge2 V t ≠ 0) (hn : V.length ≤ 2 * F.length) :
    ∃ S, strainMatrix V F = some S ∧ S.nrows = 3 * F.length ∧ S.ncols = 2 * V.length ∧
      ∀ (u v : ℕ → ℝ) (f : Fin F.length) (g h : Pt 2), IsTriGrad V F[f] u g → IsTriGrad V F[f] v h →
        S.mulVec (dofs V.length u v) f = g 0 ∧ S.mulVec (dofs V.length u v) (F.length + f) = h 1 ∧ S.mulVec (dofs V.length u v) (2 * F.length + f) = g 1 + h 0 := by
  obtain ⟨S, e, _, r, c, hS⟩ := strain_ok hF hA hn
  refine ⟨S, e, r, c, fun u v f g h hg hh => ?_⟩
  have hm : F[f] ∈ F := List.getElem_mem f.isLt
  obtain ⟨ha, hb, hc⟩ := hF _ hm
  have e1 : grad2 V F[f] (dofs V.length u v) = g := by
    rw [isTriGrad_eq (hA _ hm) hg]
    simp only [grad2, dofs, if_pos ha, if_pos hb, if_pos hc]
  have e2 : grad2 V F[f] (fun j => dofs V.length u v (V.length + j)) = h := by
    rw [isTriGrad_eq (hA _ hm) hh]
    have : ∀ j, dofs V.length u v (V.length + j) = v j := fun j => by unfold dofs; rw [if_neg (by omega)]; congr 1; omega
    simp only [grad2, this]
  obtain ⟨h0, h1, h2⟩ := hS (dofs V.length u v) f _ (List.getElem?_eq_getElem f.isLt)
  refine ⟨h0.trans (congrFun e1 0), h1.trans (congrFun e2 1), h2.trans ?_⟩
  rw [← congrFun e1 1, ← congrFun e2 0]
  rfl

theorem strainForm_density {l mu : ℝ} {t : Tri} (ht : t.a < V.length ∧ t.b < V.length ∧ t.c < V.length) (hA : wedge2 V t ≠ 0) {u v : ℕ → ℝ} {g h : Pt 2} (hg : IsTriGrad V t u g) (hh : IsTriGrad V t v h) :
    strainForm V l mu t (dofs V.length u v) (dofs V.length u v) = elasticDensity l mu g h := by
  obtain ⟨ha, hb, hc⟩ := ht
  have e1 : grad2 V t (dofs V.length u v) = g := by
    rw [isTriGrad_eq hA hg]
    simp only [grad2, dofs, if_pos ha, if_pos hb, if_pos hc]
  have e2 : grad2 V t (fun j => dofs V.length u v (V.length + j)) = h := by
    rw [isTriGrad_eq hA hh]
    have : ∀ j, dofs V.length u v (V.length + j) = v j := fun j => by unfold dofs; rw [if_neg (by omega)]; congr 1; omega
    simp only [grad2, this]
  unfold strainForm
  rw [e1, e2]
  unfold stressForm elasticDensity
  ring

theorem quad_ind (N : ℕ) (Kf : ℕ → ℕ → ℝ) {i j : ℕ} (hi : i < N) (hj : j < N) :
    ∑ a ∈ range N, ∑ b ∈ range N, (if a = i then (1 : ℝ) else 0) * Kf a b * (if b = j then (1 : ℝ) else 0) = Kf i j := by
  rw [Finset.sum_eq_single i, Finset.sum_eq_single j]
  · simp
  · intro b _ hb; rw [if_neg hb, mul_zero]
  · intro h; exact absurd (mem_range.mpr hj) h
  · intro a _ ha; simp [ha]
  · intro h; exact absurd (mem_range.mpr hi) h

/-- **C90** the stiffness matrix is symmetric and its quadratic form is the elastic energy: the sum over the triangles of the volume times the energy density `λ(∂u/∂x+∂v/∂y)² + 2μ((∂u/∂x)²+(∂v/∂y)²) + μ(∂u/∂y+∂v/∂x)²`,
`λ = K - 2μ/3`.  The volumes default to the areas. -/
theorem C90_stiffness (hne : F ≠ []) (hF : InRange F V.length) (hA : ∀ t ∈ F, wedge2 V t ≠ 0) (hn : V.length ≤ 2 * F.length) (K mu : ℝ) (volumes : Option (List ℝ)) (mass : Option (Csr ℝ))
    (hv : ∀ v, volumes = some v → v.length = F.length) :
    ∃ E, elasticStiffness V F K mu volumes mass = some E ∧ E.K.nrows = 2 * V.length ∧ E.K.ncols = 2 * V.length ∧
      (∀ i < 2 * V.length, ∀ j < 2 * V.length, E.K.get i j = E.K.get j i) ∧
      ∀ (u v : ℕ → ℝ) (g h : Fin F.length → Pt 2), (∀ f : Fin F.length, IsTriGrad V F[f] u (g f) ∧ IsTriGrad V F[f] v (h f)) →
        ∑ i ∈ range (2 * V.length), ∑ j ∈ range (2 * V.length), dofs V.length u v i * E.K.get i j * dofs V.length u v j =
          ∑ f : Fin F.length, (volumesOr V F volumes).getD f 0 * elasticDensity (K - 2 / 3 * mu) mu (g f) (h f) := by
  obtain ⟨M, hM⟩ := elementMass_ok hne hF hA mass
  obtain ⟨E, e, _, r, c, _, _, hb⟩ := elastic_core (K := K) (mu := mu) hF hA hn (elementVolumes_ok hne hF volumes) (volumesOr_length volumes hv) hM
  refine ⟨E, e, r, c, fun i hi j hj => ?_, fun u v g h hgh => ?_⟩
  · rw [← quad_ind (2 * V.length) E.K.get hi hj, ← quad_ind (2 * V.length) E.K.get hj hi, hb, hb]
    refine Finset.sum_congr rfl (fun f _ => ?_)
    unfold strainForm
    rw [stressForm_symm]
  · rw [hb]
    exact Finset.sum_congr rfl (fun f _ => congrArg _ (strainForm_density (hF _ (List.getElem_mem f.isLt)) (hA _ (List.getElem_mem f.isLt)) (hgh f).1 (hgh f).2))

theorem density_eq (l mu : ℝ) (g h : Pt 2) : elasticDensity l mu g h = (l + mu) * (g 0 + h 1) ^ 2 + mu * (g 0 - h 1) ^ 2 + mu * (g 1 + h 0) ^ 2 := by
  unfold elasticDensity; ring

theorem density_nonneg {K mu : ℝ} (hK : 0 ≤ K + mu / 3) (hmu : 0 ≤ mu) (g h : Pt 2) : 0 ≤ elasticDensity (K - 2 / 3 * mu) mu g h := by
  rw [density_eq]
  have : 0 ≤ K - 2 / 3 * mu + mu := by linarith
  positivity

theorem density_zero {K mu : ℝ} (hK : 0 < K + mu / 3) (hmu : 0 < mu) {g h : Pt 2} (h0 : elasticDensity (K - 2 / 3 * mu) mu g h = 0) : g 0 = 0 ∧ h 1 = 0 ∧ g 1 + h 0 = 0 := by
  rw [density_eq] at h0
  have k : 0 < K - 2 / 3 * mu + mu := by linarith
  have h1 : 0 ≤ (K - 2 / 3 * mu + mu) * (g 0 + h 1) ^ 2 := by positivity
  have h2 : 0 ≤ mu * (g 0 - h 1) ^ 2 := by positivity
  have h3 : 0 ≤ mu * (g 1 + h 0) ^ 2 := by positivity
  have e1 : (K - 2 / 3 * mu + mu) * (g 0 + h 1) ^ 2 = 0 := by linarith
  have e2 : mu * (g 0 - h 1) ^ 2 = 0 := by linarith
  have e3 : mu * (g 1 + h 0) ^ 2 = 0 := by linarith
  have d1 : g 0 + h 1 = 0 := by simpa [k.ne'] using e1
  have d2 : g 0 - h 1 = 0 := by simpa [hmu.ne'] using e2
  have d3 : g 1 + h 0 = 0 := by simpa [hmu.ne'] using e3
  exact ⟨by linarith, by linarith, d3⟩

/-- the displacement is the rigid motion `(a,b,w)` at the corners of `t` -/
def RigidOn (V : List (Pt 2)) (u v : ℕ → ℝ) (a b w : ℝ) (t : Tri) : Prop := ∀ i ∈ [t.a, t.b, t.c], u i = a - w * V.getD i 0 1 ∧ v i = b + w * V.getD i 0 0

theorem rigidOn_of {t : Tri} {u v : ℕ → ℝ} {g h : Pt 2} (hg : IsTriGrad V t u g) (hh : IsTriGrad V t v h) (h0 : g 0 = 0) (h1 : h 1 = 0) (h2 : g 1 + h 0 = 0) :
    ∃ a b w, RigidOn V u v a b w t := by
  obtain ⟨g1, g2⟩ := hg
  obtain ⟨k1, k2⟩ := hh
  refine ⟨u t.a + h 0 * V.getD t.a 0 1, v t.a - h 0 * V.getD t.a 0 0, h 0, fun i hi => ?_⟩
  have hg1 : g 1 = - h 0 := by linarith
  rw [h0, hg1] at g1 g2
  rw [h1] at k1 k2
  simp only [List.mem_cons, List.not_mem_nil, or_false] at hi
  rcases hi with rfl | rfl | rfl
  · exact ⟨by ring, by ring⟩
  · exact ⟨by linarith, by linarith⟩
  · exact ⟨by linarith, by linarith⟩

theorem corners_ne {t : Tri} (hA : wedge2 V t ≠ 0) {i j : ℕ} (hi : i ∈ [t.a, t.b, t.c]) (hj : j ∈ [t.a, t.b, t.c]) (hij : i ≠ j) : V.getD i 0 0 ≠ V.getD j 0 0 ∨ V.getD i 0 1 ≠ V.getD j 0 1 := by
  by_contra hc
  push Not at hc
  obtain ⟨h0, h1⟩ := hc
  apply hA
  simp only [List.mem_cons, List.not_mem_nil, or_false] at hi hj
  unfold wedge2
  rcases hi with rfl | rfl | rfl <;> rcases hj with rfl | rfl | rfl <;> first | exact absurd rfl hij | (rw [h0, h1]; ring) | (rw [← h0, ← h1]; ring)

theorem rigid_step {s t : Tri} {u v : ℕ → ℝ} {a b w a' b' w' : ℝ} (hA : wedge2 V s ≠ 0) (hs : RigidOn V u v a b w s) (ht : RigidOn V u v a' b' w' t) (hst : ShareEdge s t) : RigidOn V u v a b w t := by
  obtain ⟨i, j, hij, his, hjs, hit, hjt⟩ := hst
  obtain ⟨p1, p2⟩ := hs i his
  obtain ⟨q1, q2⟩ := hs j hjs
  obtain ⟨p1', p2'⟩ := ht i hit
  obtain ⟨q1', q2'⟩ := ht j hjt
  have hw : w = w' := by
    have e1 : (w - w') * (V.getD i 0 1 - V.getD j 0 1) = 0 := by linarith
    have e2 : (w - w') * (V.getD i 0 0 - V.getD j 0 0) = 0 := by linarith
    rcases corners_ne hA his hjs hij with h | h
    · exact sub_eq_zero.mp ((mul_eq_zero.mp e2).resolve_right (sub_ne_zero.mpr h))
    · exact sub_eq_zero.mp ((mul_eq_zero.mp e1).resolve_right (sub_ne_zero.mpr h))
  subst hw
  obtain rfl : a = a' := by linarith
  obtain rfl : b = b' := by linarith
  exact ht

/-- **C90** with positive volumes, `μ > 0` and `K + μ/3 > 0` no displacement has negative energy, and on a mesh that is connected across edges and whose vertices all belong to triangles the displacements that cause no elastic forces are
exactly the infinitesimal rigid motions. -/
theorem C90_kernel (hne : F ≠ []) (hF : InRange F V.length) (hA : ∀ t ∈ F, wedge2 V t ≠ 0) (hn : V.length ≤ 2 * F.length) {K mu : ℝ} (hK : 0 < K + mu / 3) (hmu : 0 < mu)
    (volumes : Option (List ℝ)) (mass : Option (Csr ℝ)) (hv : ∀ v, volumes = some v → v.length = F.length ∧ ∀ x ∈ v, 0 < x) :
    ∃ E, elasticStiffness V F K mu volumes mass = some E ∧
      (∀ w : ℕ → ℝ, 0 ≤ ∑ i ∈ range (2 * V.length), ∑ j ∈ range (2 * V.length), w i * E.K.get i j * w j) ∧
      (∀ u v, IsRigid V u v → ∀ i < 2 * V.length, ∑ j ∈ range (2 * V.length), E.K.get i j * dofs V.length u v j = 0) ∧
      (EdgeConnected F → (∀ i < V.length, ∃ t ∈ F, i ∈ [t.a, t.b, t.c]) → ∀ u v,
        (∀ i < 2 * V.length, ∑ j ∈ range (2 * V.length), E.K.get i j * dofs V.length u v j = 0) → IsRigid V u v) := by
  obtain ⟨M, hM⟩ := elementMass_ok hne hF hA mass
  obtain ⟨E, e, _, r, c, _, _, hb⟩ := elastic_core (K := K) (mu := mu) hF hA hn (elementVolumes_ok hne hF volumes) (volumesOr_length volumes (fun v h => (hv v h).1)) hM
  have hpos : ∀ f : Fin F.length, 0 < (volumesOr V F volumes).getD f 0 := by
    intro f
    have hl := volumesOr_length (V := V) volumes (fun v h => (hv v h).1)
    have hf : f.val < (volumesOr V F volumes).length := by rw [hl]; exact f.isLt
    rw [List.getD_eq_getElem?_getD, List.getElem?_eq_getElem hf, Option.getD_some]
    cases volumes with
    | some v => exact (hv v rfl).2 _ (List.getElem_mem _)
    | none =>
      simp only [volumesOr, Option.getD_none, List.getElem_map]
      have := abs_pos.mpr (hA _ (List.getElem_mem f.isLt))
      linarith
  have hdens : ∀ w (f : Fin F.length), strainForm V (K - 2 / 3 * mu) mu F[f] w w = elasticDensity (K - 2 / 3 * mu) mu (grad2 V F[f] w) (grad2 V F[f] (fun j => w (V.length + j))) := by
    intro w f
    unfold strainForm stressForm elasticDensity; ring
  refine ⟨E, e, fun w => ?_, fun u v hr i hi => ?_, fun hcon href u v h0 => ?_⟩
  · rw [hb]
    exact Finset.sum_nonneg (fun f _ => mul_nonneg (hpos f).le (by rw [hdens]; exact density_nonneg hK.le hmu.le _ _))
  · obtain ⟨a, b, w, hr⟩ := hr
    have key := hb (fun a => if a = i then 1 else 0) (dofs V.length u v)
    rw [Finset.sum_eq_single i] at key
    · simp only [if_true, one_mul] at key
      rw [key]
      refine Finset.sum_eq_zero (fun f _ => ?_)
      have hm : F[f] ∈ F := List.getElem_mem f.isLt
      obtain ⟨ha, hbb, hc⟩ := hF _ hm
      have e1 : grad2 V F[f] (dofs V.length u v) = ![0, -w] := by
        symm
        apply isTriGrad_eq (hA _ hm)
        simp only [IsTriGrad, dofs, if_pos ha, if_pos hbb, if_pos hc, Matrix.cons_val_zero, Matrix.cons_val_one, Matrix.cons_val_fin_one]
        rw [(hr _ ha).1, (hr _ hbb).1, (hr _ hc).1]
        exact ⟨by ring, by ring⟩
      have hd : ∀ j, dofs V.length u v (V.length + j) = v j := fun j => by unfold dofs; rw [if_neg (by omega)]; congr 1; omega
      have e2 : grad2 V F[f] (fun j => dofs V.length u v (V.length + j)) = ![w, 0] := by
        symm
        apply isTriGrad_eq (hA _ hm)
        simp only [IsTriGrad, hd, Matrix.cons_val_zero, Matrix.cons_val_one, Matrix.cons_val_fin_one]
        rw [(hr _ ha).2, (hr _ hbb).2, (hr _ hc).2]
        exact ⟨by ring, by ring⟩
      unfold strainForm
      rw [e1, e2]
      simp [stressForm]
    · intro a _ ha
      simp [ha]
    · intro h; exact absurd (mem_range.mpr hi) h
  · have hq : ∑ i ∈ range (2 * V.length), ∑ j ∈ range (2 * V.length), dofs V.length u v i * E.K.get i j * dofs V.length u v j = 0 := by
      refine Finset.sum_eq_zero (fun i hi => ?_)
      have := h0 i (mem_range.mp hi)
      simp only [mul_assoc]
      rw [← Finset.mul_sum, this, mul_zero]
    rw [hb] at hq
    have hnn : ∀ f ∈ (Finset.univ : Finset (Fin F.length)), 0 ≤ (volumesOr V F volumes).getD f 0 * strainForm V (K - 2 / 3 * mu) mu F[f] (dofs V.length u v) (dofs V.length u v) :=
      fun f _ => mul_nonneg (hpos f).le (by rw [hdens]; exact density_nonneg hK.le hmu.le _ _)
    have hz := (Finset.sum_eq_zero_iff_of_nonneg hnn).mp hq
    have hrig : ∀ t ∈ F, ∃ a b w, RigidOn V u v a b w t := by
      intro t ht
      obtain ⟨f, hf, rfl⟩ := List.getElem_of_mem ht
      have := hz ⟨f, hf⟩ (Finset.mem_univ _)
      have hd := (mul_eq_zero.mp this).resolve_left (hpos ⟨f, hf⟩).ne'
      have hg := grad2_is (hA _ ht) u
      have hh := grad2_is (hA _ ht) v
      have := strainForm_density (l := K - 2 / 3 * mu) (mu := mu) (hF _ ht) (hA _ ht) hg hh
      obtain ⟨d1, d2, d3⟩ := density_zero hK hmu (this.symm.trans hd)
      exact rigidOn_of hg hh d1 d2 d3
    obtain ⟨t0, ht0⟩ := List.exists_mem_of_ne_nil F hne
    obtain ⟨a, b, w, hr0⟩ := hrig t0 ht0
    have hall : ∀ t ∈ F, RigidOn V u v a b w t := by
      intro t ht
      have hp := hcon t0 ht0 t ht
      induction hp with
      | refl => exact hr0
      | tail _ hst ih =>
        obtain ⟨hs, ht', hsh⟩ := hst
        obtain ⟨a', b', w', hr'⟩ := hrig _ ht'
        exact rigid_step (hA _ hs) (ih hs) hr' hsh
    refine ⟨a, b, w, fun i hi => ?_⟩
    obtain ⟨t, ht, hit⟩ := href i hi
    exact hall t ht i hit

/-- **C90, violated**: with more vertices than twice the number of triangles — for instance a single triangle — the call fails: columns are cut off as if they were rows. -/
theorem C90_few_triangles_violated (hF : InRange F V.length) (hA : ∀ t ∈ F, wedge2 V t ≠ 0) (hn : 2 * F.length < V.length) (K mu : ℝ) (volumes : Option (List ℝ)) (mass : Option (Csr ℝ)) :
    elasticStiffness V F K mu volumes mass = none := by
  obtain ⟨G, eG, wG, rG, cG, hG⟩ := padGrad hF hA
  have : strainMatrix V F = none := by
    unfold strainMatrix
    rw [eG]
    simp only [Option.bind_eq_bind, Option.bind_some]
    have c1 : (csrCols (csrRows G 0 (2 * F.length)) (2 * F.length)).ncols = 2 * F.length := by
      simp only [csrCols, csrRows, cG]; omega
    have r1 : (csrCols (csrRows G 0 (2 * F.length)) (2 * F.length)).nrows = 2 * F.length := by
      simp only [csrCols, csrRows, rG]; omega
    generalize csrCols (csrRows G 0 (2 * F.length)) (2 * F.length) = H at c1 r1
    rw [hstack2_eq (by simp only [csrRows, r1]; omega), hstack2_eq (by simp only [csrRows, r1]; omega), hstack2_eq (by simp only [csrRows, r1]; omega)]
    simp only [Option.bind_some, vstackCsr, List.foldlM_cons, csrRows, c1]
    rw [if_pos (by omega)]
    simp only [Option.bind_eq_bind, Option.bind_some]
    rw [if_neg (by omega)]
    rfl
  unfold elasticStiffness
  rw [this]
  rfl

/-- a square of two triangles meets the hypotheses of `C90_kernel` -/
example : let V : List (Pt 2) := [![0, 0], ![1, 0], ![1, 1], ![0, 1]]
    let F : List Tri := [⟨0, 1, 2⟩, ⟨0, 2, 3⟩]
    InRange F V.length ∧ (∀ t ∈ F, wedge2 V t ≠ 0) ∧ V.length ≤ 2 * F.length ∧ EdgeConnected F ∧ ∀ i < V.length, ∃ t ∈ F, i ∈ [t.a, t.b, t.c] := by
  intro V F
  refine ⟨by simp [F, V, InRange], ?_, by simp [F, V], ?_, ?_⟩
  · intro t ht
    simp only [F, List.mem_cons, List.not_mem_nil, or_false] at ht
    rcases ht with rfl | rfl <;> simp [wedge2, V]
  · have h1 : ShareEdge ⟨0, 1, 2⟩ ⟨0, 2, 3⟩ := ⟨0, 2, by decide, by decide, by decide, by decide, by decide⟩
    have h2 : ShareEdge ⟨0, 2, 3⟩ ⟨0, 1, 2⟩ := ⟨0, 2, by decide, by decide, by decide, by decide, by decide⟩
    intro s hs t ht
    simp only [F, List.mem_cons, List.not_mem_nil, or_false] at hs ht
    rcases hs with rfl | rfl <;> rcases ht with rfl | rfl
    · exact .refl
    · exact .single ⟨by simp [F], by simp [F], h1⟩
    · exact .single ⟨by simp [F], by simp [F], h2⟩
    · exact .refl
  · decide

end Gpy
