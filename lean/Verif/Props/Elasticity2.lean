import Verif.Props.Elasticity
import Verif.Props.MinQuad

/-! C91: a time step of `linear_elasticity`. -/

set_option autoImplicit false
namespace Gpy
open Np Finset

variable {V : List (Pt 2)} {F : List Tri}

/-- Specification: the bilinear form of the matrix with entries `A i j`, `i, j < N`. -/
def bil (N : ℕ) (A : ℕ → ℕ → ℝ) (x y : ℕ → ℝ) : ℝ := ∑ i ∈ range N, ∑ j ∈ range N, x i * A i j * y j

/-- Specification: the vector of unknowns of an array of displacements (velocities, forces) with a row per vertex. -/
def nodal (n : ℕ) (X : List (Pt 2)) : ℕ → ℝ := dofs n (fun i => X.getD i 0 0) (fun i => X.getD i 0 1)

/-- Specification: a mass matrix is symmetric positive semidefinite of size `n`. -/
def MassOk (n : ℕ) (M : Csr ℝ) : Prop :=
  M.WF ∧ M.nrows = n ∧ M.ncols = n ∧ (∀ i j, M.get i j = M.get j i) ∧ ∀ x, 0 ≤ bil n M.get x x

theorem bil_add_right (N : ℕ) (A : ℕ → ℕ → ℝ) (x y z : ℕ → ℝ) : bil N A x (fun j => y j + z j) = bil N A x y + bil N A x z := by
  unfold bil; simp only [mul_add, Finset.sum_add_distrib]

theorem bil_smul_right (N : ℕ) (A : ℕ → ℕ → ℝ) (c : ℝ) (x y : ℕ → ℝ) : bil N A x (fun j => c * y j) = c * bil N A x y := by
  unfold bil; simp only [Finset.mul_sum]
  exact Finset.sum_congr rfl (fun i _ => Finset.sum_congr rfl (fun j _ => by ring))

theorem bil_symm {N : ℕ} {A : ℕ → ℕ → ℝ} (h : ∀ i < N, ∀ j < N, A i j = A j i) (x y : ℕ → ℝ) : bil N A x y = bil N A y x := by
  unfold bil
  rw [Finset.sum_comm]
  refine Finset.sum_congr rfl (fun i hi => Finset.sum_congr rfl (fun j hj => ?_))
  rw [h j (mem_range.mp hj) i (mem_range.mp hi)]; ring

theorem bil_congr {N : ℕ} {A : ℕ → ℕ → ℝ} {x x' y y' : ℕ → ℝ} (hx : ∀ i < N, x i = x' i) (hy : ∀ i < N, y i = y' i) : bil N A x y = bil N A x' y' := by
  unfold bil
  exact Finset.sum_congr rfl (fun i hi => Finset.sum_congr rfl (fun j hj => by rw [hx i (mem_range.mp hi), hy j (mem_range.mp hj)]))

theorem bil_mulVec (M : Csr ℝ) {n : ℕ} (hr : M.nrows = n) (hc : M.ncols = n) (x y : ℕ → ℝ) : bil n M.get x y = ∑ i ∈ range n, x i * M.mulVec y i := by
  unfold bil Csr.mulVec
  rw [hc]
  refine Finset.sum_congr rfl (fun i _ => ?_)
  rw [Finset.mul_sum]
  exact Finset.sum_congr rfl (fun j _ => by ring)

theorem bil_block {M : Csr ℝ} {n : ℕ} (hw : M.WF) (hr : M.nrows = n) (hc : M.ncols = n) (x y : ℕ → ℝ) :
    bil (2 * n) (blockDiag2 M M).get x y = bil n M.get x y + bil n M.get (fun i => x (n + i)) (fun i => y (n + i)) := by
  obtain ⟨w, r, c, h1, h2⟩ := blockDiag2_spec hw hw
  rw [bil_mulVec _ (by rw [r, hr]; omega) (by rw [c, hc]; omega), bil_mulVec _ hr hc, bil_mulVec _ hr hc, two_mul, Finset.sum_range_add]
  congr 1
  · exact Finset.sum_congr rfl (fun i hi => by rw [h1 _ _ (by rw [hr]; exact mem_range.mp hi)])
  · refine Finset.sum_congr rfl (fun i _ => ?_)
    have := h2 y i
    rw [hr, hc] at this
    rw [this]

theorem block_symm {M : Csr ℝ} {n : ℕ} (h : MassOk n M) : (∀ i < 2 * n, ∀ j < 2 * n, (blockDiag2 M M).get i j = (blockDiag2 M M).get j i) ∧ ∀ x, 0 ≤ bil (2 * n) (blockDiag2 M M).get x x := by
  obtain ⟨w, r, c, hs, hp⟩ := h
  refine ⟨fun i hi j hj => ?_, fun x => by rw [bil_block w r c]; exact add_nonneg (hp _) (hp _)⟩
  rw [← quad_ind (2 * n) (blockDiag2 M M).get hi hj, ← quad_ind (2 * n) (blockDiag2 M M).get hj hi]
  change bil _ _ _ _ = bil _ _ _ _
  rw [bil_block w r c, bil_block w r c]
  exact congrArg₂ (· + ·) (bil_symm (fun i _ j _ => hs i j) _ _) (bil_symm (fun i _ j _ => hs i j) _ _)

theorem stackF_getD {n : ℕ} {X : List (Pt 2)} (h : X.length = n) (i : ℕ) : (stackF X).getD i 0 = nodal n X i := by
  unfold stackF nodal dofs
  rw [List.getD_eq_getElem?_getD]
  split_ifs with hi
  · rw [List.getElem?_append_left (by simpa [h] using hi), List.getElem?_map]
    change _ = X.getD i 0 0
    rw [List.getD_eq_getElem?_getD]
    cases X[i]? <;> rfl
  · rw [List.getElem?_append_right (by simpa [h] using hi), List.getElem?_map, List.length_map, h]
    change _ = X.getD (i - n) 0 1
    rw [List.getD_eq_getElem?_getD]
    cases X[i - n]? <;> rfl

/-- the default mass matrix is fine, and positive when every vertex belongs to a triangle -/
theorem elementMass_good (hne : F ≠ []) (hF : InRange F V.length) (hA : ∀ t ∈ F, wedge2 V t ≠ 0) {mass : Option (Csr ℝ)} (hmass : ∀ M, mass = some M → MassOk V.length M) :
    ∃ M, elementMass V F mass = some M ∧ MassOk V.length M ∧ (mass = none → ∀ i, (IsReferenced F i → 0 < M.get i i) ∧ ∀ j, i ≠ j → M.get i j = 0) := by
  cases mass with
  | some M => exact ⟨M, rfl, hmass M rfl, fun h => by cases h⟩
  | none =>
    have hF' : InRange F (padZ V).length := by rwa [padZ_length]
    have hl : LsqNonDeg (F.map (fun t => lens ((padZ V).getD t.a 0) ((padZ V).getD t.b 0) ((padZ V).getD t.c 0))) F := by
      refine ⟨by simp, ?_⟩
      intro r hr
      obtain ⟨t, ht, rfl⟩ := List.mem_map.mp hr
      exact nonDeg_lens (posArea_normSq (posArea_pad (hA t ht)))
    obtain ⟨A, e⟩ := voronoi_shape hF' hl
    obtain ⟨M', e2, _, _, hnn, _, hdiag⟩ := C12_massmatrix _ F (some (padZ V).length) .voronoi hne (fun k hk => by cases hk; exact hF') hl
    have hM := Option.some.inj (e2.symm.trans e)
    have hp := voronoi_pos hne (fun k hk => by cases hk; exact hF') hl e
    subst hM
    refine ⟨_, ?_, ⟨corn_wf hF', padZ_length V, padZ_length V, fun i j => ?_, fun x => ?_⟩, fun _ i => ⟨(hp i).1, fun j hij => hdiag (by simp) i j hij⟩⟩
    · unfold elementMass massmatrix
      rw [hls_some hne hF']
      exact e
    · by_cases hij : i = j
      · rw [hij]
      · rw [hdiag (by simp) i j hij, hdiag (by simp) j i (fun h => hij h.symm)]
    · refine Finset.sum_nonneg (fun i _ => Finset.sum_nonneg (fun j _ => ?_))
      by_cases hij : i = j
      · subst hij
        have := hnn i i
        nlinarith [mul_nonneg this (mul_self_nonneg (x i))]
      · rw [hdiag (by simp) i j hij]; simp

/-- stationarity of the result of `min_quad_with_fixed` for a symmetric matrix without linear constraints -/
theorem minQuad_stationary {solve : LinSolver ℝ} (hs : solve.Correct) {garbage : ℕ → ℝ} {n : ℕ} {Q : Matrix (Fin n) (Fin n) ℝ} (hQ : ∀ i j, Q i j = Q j i) {c : QArg ℝ}
    {k : Option (List ℤ)} {y : QArg ℝ} {cols : List (Fin n → ℝ)} (h : minQuadWithFixed solve garbage Q c (0 : Matrix (Fin 0) (Fin n) ℝ) .none k y = some cols) {q : ℕ} {u : Fin n → ℝ} (hu : cols[q]? = some u) :
    FixedValues k y q u ∧ ∀ i : Fin n, (i : ℤ) ∉ k.getD [] → ∑ j, Q i j * u j = -c.entry i q := by
  refine ⟨((C43_min_quad hs h).2 q u hu).1, fun i hi => ?_⟩
  unfold minQuadWithFixed at h
  split at h
  · cases h
  rw [Option.bind_eq_bind, Option.bind_eq_some_iff] at h
  obtain ⟨kk, hk, h⟩ := h
  simp only at h
  split at h
  swap
  · cases h
  obtain ⟨hlen, hcol⟩ := mapM_range_get _ _ _ h
  obtain ⟨h1, h2, l, h3⟩ := qpColumn_kkt hs (checkIdx_spec hk).1 (hcol q u hu)
  obtain ⟨_, hk0, hk1⟩ := checkIdx_spec hk
  have hni : i ∉ kk := by
    intro hm
    apply hi
    cases k with
    | none => rw [hk0 rfl] at hm; cases hm
    | some ks => rw [Option.getD_some, hk1 ks rfl]; exact List.mem_map.mpr ⟨i, hm, rfl⟩
  have := h3 i hni
  have hsym : symmetrize Q = Q := by
    unfold symmetrize
    rw [if_neg]
    intro hne
    exact hne (Matrix.ext fun a b => hQ a b)
  rw [hsym] at this
  simp only [Finset.univ_eq_empty, Finset.sum_empty, add_zero] at this
  linarith

theorem minQuad_shape {solve : LinSolver ℝ} {garbage : ℕ → ℝ} {n : ℕ} {Q : Matrix (Fin n) (Fin n) ℝ} {c : QArg ℝ}
    {ks : List ℤ} {l : List ℝ} {cols : List (Fin n → ℝ)} (h : minQuadWithFixed solve garbage Q c (0 : Matrix (Fin 0) (Fin n) ℝ) .none (some ks) (.vec l) = some cols) : l.length = ks.length := by
  unfold minQuadWithFixed at h
  split at h
  · cases h
  rw [Option.bind_eq_bind, Option.bind_eq_some_iff] at h
  obtain ⟨kk, hk, h⟩ := h
  simp only at h
  split at h
  swap
  · cases h
  rename_i hc
  obtain ⟨_, _, hk1⟩ := checkIdx_spec hk
  rw [hk1 ks rfl, List.length_map]
  simp only [Bool.and_eq_true] at hc
  have := hc.2
  simp only [QArg.shapeOk, Bool.and_eq_true, beq_iff_eq] at this
  exact this.2

/-- Specification: the mesh is planar and the call is supported. -/
structure ElasticMesh (V : List (Pt 2)) (F : List Tri) : Prop where
  ne : F ≠ []
  range : InRange F V.length
  area : ∀ t ∈ F, wedge2 V t ≠ 0
  few : V.length ≤ 2 * F.length

/-- what a step does, in terms of the matrices -/
theorem elastic_step {solve : LinSolver ℝ} (hs : solve.Correct) {garbage : ℕ → ℝ} (hm : ElasticMesh V F) {U0 : List (Pt 2)} {dt : ℝ} {fixed : Option (List ℤ × List (Pt 2))}
    {Ud0 fext : Option (List (Pt 2))} {K mu : ℝ} {volumes : Option (List ℝ)} {mass : Option (Csr ℝ)} (hv : ∀ v, volumes = some v → v.length = F.length)
    (hmass : ∀ M, mass = some M → MassOk V.length M) {U σ : List ℝ}
    (h : linearElasticity solve garbage V F U0 dt fixed Ud0 fext K mu volumes mass = some (U, σ)) :
    ∃ E, elasticStiffness V F K mu volumes mass = some E ∧ U.length = 2 * V.length ∧ σ = faceStress E F.length (fun i => U.getD i 0) ∧
      (∀ i < 2 * V.length, (i : ℤ) ∉ ((fixedDofs V.length fixed).1.getD []) →
        ∑ j ∈ range (2 * V.length), (E.M.get i j + dt ^ 2 * E.K.get i j) * U.getD j 0 =
          E.M.mulVec (fun j => dt ^ 2 * nodal V.length (fext.getD (V.map (fun _ => 0))) j + nodal V.length U0 j + dt * nodal V.length (Ud0.getD (V.map (fun _ => 0))) j) i) ∧
      ∀ ks, (fixedDofs V.length fixed).1 = some ks → ∀ (j : ℕ) (z : ℤ), ks[j]? = some z → ∃ i : ℕ, i < 2 * V.length ∧ (i : ℤ) = z ∧ U.getD i 0 = (fixedDofs V.length fixed).2.entry j 0 ∧
        ∀ bb bc, fixed = some (bb, bc) → bb.length = bc.length := by
  obtain ⟨M, hM, hMok, _⟩ := elementMass_good hm.ne hm.range hm.area hmass
  obtain ⟨E, e, eM, r, c, _, _, hb⟩ := elastic_core (K := K) (mu := mu) hm.range hm.area hm.few (elementVolumes_ok hm.ne hm.range volumes) (volumesOr_length volumes hv) hM
  have hKs : ∀ i < 2 * V.length, ∀ j < 2 * V.length, E.K.get i j = E.K.get j i := by
    intro i hi j hj
    rw [← quad_ind (2 * V.length) E.K.get hi hj, ← quad_ind (2 * V.length) E.K.get hj hi, hb, hb]
    refine Finset.sum_congr rfl (fun f _ => ?_)
    unfold strainForm
    rw [stressForm_symm]
  refine ⟨E, e, ?_⟩
  unfold linearElasticity at h
  rw [e] at h
  simp only [Option.bind_eq_bind, Option.bind_some] at h
  split at h
  swap
  · cases h
  rename_i hlen
  rw [Option.bind_eq_some_iff] at h
  obtain ⟨cols, hcols, h⟩ := h
  split at h
  swap
  · cases h
  rename_i u
  obtain ⟨rfl, rfl⟩ : vecList u = U ∧ faceStress E F.length (fun i => (vecList u).getD i 0) = σ := by
    simpa using h
  have hget : ∀ i : Fin (2 * V.length), (vecList u).getD i 0 = u i := by
    intro i
    unfold vecList
    rw [List.getD_eq_getElem?_getD, List.getElem?_ofFn]
    simp
  obtain ⟨hfix, hst⟩ := minQuad_stationary hs (q := 0) (fun i j => by
    simp only [Matrix.of_apply]
    rw [eM, (block_symm hMok).1 i i.isLt j j.isLt, hKs i i.isLt j j.isLt]) hcols rfl
  refine ⟨by simp [vecList], rfl, fun i hi hni => ?_, fun ks hks j z hz => ?_⟩
  · have := hst ⟨i, hi⟩ hni
    rw [Finset.sum_range]
    simp only [Matrix.of_apply] at this
    simp only [hget]
    rw [this]
    simp only [QArg.entry]
    rw [List.getD_eq_getElem?_getD, List.getElem?_map, List.getElem?_range hi]
    simp only [Option.map_some, Option.getD_some]
    rw [show ((-1.0 : ℝ)) = -1 by norm_num, neg_one_mul, neg_neg]
    congr 1
    funext j
    rw [stackF_getD hlen.1, stackF_getD hlen.2.1, stackF_getD hlen.2.2.1]
  · obtain ⟨i, h1, h2⟩ := hfix ks hks j z hz
    refine ⟨i, i.isLt, h1, by rw [hget, h2], fun bb bc hbb => ?_⟩
    subst hbb
    have := minQuad_shape hcols
    simp only [stackF, List.length_append, List.length_map] at this
    omega

end Gpy
