import Verif.Props.Elasticity2

/-! C91: consequences for a time step. -/

set_option autoImplicit false
namespace Gpy
open Np Finset

variable {V : List (Pt 2)} {F : List Tri} {solve : LinSolver ℝ} {garbage : ℕ → ℝ} {U0 : List (Pt 2)} {dt : ℝ} {fixed : Option (List ℤ × List (Pt 2))}
  {Ud0 fext : Option (List (Pt 2))} {K mu : ℝ} {volumes : Option (List ℝ)} {mass : Option (Csr ℝ)} {U σ : List ℝ}

/-- Specification: velocities and forces default to zero. -/
def orZero (n : ℕ) (X : Option (List (Pt 2))) : ℕ → ℝ := X.elim (fun _ => 0) (nodal n)

theorem nodal_zero (n : ℕ) (V : List (Pt 2)) : nodal n (V.map (fun _ => 0)) = fun _ => 0 := by
  funext i
  have h : ∀ j k, (V.map (fun _ => (0 : Pt 2))).getD j 0 k = 0 := by
    intro j k
    rw [List.getD_eq_getElem?_getD, List.getElem?_map]
    cases V[j]? <;> rfl
  unfold nodal dofs
  split_ifs <;> exact h _ _

theorem orZero_eq (n : ℕ) (V : List (Pt 2)) (X : Option (List (Pt 2))) : nodal n (X.getD (V.map (fun _ => 0))) = orZero n X := by
  cases X with
  | none => exact nodal_zero n V
  | some X => rfl

/-- Specification: the displacement with components `x`, `y` is zero at the fixed vertices. -/
def Admissible (fixed : Option (List ℤ × List (Pt 2))) (x y : ℕ → ℝ) : Prop := ∀ bb bc, fixed = some (bb, bc) → ∀ i : ℕ, (i : ℤ) ∈ bb → x i = 0 ∧ y i = 0

/-- **C91** a step is implicit Euler for Newton's law, in weak form: for every virtual displacement that is zero at the fixed vertices, the mass form of it with `U - U0 - dt·Ud0 - dt²·fext` plus `dt²` times the stiffness form of it with `U` vanishes. -/
theorem C91_step (hs : solve.Correct) (hm : ElasticMesh V F) (hv : ∀ v, volumes = some v → v.length = F.length)
    (hmass : ∀ M, mass = some M → MassOk V.length M)
    (h : linearElasticity solve garbage V F U0 dt fixed Ud0 fext K mu volumes mass = some (U, σ)) :
    ∃ E, elasticStiffness V F K mu volumes mass = some E ∧ U.length = 2 * V.length ∧ ∀ x y, Admissible fixed x y →
      bil (2 * V.length) E.M.get (dofs V.length x y) (fun j => U.getD j 0 - nodal V.length U0 j - dt * orZero V.length Ud0 j - dt ^ 2 * orZero V.length fext j) +
        dt ^ 2 * bil (2 * V.length) E.K.get (dofs V.length x y) (fun j => U.getD j 0) = 0 := by
  obtain ⟨M, hM, hMok, _⟩ := elementMass_good hm.ne hm.range hm.area hmass
  obtain ⟨E, e, hl, _, hst, hfx⟩ := elastic_step hs hm hv hmass h
  obtain ⟨E', e', eM, _⟩ := elastic_core (K := K) (mu := mu) hm.range hm.area hm.few (elementVolumes_ok hm.ne hm.range volumes) (volumesOr_length volumes hv) hM
  obtain rfl : E' = E := Option.some.inj (e'.symm.trans e)
  refine ⟨E', e, hl, fun x y hxy => ?_⟩
  rw [orZero_eq, orZero_eq] at hst
  have hc : E'.M.ncols = 2 * V.length := by
    rw [eM, (blockDiag2_spec hMok.1 hMok.1).2.2.1, hMok.2.2.1]; omega
  simp only [bil, ← Finset.sum_add_distrib, Finset.mul_sum]
  refine Finset.sum_eq_zero (fun i hi => ?_)
  have hi' := mem_range.mp hi
  by_cases hf : (i : ℤ) ∈ (fixedDofs V.length fixed).1.getD []
  · have h0 : dofs V.length x y i = 0 := by
      cases fixed with
      | none => simp [fixedDofs] at hf
      | some p =>
        obtain ⟨bb, bc⟩ := p
        have hax := hxy bb bc rfl
        simp only [fixedDofs, Option.getD_some, List.mem_append, List.mem_map] at hf
        have hrange : ∀ z ∈ bb, 0 ≤ z ∧ z < V.length := by
          intro z hz
          obtain ⟨j, hj⟩ := List.getElem?_of_mem hz
          obtain ⟨i1, b1, e1, _⟩ := hfx _ rfl j z (by rw [List.getElem?_append_left (List.getElem?_eq_some_iff.mp hj).1]; exact hj)
          obtain ⟨i2, b2, e2, _⟩ := hfx _ rfl (bb.length + j) (z + V.length) (by
            rw [List.getElem?_append_right (by omega), List.getElem?_map, show bb.length + j - bb.length = j by omega, hj]; rfl)
          omega
        unfold dofs
        rcases hf with hf | ⟨z, hz, he⟩
        · rw [if_pos (by have := hrange _ hf; omega)]
          exact (hax i hf).1
        · have := hrange z hz
          rw [if_neg (by omega)]
          exact (hax (i - V.length) (by rw [show ((i - V.length : ℕ) : ℤ) = z by omega]; exact hz)).2
    rw [h0]; simp
  · have hk := hst i hi' hf
    rw [Csr.mulVec, hc] at hk
    have : ∑ j ∈ range (2 * V.length), (E'.M.get i j * (U.getD j 0 - nodal V.length U0 j - dt * orZero V.length Ud0 j - dt ^ 2 * orZero V.length fext j) + dt ^ 2 * E'.K.get i j * U.getD j 0) = 0 := by
      have e2 : ∀ j, E'.M.get i j * (U.getD j 0 - nodal V.length U0 j - dt * orZero V.length Ud0 j - dt ^ 2 * orZero V.length fext j) + dt ^ 2 * E'.K.get i j * U.getD j 0 =
          (E'.M.get i j + dt ^ 2 * E'.K.get i j) * U.getD j 0 - E'.M.get i j * (dt ^ 2 * orZero V.length fext j + nodal V.length U0 j + dt * orZero V.length Ud0 j) := fun j => by ring
      simp only [e2, Finset.sum_sub_distrib]
      rw [hk, sub_self]
    calc _ = dofs V.length x y i * ∑ j ∈ range (2 * V.length), (E'.M.get i j * (U.getD j 0 - nodal V.length U0 j - dt * orZero V.length Ud0 j - dt ^ 2 * orZero V.length fext j) + dt ^ 2 * E'.K.get i j * U.getD j 0) := by
          rw [Finset.mul_sum]
          exact Finset.sum_congr rfl (fun j _ => by ring)
      _ = 0 := by rw [this, mul_zero]

/-- **C91** the fixed vertices have exactly the prescribed displacements. -/
theorem C91_fixed (hs : solve.Correct) (hm : ElasticMesh V F) (hv : ∀ v, volumes = some v → v.length = F.length)
    (hmass : ∀ M, mass = some M → MassOk V.length M) {bb : List ℤ} {bc : List (Pt 2)}
    (h : linearElasticity solve garbage V F U0 dt (some (bb, bc)) Ud0 fext K mu volumes mass = some (U, σ)) (j : ℕ) (z : ℤ) (hz : bb[j]? = some z) :
    ∃ (i : ℕ) (p : Pt 2), i < V.length ∧ (i : ℤ) = z ∧ bc[j]? = some p ∧ U.getD i 0 = p 0 ∧ U.getD (V.length + i) 0 = p 1 := by
  obtain ⟨E, e, hl, _, hst, hfx⟩ := elastic_step hs hm hv hmass h
  have hj := (List.getElem?_eq_some_iff.mp hz).1
  obtain ⟨i1, b1, e1, v1, len⟩ := hfx _ rfl j z (by rw [List.getElem?_append_left hj]; exact hz)
  obtain ⟨i2, b2, e2, v2, _⟩ := hfx _ rfl (bb.length + j) (z + V.length) (by
    rw [List.getElem?_append_right (by omega), List.getElem?_map, show bb.length + j - bb.length = j by omega, hz]; rfl)
  have hlen := len bb bc rfl
  have hj' : j < bc.length := by omega
  simp only [fixedDofs, QArg.entry] at v1 v2
  rw [stackF_getD hlen.symm] at v1 v2
  have hg : bc.getD j 0 = bc[j] := by rw [List.getD_eq_getElem?_getD, List.getElem?_eq_getElem hj']; rfl
  simp only [nodal, dofs, hj, if_true] at v1
  simp only [nodal, dofs] at v2
  rw [if_neg (by omega), show bb.length + j - bb.length = j by omega] at v2
  refine ⟨i1, bc[j], by omega, e1, List.getElem?_eq_getElem hj', by rw [v1, hg], ?_⟩
  rw [show V.length + i1 = i2 by omega, v2, hg]

theorem rigid_kernel (hm : ElasticMesh V F) (hv : ∀ v, volumes = some v → v.length = F.length) {E : Elastic} (he : elasticStiffness V F K mu volumes mass = some E)
    {a b : ℕ → ℝ} (hr : IsRigid V a b) (w : ℕ → ℝ) : bil (2 * V.length) E.K.get (dofs V.length a b) w = 0 := by
  obtain ⟨M, hM⟩ := elementMass_ok hm.ne hm.range hm.area mass
  obtain ⟨E', e', _, r, c, _, _, hb⟩ := elastic_core (K := K) (mu := mu) hm.range hm.area hm.few (elementVolumes_ok hm.ne hm.range volumes) (volumesOr_length volumes hv) hM
  obtain rfl : E' = E := Option.some.inj (e'.symm.trans he)
  unfold bil
  rw [hb]
  obtain ⟨p, q, s, hr⟩ := hr
  refine Finset.sum_eq_zero (fun f _ => ?_)
  have hmm : F[f] ∈ F := List.getElem_mem f.isLt
  obtain ⟨ha, hbb, hc⟩ := hm.range _ hmm
  have e1 : grad2 V F[f] (dofs V.length a b) = ![0, -s] := by
    symm
    apply isTriGrad_eq (hm.area _ hmm)
    simp only [IsTriGrad, dofs, if_pos ha, if_pos hbb, if_pos hc, Matrix.cons_val_zero, Matrix.cons_val_one, Matrix.cons_val_fin_one]
    rw [(hr _ ha).1, (hr _ hbb).1, (hr _ hc).1]
    exact ⟨by ring, by ring⟩
  have hd : ∀ j, dofs V.length a b (V.length + j) = b j := fun j => by unfold dofs; rw [if_neg (by omega)]; congr 1; omega
  have e2 : grad2 V F[f] (fun j => dofs V.length a b (V.length + j)) = ![s, 0] := by
    symm
    apply isTriGrad_eq (hm.area _ hmm)
    simp only [IsTriGrad, hd, Matrix.cons_val_zero, Matrix.cons_val_one, Matrix.cons_val_fin_one]
    rw [(hr _ ha).2, (hr _ hbb).2, (hr _ hc).2]
    exact ⟨by ring, by ring⟩
  unfold strainForm
  rw [e1, e2]
  simp [stressForm]

/-- **C91** without fixed vertices linear and (linearised) angular momentum change exactly by the impulse of the external forces: for every infinitesimal rigid motion `r` the mass form of `r` with `U - U0 - dt·Ud0 - dt²·fext` is zero. -/
theorem C91_momentum (hs : solve.Correct) (hm : ElasticMesh V F) (hv : ∀ v, volumes = some v → v.length = F.length)
    (hmass : ∀ M, mass = some M → MassOk V.length M)
    (h : linearElasticity solve garbage V F U0 dt none Ud0 fext K mu volumes mass = some (U, σ)) :
    ∃ E, elasticStiffness V F K mu volumes mass = some E ∧ ∀ a b, IsRigid V a b →
      bil (2 * V.length) E.M.get (dofs V.length a b) (fun j => U.getD j 0 - nodal V.length U0 j - dt * orZero V.length Ud0 j - dt ^ 2 * orZero V.length fext j) = 0 := by
  obtain ⟨E, e, _, hst⟩ := C91_step hs hm hv hmass h
  refine ⟨E, e, fun a b hr => ?_⟩
  have := hst a b (fun _ _ h => by cases h)
  rw [rigid_kernel hm hv e hr, mul_zero, add_zero] at this
  exact this

theorem bil_quad_sub {N : ℕ} {A : ℕ → ℕ → ℝ} (h : ∀ i < N, ∀ j < N, A i j = A j i) (hp : ∀ x, 0 ≤ bil N A x x) (x y : ℕ → ℝ) :
    bil N A x x - bil N A y y ≤ 2 * bil N A (fun i => x i - y i) x := by
  have h1 := hp (fun i => x i - y i)
  have e1 : bil N A (fun i => x i - y i) (fun i => x i - y i) = 2 * bil N A (fun i => x i - y i) x - bil N A x x + bil N A y y := by
    have h2 : ∀ z, bil N A (fun i => x i - y i) z = bil N A x z - bil N A y z := by
      intro z; unfold bil; simp only [sub_mul, Finset.sum_sub_distrib]
    have h3 : ∀ z, bil N A z (fun i => x i - y i) = bil N A z x - bil N A z y := by
      intro z; unfold bil; simp only [mul_sub, Finset.sum_sub_distrib]
    rw [h3, h2, h2, bil_symm h x y]
    ring
  linarith

/-- **C91** a step never gains energy: without external forces, with the fixed vertices held where they are, kinetic plus elastic energy after the step (with velocity `(U-U0)/dt`) is at most that before — for every `dt ≠ 0`, however large. -/
theorem C91_energy (hs : solve.Correct) (hm : ElasticMesh V F) (hK : 0 ≤ K + mu / 3) (hmu : 0 ≤ mu) (hv : ∀ v, volumes = some v → v.length = F.length ∧ ∀ x ∈ v, 0 ≤ x)
    (hmass : ∀ M, mass = some M → MassOk V.length M) (hdt : dt ≠ 0) (hheld : ∀ bb bc, fixed = some (bb, bc) → ∀ (j : ℕ) (i : ℕ), bb[j]? = some (i : ℤ) → bc[j]? = U0[i]?)
    (h : linearElasticity solve garbage V F U0 dt fixed Ud0 none K mu volumes mass = some (U, σ)) :
    ∃ E, elasticStiffness V F K mu volumes mass = some E ∧
      1 / 2 * bil (2 * V.length) E.M.get (fun j => (U.getD j 0 - nodal V.length U0 j) / dt) (fun j => (U.getD j 0 - nodal V.length U0 j) / dt) + 1 / 2 * bil (2 * V.length) E.K.get (fun j => U.getD j 0) (fun j => U.getD j 0) ≤
      1 / 2 * bil (2 * V.length) E.M.get (orZero V.length Ud0) (orZero V.length Ud0) + 1 / 2 * bil (2 * V.length) E.K.get (nodal V.length U0) (nodal V.length U0) := by
  have hv' : ∀ v, volumes = some v → v.length = F.length := fun v h => (hv v h).1
  obtain ⟨M, hM, hMok, _⟩ := elementMass_good hm.ne hm.range hm.area hmass
  obtain ⟨E, e, hl, hst⟩ := C91_step hs hm hv' hmass h
  obtain ⟨E', e', eM, _, _, _, _, hb⟩ := elastic_core (K := K) (mu := mu) hm.range hm.area hm.few (elementVolumes_ok hm.ne hm.range volumes) (volumesOr_length volumes hv') hM
  obtain rfl : E' = E := Option.some.inj (e'.symm.trans e)
  have hsK : ∀ i < 2 * V.length, ∀ j < 2 * V.length, E'.K.get i j = E'.K.get j i := by
    intro i hi j hj
    rw [← quad_ind (2 * V.length) E'.K.get hi hj, ← quad_ind (2 * V.length) E'.K.get hj hi, hb, hb]
    refine Finset.sum_congr rfl (fun f _ => ?_)
    unfold strainForm
    rw [stressForm_symm]
  have hpK : ∀ x, 0 ≤ bil (2 * V.length) E'.K.get x x := by
    intro x
    unfold bil
    rw [hb]
    refine Finset.sum_nonneg (fun f _ => mul_nonneg ?_ ?_)
    · have hl := volumesOr_length (V := V) volumes hv'
      have hf : f.val < (volumesOr V F volumes).length := by rw [hl]; exact f.isLt
      rw [List.getD_eq_getElem?_getD, List.getElem?_eq_getElem hf, Option.getD_some]
      cases volumes with
      | some v => exact (hv v rfl).2 _ (List.getElem_mem _)
      | none =>
        simp only [volumesOr, Option.getD_none, List.getElem_map]
        positivity
    · have : strainForm V (K - 2 / 3 * mu) mu F[f] x x = elasticDensity (K - 2 / 3 * mu) mu (grad2 V F[f] x) (grad2 V F[f] (fun j => x (V.length + j))) := by
        unfold strainForm stressForm elasticDensity; ring
      rw [this]
      exact density_nonneg hK hmu _ _
  obtain ⟨hsM, hpM⟩ := block_symm hMok
  rw [← eM] at hsM hpM
  refine ⟨E', e, ?_⟩
  -- the virtual displacement `U - U0`
  have hadm : Admissible fixed (fun i => U.getD i 0 - nodal V.length U0 i) (fun i => U.getD (V.length + i) 0 - nodal V.length U0 (V.length + i)) := by
    intro bb bc hf i hi
    subst hf
    obtain ⟨j, hj⟩ := List.getElem?_of_mem hi
    obtain ⟨i', p, h1, h2, h3, h4, h5⟩ := C91_fixed hs hm hv' hmass h j i hj
    obtain rfl : i' = i := by exact_mod_cast h2
    have := hheld bb bc rfl j i' hj
    rw [h3] at this
    have hg : U0.getD i' 0 = p := by rw [List.getD_eq_getElem?_getD, ← this]; rfl
    constructor
    · simp only [nodal, dofs, if_pos h1, h4, hg, sub_self]
    · simp only [nodal, dofs]
      rw [if_neg (by omega), show V.length + i' - V.length = i' by omega, h5, hg, sub_self]
  have hw := hst _ _ hadm
  have hd : ∀ j < 2 * V.length, dofs V.length (fun i => U.getD i 0 - nodal V.length U0 i) (fun i => U.getD (V.length + i) 0 - nodal V.length U0 (V.length + i)) j = U.getD j 0 - nodal V.length U0 j := by
    intro j _
    unfold dofs
    split_ifs with hj
    · rfl
    · beta_reduce
      rw [show V.length + (j - V.length) = j by omega]
  rw [bil_congr hd (fun _ _ => rfl), bil_congr (A := E'.K.get) hd (fun _ _ => rfl)] at hw
  set D : ℕ → ℝ := fun j => U.getD j 0 - nodal V.length U0 j with hD
  set W : ℕ → ℝ := fun j => D j / dt with hW
  set Z := orZero V.length Ud0 with hZ
  have hDW : D = fun j => dt * W j := by funext j; rw [hW]; field_simp
  have hr : (fun j => U.getD j 0 - nodal V.length U0 j - dt * Z j - dt ^ 2 * orZero V.length none j) = fun j => dt * (W j - Z j) := by
    funext j
    have : orZero V.length none j = 0 := rfl
    rw [this, mul_sub]
    have := congrFun hDW j
    simp only [hD] at this
    rw [this]; ring
  rw [hr, bil_smul_right] at hw
  have hleft : ∀ A z, bil (2 * V.length) A D z = dt * bil (2 * V.length) A W z := by
    intro A z
    rw [hDW]
    unfold bil
    simp only [Finset.mul_sum]
    exact Finset.sum_congr rfl (fun i _ => Finset.sum_congr rfl (fun j _ => by ring))
  rw [hleft E'.M.get] at hw
  have hw2 : bil (2 * V.length) E'.M.get W (fun j => W j - Z j) + bil (2 * V.length) E'.K.get D (fun j => U.getD j 0) = 0 := by
    have hdt2 : dt ^ 2 ≠ 0 := pow_ne_zero 2 hdt
    have : dt ^ 2 * (bil (2 * V.length) E'.M.get W (fun j => W j - Z j) + bil (2 * V.length) E'.K.get D (fun j => U.getD j 0)) = 0 := by
      linear_combination hw
    exact (mul_eq_zero.mp this).resolve_left hdt2
  have q1 := bil_quad_sub hsM hpM W Z
  have q2 := bil_quad_sub hsK hpK (fun j => U.getD j 0) (nodal V.length U0)
  rw [bil_symm hsM (fun i => W i - Z i) W] at q1
  change bil _ _ _ _ - bil _ _ _ _ ≤ 2 * bil _ _ D _ at q2
  linarith

end Gpy
