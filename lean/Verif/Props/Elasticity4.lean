import Verif.Props.Elasticity3
import Mathlib.Tactic.IntervalCases

/-! C91: existence of the step, free motion, the stress that is returned. -/

set_option autoImplicit false
namespace Gpy
open Np Finset

variable {V : List (Pt 2)} {F : List Tri} {solve : LinSolver ℝ} {garbage : ℕ → ℝ} {U0 : List (Pt 2)} {dt : ℝ} {fixed : Option (List ℤ × List (Pt 2))}
  {Ud0 fext : Option (List (Pt 2))} {K mu : ℝ} {volumes : Option (List ℝ)} {mass : Option (Csr ℝ)} {U σ : List ℝ}

/-- Specification: the mass matrix is positive definite: it is the default one and every vertex belongs to a triangle, or the given one is. -/
def MassPos (n : ℕ) (F : List Tri) : Option (Csr ℝ) → Prop
  | none => ∀ i < n, IsReferenced F i
  | some M => MassOk n M ∧ ∀ x : ℕ → ℝ, (∃ i < n, x i ≠ 0) → 0 < bil n M.get x x

/-- Specification: an array of displacements (velocities, forces) has a row per vertex. -/
def RowsOk (n : ℕ) (X : Option (List (Pt 2))) : Prop := ∀ Y, X = some Y → Y.length = n

/-- Specification: the fixed vertices are distinct vertices (at least one), with a displacement each. -/
def FixedOk (n : ℕ) (fixed : Option (List ℤ × List (Pt 2))) : Prop :=
  ∀ bb bc, fixed = some (bb, bc) → bb ≠ [] ∧ bb.Nodup ∧ bb.length = bc.length ∧ ∀ z ∈ bb, 0 ≤ z ∧ z < (n : ℤ)

theorem massPos_good (hm : ElasticMesh V F) (hmass : MassPos V.length F mass) :
    ∃ M, elementMass V F mass = some M ∧ MassOk V.length M ∧ ∀ x : ℕ → ℝ, (∃ i < V.length, x i ≠ 0) → 0 < bil V.length M.get x x := by
  cases mass with
  | some M => exact ⟨M, rfl, hmass.1, hmass.2⟩
  | none =>
    obtain ⟨M, e, ok, hd⟩ := elementMass_good hm.ne hm.range hm.area (mass := none) (fun M h => by cases h)
    refine ⟨M, e, ok, fun x ⟨i, hi, hx⟩ => ?_⟩
    have hd := hd rfl
    have hbil : bil V.length M.get x x = ∑ i ∈ range V.length, M.get i i * (x i * x i) := by
      unfold bil
      refine Finset.sum_congr rfl (fun a ha => ?_)
      rw [Finset.sum_eq_single a]
      · ring
      · intro b _ hb; rw [(hd a).2 b (Ne.symm hb)]; ring
      · intro h; exact absurd ha h
    rw [hbil]
    refine Finset.sum_pos' (fun a ha => mul_nonneg ((hd a).1 (hmass a (mem_range.mp ha))).le (mul_self_nonneg _)) ⟨i, mem_range.mpr hi, ?_⟩
    exact mul_pos ((hd i).1 (hmass i hi)) (mul_self_pos.mpr hx)

theorem block_pos {M : Csr ℝ} {n : ℕ} (h : MassOk n M) (hp : ∀ x : ℕ → ℝ, (∃ i < n, x i ≠ 0) → 0 < bil n M.get x x) {x : ℕ → ℝ} (hx : ∃ i < 2 * n, x i ≠ 0) :
    0 < bil (2 * n) (blockDiag2 M M).get x x := by
  obtain ⟨w, r, c, _, hnn⟩ := h
  rw [bil_block w r c]
  obtain ⟨i, hi, hx⟩ := hx
  by_cases hin : i < n
  · exact add_pos_of_pos_of_nonneg (hp _ ⟨i, hin, hx⟩) (hnn _)
  · refine add_pos_of_nonneg_of_pos (hnn _) (hp _ ⟨i - n, by omega, ?_⟩)
    rwa [show n + (i - n) = i by omega]

/-- the stiffness form is symmetric and nonnegative -/
theorem stiffness_psd (hm : ElasticMesh V F) (hK : 0 ≤ K + mu / 3) (hmu : 0 ≤ mu) (hv : ∀ v, volumes = some v → v.length = F.length ∧ ∀ x ∈ v, 0 ≤ x)
    {E : Elastic} (he : elasticStiffness V F K mu volumes mass = some E) : ∀ x, 0 ≤ bil (2 * V.length) E.K.get x x := by
  have hv' : ∀ v, volumes = some v → v.length = F.length := fun v h => (hv v h).1
  obtain ⟨M, hM⟩ := elementMass_ok hm.ne hm.range hm.area mass
  obtain ⟨E', e', _, _, _, _, _, hb⟩ := elastic_core (K := K) (mu := mu) hm.range hm.area hm.few (elementVolumes_ok hm.ne hm.range volumes) (volumesOr_length volumes hv') hM
  obtain rfl : E' = E := Option.some.inj (e'.symm.trans he)
  intro x
  unfold bil
  rw [hb]
  refine Finset.sum_nonneg (fun f _ => mul_nonneg ?_ ?_)
  · have hl := volumesOr_length (V := V) volumes hv'
    have hf : f.val < (volumesOr V F volumes).length := by rw [hl]; exact f.isLt
    rw [List.getD_eq_getElem?_getD, List.getElem?_eq_getElem hf, Option.getD_some]
    cases volumes with
    | some v => exact (hv v rfl).2 _ (List.getElem_mem _)
    | none =>
      simp only [volumesOr, Option.getD_none, List.getElem_map]
      positivity
  · have : strainForm V (K - 2 / 3 * mu) mu F[f] x x = elasticDensity (K - 2 / 3 * mu) mu (grad2 V F[f] x) (grad2 V F[f] (fun j => x (V.length + j))) := by
      unfold strainForm stressForm elasticDensity; ring
    rw [this]
    exact density_nonneg hK hmu _ _

/-- **C91** the step exists: if every vertex belongs to a triangle (or a positive definite mass matrix is given), the fixed vertices are distinct vertices with a displacement each, and the arrays have a row per vertex, the call returns —
for every time step, with any solver that solves regular systems. -/
theorem C91_returns (hs : solve.Complete) (garbage : ℕ → ℝ) (hm : ElasticMesh V F) (hK : 0 ≤ K + mu / 3) (hmu : 0 ≤ mu) (hv : ∀ v, volumes = some v → v.length = F.length ∧ ∀ x ∈ v, 0 ≤ x)
    (hmass : MassPos V.length F mass) (hU : U0.length = V.length) (hUd : RowsOk V.length Ud0) (hf : RowsOk V.length fext) (hfix : FixedOk V.length fixed) (dt : ℝ) :
    ∃ U σ, linearElasticity solve garbage V F U0 dt fixed Ud0 fext K mu volumes mass = some (U, σ) := by
  have hv' : ∀ v, volumes = some v → v.length = F.length := fun v h => (hv v h).1
  obtain ⟨M, hM, hMok, hMp⟩ := massPos_good hm hmass
  obtain ⟨E, e, eM, r, c, _, _, hb⟩ := elastic_core (K := K) (mu := mu) hm.range hm.area hm.few (elementVolumes_ok hm.ne hm.range volumes) (volumesOr_length volumes hv') hM
  have hKp := stiffness_psd hm hK hmu hv e
  obtain ⟨bw, br, bc, _⟩ := blockDiag2_spec hMok.1 hMok.1
  have hrow : ∀ X : Option (List (Pt 2)), RowsOk V.length X → (X.getD (V.map (fun _ => 0))).length = V.length := by
    intro X hX
    cases X with
    | none => simp
    | some Y => exact hX Y rfl
  have hVpos : 0 < V.length := by
    obtain ⟨t, ht⟩ := List.exists_mem_of_ne_nil F hm.ne
    exact lt_of_le_of_lt (Nat.zero_le _) (hm.range t ht).1
  unfold linearElasticity
  rw [e]
  simp only [Option.bind_eq_bind, Option.bind_some]
  rw [if_pos ⟨hU, hrow _ hUd, hrow _ hf, by rw [eM, br, hMok.2.1]; omega, by rw [eM, bc, hMok.2.2.1]; omega⟩]
  have hret : ∃ cols, minQuadWithFixed solve garbage (Matrix.of fun (i j : Fin (2 * V.length)) => E.M.get i j + dt ^ 2 * E.K.get i j)
      (.vec ((List.range (2 * V.length)).map (fun i => -1.0 * E.M.mulVec (fun i => dt ^ 2 * (stackF (fext.getD (V.map (fun _ => 0)))).getD i 0 + (stackF U0).getD i 0 + dt * (stackF (Ud0.getD (V.map (fun _ => 0)))).getD i 0) i)))
      (0 : Matrix (Fin 0) (Fin (2 * V.length)) ℝ) .none (fixedDofs V.length fixed).1 (fixedDofs V.length fixed).2 = some cols := by
    refine C43_returns hs garbage (by omega) _ _ ?_ ?_ (by rfl) ?_ ?_ ?_
    · intro ks hks
      cases fixed with
      | none => simp [fixedDofs] at hks
      | some p =>
        obtain ⟨bb, bc⟩ := p
        obtain ⟨h1, h2, h3, h4⟩ := hfix bb bc rfl
        simp only [fixedDofs, Option.some.injEq] at hks
        subst hks
        refine ⟨by simp [h1], ?_, ?_⟩
        · rw [List.nodup_append]
          refine ⟨h2, h2.map (fun a b h => by simpa using h), fun a ha b hb' => ?_⟩
          obtain ⟨z, hz, rfl⟩ := List.mem_map.mp hb'
          have := h4 a ha
          have := h4 z hz
          omega
        · intro z hz
          rcases List.mem_append.mp hz with hz | hz
          · have := h4 z hz; push_cast; omega
          · obtain ⟨z', hz', rfl⟩ := List.mem_map.mp hz
            have := h4 z' hz'; push_cast; omega
    · cases fixed with
      | none => simp [fixedDofs, QArg.shapeOk, QArg.cp]
      | some p => simp [fixedDofs, QArg.shapeOk, QArg.cp]
    · cases fixed with
      | none => simp [fixedDofs, QArg.shapeOk]
      | some p =>
        obtain ⟨bb, bc⟩ := p
        obtain ⟨h1, h2, h3, h4⟩ := hfix bb bc rfl
        simp [fixedDofs, QArg.shapeOk, QArg.cp, stackF, numFixed, h3]
    · intro x _ _ hx
      set y : ℕ → ℝ := fun i => if h : i < 2 * V.length then x ⟨i, h⟩ else 0 with hy
      have hyx : ∀ i : Fin (2 * V.length), y i = x i := fun i => by simp [hy]
      have hsum : ∑ i, ∑ j, x i * (Matrix.of fun (i j : Fin (2 * V.length)) => E.M.get i j + dt ^ 2 * E.K.get i j) i j * x j = bil (2 * V.length) E.M.get y y + dt ^ 2 * bil (2 * V.length) E.K.get y y := by
        unfold bil
        rw [Finset.mul_sum, ← Finset.sum_add_distrib, Finset.sum_range]
        refine Finset.sum_congr rfl (fun i _ => ?_)
        rw [Finset.mul_sum, ← Finset.sum_add_distrib, Finset.sum_range]
        refine Finset.sum_congr rfl (fun j _ => ?_)
        rw [hyx, hyx, Matrix.of_apply]; ring
      rw [hsum]
      have hex : ∃ i < 2 * V.length, y i ≠ 0 := by
        obtain ⟨i, hi⟩ := Function.ne_iff.mp hx
        exact ⟨i, i.isLt, by rw [hyx]; exact hi⟩
      have h1 := block_pos hMok hMp hex
      rw [← eM] at h1
      have h2 := hKp y
      have h3 : 0 ≤ dt ^ 2 * bil (2 * V.length) E.K.get y y := mul_nonneg (sq_nonneg _) h2
      linarith
    · intro l _
      exact Subsingleton.elim _ _
  obtain ⟨cols, hcols⟩ := hret
  rw [hcols]
  simp only [Option.bind_some]
  have hlen : cols.length = 1 := by
    unfold minQuadWithFixed at hcols
    rw [if_neg (by omega), Option.bind_eq_bind, Option.bind_eq_some_iff] at hcols
    obtain ⟨kk, hk, h⟩ := hcols
    simp only at h
    split at h
    swap
    · cases h
    obtain ⟨hlen, _⟩ := mapM_range_get _ _ _ h
    rw [hlen]
    cases fixed <;> simp [fixedDofs, QArg.cp]
  obtain ⟨u, rfl⟩ := List.length_eq_one_iff.mp hlen
  exact ⟨_, _, rfl⟩

/-- **C91** free motion is exact: without fixed vertices and forces, a body displaced by a rigid motion `U0` and moving with a rigid velocity `Ud0` is displaced by exactly `U0 + dt·Ud0` after the step. -/
theorem C91_free (hs : solve.Correct) (hm : ElasticMesh V F) (hK : 0 ≤ K + mu / 3) (hmu : 0 ≤ mu) (hv : ∀ v, volumes = some v → v.length = F.length ∧ ∀ x ∈ v, 0 ≤ x)
    (hmass : MassPos V.length F mass)
    (hr0 : IsRigid V (fun i => nodal V.length U0 i) (fun i => nodal V.length U0 (V.length + i))) (hr1 : IsRigid V (fun i => orZero V.length Ud0 i) (fun i => orZero V.length Ud0 (V.length + i)))
    (h : linearElasticity solve garbage V F U0 dt none Ud0 none K mu volumes mass = some (U, σ)) (j : ℕ) (hj : j < 2 * V.length) :
    U.getD j 0 = nodal V.length U0 j + dt * orZero V.length Ud0 j := by
  have hv' : ∀ v, volumes = some v → v.length = F.length := fun v h => (hv v h).1
  obtain ⟨M, hM, hMok, hMp⟩ := massPos_good hm hmass
  have hok : ∀ M, mass = some M → MassOk V.length M := by
    intro M' h'
    subst h'
    exact hmass.1
  obtain ⟨E, e, hl, hst⟩ := C91_step hs hm hv' hok h
  obtain ⟨E', e', eM, _, _, _, _, hb⟩ := elastic_core (K := K) (mu := mu) hm.range hm.area hm.few (elementVolumes_ok hm.ne hm.range volumes) (volumesOr_length volumes hv') hM
  obtain rfl : E' = E := Option.some.inj (e'.symm.trans e)
  have hKp := stiffness_psd hm hK hmu hv e
  have hsK : ∀ i < 2 * V.length, ∀ j < 2 * V.length, E'.K.get i j = E'.K.get j i := by
    intro i hi j hj
    rw [← quad_ind (2 * V.length) E'.K.get hi hj, ← quad_ind (2 * V.length) E'.K.get hj hi, hb, hb]
    refine Finset.sum_congr rfl (fun f _ => ?_)
    unfold strainForm
    rw [stressForm_symm]
  have hd : ∀ (w : ℕ → ℝ), ∀ j < 2 * V.length, dofs V.length (fun i => w i) (fun i => w (V.length + i)) j = w j := by
    intro w j _
    unfold dofs
    split_ifs with hj
    · rfl
    · beta_reduce
      rw [show V.length + (j - V.length) = j by omega]
  set D : ℕ → ℝ := fun j => U.getD j 0 - nodal V.length U0 j - dt * orZero V.length Ud0 j with hD
  have hw := hst (fun i => D i) (fun i => D (V.length + i)) (fun _ _ h => by cases h)
  rw [bil_congr (hd D) (fun _ _ => rfl), bil_congr (A := E'.K.get) (hd D) (fun _ _ => rfl)] at hw
  have hker : ∀ w, IsRigid V (fun i => w i) (fun i => w (V.length + i)) → bil (2 * V.length) E'.K.get D w = 0 := by
    intro w hr
    have := rigid_kernel hm hv' e hr D
    rw [bil_congr (hd w) (fun _ _ => rfl)] at this
    rw [bil_symm hsK, this]
  have k0 := hker _ hr0
  have k1 := hker _ hr1
  have hU : bil (2 * V.length) E'.K.get D (fun j => U.getD j 0) = bil (2 * V.length) E'.K.get D D := by
    have : (fun j => U.getD j 0) = fun j => (D j + nodal V.length U0 j) + dt * orZero V.length Ud0 j := by funext j; simp only [hD]; ring
    rw [this, bil_add_right, bil_add_right, bil_smul_right, k0, k1]; ring
  have hM0 : (fun j => U.getD j 0 - nodal V.length U0 j - dt * orZero V.length Ud0 j - dt ^ 2 * orZero V.length none j) = D := by
    funext j
    have : orZero V.length none j = 0 := rfl
    rw [this]; simp only [hD]; ring
  rw [hU, hM0] at hw
  have h1 : 0 ≤ dt ^ 2 * bil (2 * V.length) E'.K.get D D := mul_nonneg (sq_nonneg _) (hKp D)
  by_contra hne
  have : 0 < bil (2 * V.length) E'.M.get D D := by
    rw [eM]
    refine block_pos hMok hMp ⟨j, hj, fun h0 => hne ?_⟩
    simp only [hD] at h0
    linarith
  linarith

/-- Specification: the plane von Mises stress `√(s11² - s11·s22 + s22² + 3·s12²)` of Hooke's law with Lamé parameters `l`, `mu` for the displacement gradients `g`, `h`. -/
noncomputable def trueVonMises (l mu : ℝ) (g h : Pt 2) : ℝ :=
  let s11 := (l + 2 * mu) * g 0 + l * h 1
  let s22 := l * g 0 + (l + 2 * mu) * h 1
  let s12 := mu * (g 1 + h 0)
  Real.sqrt (s11 ^ 2 - s11 * s22 + s22 ^ 2 + 3 * s12 ^ 2)

/-- **C91, violated**: the von Mises stress that is returned for a triangle is `√(1/2)` times the von Mises stress of the new displacement. -/
theorem C91_von_mises_violated (hs : solve.Correct) (hm : ElasticMesh V F) (hv : ∀ v, volumes = some v → v.length = F.length)
    (hmass : ∀ M, mass = some M → MassOk V.length M)
    (h : linearElasticity solve garbage V F U0 dt fixed Ud0 fext K mu volumes mass = some (U, σ)) :
    σ.length = F.length ∧ ∀ (f : Fin F.length) (g k : Pt 2), IsTriGrad V F[f] (fun i => U.getD i 0) g → IsTriGrad V F[f] (fun i => U.getD (V.length + i) 0) k →
      σ.getD f 0 = Real.sqrt (1 / 2) * trueVonMises (K - 2 / 3 * mu) mu g k := by
  obtain ⟨M, hM, hMok, _⟩ := elementMass_good hm.ne hm.range hm.area hmass
  obtain ⟨E, e, hl, hσ, _⟩ := elastic_step hs hm hv hmass h
  obtain ⟨E', e', eM, _, _, eS, eC, _⟩ := elastic_core (K := K) (mu := mu) hm.range hm.area hm.few (elementVolumes_ok hm.ne hm.range volumes) (volumesOr_length volumes hv) hM
  obtain rfl : E' = E := Option.some.inj (e'.symm.trans e)
  obtain ⟨S, eS', _, _, _, hS⟩ := strain_ok hm.range hm.area hm.few
  obtain ⟨C, eC', _, _, _, hC⟩ := elasticC_ok (K - 2 / 3 * mu) mu F.length
  obtain rfl : E'.strain = S := Option.some.inj (eS.symm.trans eS')
  obtain rfl : E'.C = C := Option.some.inj (eC.symm.trans eC')
  subst hσ
  refine ⟨by simp [faceStress], fun f g k hg hk => ?_⟩
  have hmm : F[f] ∈ F := List.getElem_mem f.isLt
  obtain ⟨s0, s1, s2⟩ := hS (fun i => U.getD i 0) f _ (List.getElem?_eq_getElem f.isLt)
  obtain ⟨c0, c1, c2⟩ := hC (fun r => E'.strain.mulVec (fun i => U.getD i 0) r) f f.isLt
  have g0 := isTriGrad_eq (hm.area _ hmm) hg
  have k0 := isTriGrad_eq (hm.area _ hmm) hk
  unfold faceStress
  rw [List.getD_eq_getElem?_getD, List.getElem?_map, List.getElem?_range f.isLt]
  simp only [Option.map_some, Option.getD_some]
  rw [c0, c1, c2, s0, s1, s2]
  unfold vonMises trueVonMises
  rw [← Real.sqrt_mul (by norm_num)]
  congr 1
  have e1 : grad2 V F[f] (fun i => U.getD i 0) = g := g0.symm
  have e2 : grad2 V F[f] (fun i => U.getD (V.length + i) 0) = k := k0.symm
  have e1' : ∀ q, grad2 V F[f.val] (fun i => U.getD i 0) q = g q := fun q => congrFun e1 q
  have e2' : ∀ q, grad2 V F[f.val] (fun i => U.getD (V.length + i) 0) q = k q := fun q => congrFun e2 q
  simp only [e1', e2']
  norm_num
  ring

/-- a square of two triangles with one corner held meets the hypotheses of the theorems above: the call returns for every time step -/
example (dt : ℝ) : ∃ U σ, linearElasticity exactSolver (fun _ => 0) [![0, 0], ![1, 0], ![1, 1], ![0, 1]] [⟨0, 1, 2⟩, ⟨0, 2, 3⟩] [![0, 0], ![1, 0], ![0, 0], ![0, 0]] dt
    (some ([0], [![0, 0]])) none none (5 / 3) 1 none none = some (U, σ) := by
  have hm : ElasticMesh [![0, 0], ![1, 0], ![1, 1], ![0, 1]] [⟨0, 1, 2⟩, ⟨0, 2, 3⟩] := by
    refine ⟨by simp, by simp [InRange], ?_, by simp⟩
    intro t ht
    simp only [List.mem_cons, List.not_mem_nil, or_false] at ht
    rcases ht with rfl | rfl <;> simp [wedge2]
  have hl : List.length (α := Pt 2) [![0, 0], ![1, 0], ![0, 0], ![0, 0]] = List.length (α := Pt 2) [![0, 0], ![1, 0], ![1, 1], ![0, 1]] := by simp
  refine C91_returns exactSolver_complete _ hm (by norm_num) (by norm_num) (fun v h => by simp at h) ?_ hl (fun v h => by simp at h) (fun v h => by simp at h) ?_ dt
  · intro i hi
    simp only [List.length_cons, List.length_nil] at hi
    interval_cases i <;> simp [IsReferenced]
  · intro bb bc h
    simp only [Option.some.injEq, Prod.mk.injEq] at h
    obtain ⟨rfl, rfl⟩ := h
    simp

end Gpy
