import Verif.Proofs.QuadOperators4

/-! C100: `quadtree_gradient` and `quadtree_laplacian`. -/

set_option autoImplicit false
namespace Gpy
open Np

section
variable {K : Type} [Field K] [LinearOrder K] [IsStrictOrderedRing K]

/-- C100 (a): the unknowns are the leaves, in the order of the cell array, and `stored_at` lists their centres. -/
theorem C100_leaves {c0 : Fin 2 → K} {w0 : K} {Q : Quad K 2} (hR : GradedReach c0 w0 Q) :
    (qLeaves Q).Pairwise (· < ·) ∧ (∀ m, m ∈ qLeaves Q ↔ ∃ c, Q.cells[m]? = some c ∧ c.Childless) ∧
    (quadStoredAt Q).length = (qLeaves Q).length ∧
    ∀ (r m : ℕ) (c : QuadCell K 2), (qLeaves Q)[r]? = some m → Q.cells[m]? = some c → (quadStoredAt Q)[r]? = some c.C := by
  obtain ⟨ad, hI⟩ := reach_inv (Or.inl rfl) (graded_reach hR)
  refine ⟨List.Pairwise.filter _ List.pairwise_lt_range, fun m => ?_, storedAt_length Q, fun r m c => storedAt_get r m c⟩
  rw [mem_qLeaves]
  constructor
  · rintro ⟨c, hc, hl⟩; exact ⟨c, hc, (childless_iff (Or.inl rfl) hI hc).mpr hl⟩
  · rintro ⟨c, hc, hl⟩; exact ⟨c, hc, (childless_iff (Or.inl rfl) hI hc).mp hl⟩

/-- C100 (b): on every graded quadtree with more than one cell the gradient matrix is built.  Its row `r` (first axis) and row `r + n` (second axis) give
zero on constants, and the exact partial derivative of an affine function when that function varies along that axis only or when no larger leaf lies
across the two sides of the leaf on that axis (boundary leaves included: they use a one-sided difference). -/
theorem C100_gradient {c0 : Fin 2 → K} {w0 : K} (hw : 0 < w0) {Q : Quad K 2} (hR : GradedReach c0 w0 Q) (hQ : 1 < Q.cells.length) :
    ∃ G, quadtreeGradient Q = some G ∧ ∀ (r m : ℕ) (c : QuadCell K 2), (qLeaves Q)[r]? = some m → Q.cells[m]? = some c → ∀ j : Fin 2,
      (∀ a, rowApply G (qLeaves Q).length (fun _ => a) (r + j.val * (qLeaves Q).length) = 0) ∧
      ∀ (a : K) (b : Fin 2 → K), ((∀ o, o ≠ j → b o = 0) ∨
          ∀ (x : ℕ) cx, Q.cells[x]? = some cx → cx.Childless → (Touches c cx (2 * j.val + 1) ∨ Touches c cx (2 * j.val + 2)) → c.D ≤ cx.D) →
        rowApply G (qLeaves Q).length (sampled (quadStoredAt Q) (affine2 a b)) (r + j.val * (qLeaves Q).length) = b j := by
  have hRR := graded_reach hR
  have hd : (2 : ℕ) = 2 ∨ (2 : ℕ) = 3 := Or.inl rfl
  obtain ⟨ad, hI⟩ := reach_inv hd hRR
  obtain ⟨G, hG, hrow⟩ := grad_row hw hR hQ
  refine ⟨G, hG, ?_⟩
  intro r m c hr hc j
  obtain ⟨s, hS, hval⟩ := hrow r m c hr hc
  obtain ⟨c', hc', hl⟩ := mem_qLeaves.mp (List.mem_of_getElem? hr)
  rw [hc] at hc'
  cases Option.some.inj hc'
  have hm0 := leaf_ne_zero hI hQ hc hl
  have hpos := axis_pos hw hI hc hS hm0 j
  refine ⟨fun a => ?_, fun a b hcond => ?_⟩
  · rw [hval, val_const hw hI hc hS j (by norm_num) a a rfl, val_const hw hI hc hS j (by norm_num) a a rfl, sub_self, zero_div]
  · have hur : sampled (quadStoredAt Q) (affine2 a b) r = affine2 a b c.C := by
      unfold sampled; rw [storedAt_get r m c hr hc]; rfl
    have hcond' : ∀ σ, σ < 2 → ((∀ o, o ≠ j → b o = 0) ∨ ∀ x cx, Q.cells[x]? = some cx → isLeafCell cx = true → Q.A m x = 2 * j.val + 1 + σ → c.D ≤ cx.D) := by
      intro σ hσ
      rcases hcond with h | h
      · exact Or.inl h
      · right
        intro x cx hx hxl hA
        refine h x cx hx ((childless_iff hd hI hx).mpr hxl) ?_
        have hT := ((C21_adjacency_codes hd hw hRR hc hx).1 _ (by omega)).mp hA
        have : σ = 0 ∨ σ = 1 := by omega
        rcases this with rfl | rfl
        · exact Or.inl hT
        · exact Or.inr hT
    rw [hval, hur, val_affine hw hI hc hS j (by norm_num) a b (hcond' 1 (by norm_num)), val_affine hw hI hc hS j (by norm_num) a b (hcond' 0 (by norm_num)), div_eq_iff hpos.ne']
    unfold sgn2
    simp only [if_true, show (0 : ℕ) ≠ 1 by decide, if_false]
    ring

theorem lapDen_pos {a b : K} (ha : 0 < a) (hb : 0 ≤ b) : 0 < lapDen a b := by
  unfold lapDen
  split_ifs <;> positivity

theorem sideSum_nonneg {Q : Quad K 2} {i : ℕ} {c : QuadCell K 2} {code : ℕ} {r : K × List (ℕ × K)} (hS : SideSpec Q i c code r) {u : ℕ → K} (hu : ∀ k, 0 ≤ u k) : 0 ≤ sideSum Q r u := by
  unfold sideSum
  apply List.sum_nonneg
  intro x hx
  obtain ⟨e, he, rfl⟩ := List.mem_map.mp hx
  cases hS with
  | empty => simp at he
  | one m => simp at he; subst he; simpa using hu _
  | two x y =>
    simp at he
    rcases he with rfl | rfl <;> exact mul_nonneg (by norm_num) (hu _)

/-- The entry for a leaf is positive on a side exactly when the leaf lies across that side. -/
theorem sideSum_ind_pos {c0 : Fin 2 → K} {w0 : K} {Q : Quad K 2} {ad : ℕ → Fin 2 → ℕ} (hI : QInv c0 w0 Q ad) {i : ℕ} {c : QuadCell K 2} {code : ℕ} {r : K × List (ℕ × K)}
    (hS : SideSpec Q i c code r) {r' m' : ℕ} {c' : QuadCell K 2} (hr' : (qLeaves Q)[r']? = some m') (hc' : Q.cells[m']? = some c') :
    0 < sideSum Q r (fun k => if k = r' then 1 else 0) ↔ Q.A i m' = code := by
  have hcol : ∀ x, x ∈ qLeaves Q → (qCol Q x = r' ↔ x = m') := by
    intro x hx
    constructor
    · intro e
      have h1 : (qLeaves Q)[qCol Q x]? = some x := by
        have := qCol_lt hx
        rw [List.getElem?_eq_getElem this]
        congr 1
        exact List.getElem_idxOf this
      rw [e, hr'] at h1
      exact (Option.some.inj h1).symm
    · rintro rfl; exact qCol_of hr'
  have hl' : isLeafCell c' = true := by
    obtain ⟨c'', h, hl⟩ := mem_qLeaves.mp (List.mem_of_getElem? hr')
    rw [hc'] at h; cases Option.some.inj h; exact hl
  constructor
  · intro hp
    by_contra hne
    have hz : sideSum Q r (fun k => if k = r' then 1 else 0) = 0 := by
      unfold sideSum
      apply List.sum_eq_zero
      intro x hx
      obtain ⟨e, he, rfl⟩ := List.mem_map.mp hx
      obtain ⟨h1, h2, -⟩ := side_mem hI hS he
      have : qCol Q e.1 ≠ r' := by
        rw [Ne, hcol _ h1]
        rintro rfl
        exact hne h2
      dsimp only
      rw [if_neg this, mul_zero]
    rw [hz] at hp; exact lt_irrefl _ hp
  · intro hA
    unfold sideSum
    cases hS with
    | empty h => exact absurd hA (h _ _ hc')
    | one m bm hm hml hmA hmD huniq =>
      have := huniq m' c' hc' hl' hA
      subst this
      simp [qCol_of hr']
    | two x y bx b' hx hy hxl hyl hxy hxA hyA hxD hyD huniq =>
      have hxc := hcol x (mem_qLeaves.mpr ⟨_, hx, hxl⟩)
      have hyc := hcol y (mem_qLeaves.mpr ⟨_, hy, hyl⟩)
      rcases huniq m' c' hc' hl' hA with rfl | rfl
      · have e1 := hxc.mpr rfl
        have e2 : ¬ qCol Q y = r' := fun e => hxy (hyc.mp e).symm
        simp [e1, e2]
      · have e1 := hyc.mpr rfl
        have e2 : ¬ qCol Q x = r' := fun e => hxy (hxc.mp e)
        simp [e1, e2]

/-- A side whose leaves have the size of the cell: one leaf, shifted by the width. -/
theorem side_uniform {c0 : Fin 2 → K} {w0 : K} (hw : 0 < w0) {Q : Quad K 2} {ad : ℕ → Fin 2 → ℕ} (hI : QInv c0 w0 Q ad) {i : ℕ} {c : QuadCell K 2} (hc : Q.cells[i]? = some c)
    {j : Fin 2} {σ : ℕ} (hσ : σ < 2) {r : K × List (ℕ × K)} (hS : SideSpec Q i c (2 * j.val + 1 + σ) r) (hne : r.1 ≠ 0)
    (hcond : ∀ x cx, Q.cells[x]? = some cx → isLeafCell cx = true → Q.A i x = 2 * j.val + 1 + σ → cx.D = c.D) (f : (Fin 2 → K) → K) :
    r.1 = c.W ∧ sideSum Q r (fun _ => 1) = 1 ∧ sideSum Q r (sampled (quadStoredAt Q) f) = f (fun k => if k = j then c.C j + sgn2 σ * c.W else c.C k) := by
  cases hS with
  | empty => exact absurd rfl hne
  | one m bm hm hml hmA hmD _ =>
    have hD := hcond m bm hm hml hmA
    have hWW : bm.W = c.W := by rw [(hI.geom m bm hm).2.1, (hI.geom i c hc).2.1, hD]
    refine ⟨by dsimp only; rw [hWW]; ring, by simp [sideSum], ?_⟩
    have hC : bm.C = fun k => if k = j then c.C j + sgn2 σ * c.W else c.C k := by
      funext k
      by_cases hk : k = j
      · rw [if_pos hk, hk, axis_dist hw hI hc hm hσ hmA, hWW]; ring
      · rw [if_neg hk, cross_same hI hc hm hσ hmA hD hk]
    unfold sideSum
    simp only [List.map_cons, List.map_nil, List.sum_cons, List.sum_nil]
    rw [sampled_col hm hml, hC]; ring
  | two x y bx b' hx hy hxl hyl hxy hxA hyA hxD hyD _ =>
    have := hcond x bx hx hxl hxA
    omega

/-- C100 (c): on every graded quadtree with more than one cell the Laplacian matrix is built.  Every row gives zero on constants; the off-diagonal entry of two
leaves is never negative and is non-zero exactly when the two leaves share a side; at a leaf with neighbours on all four sides, none of them larger, every affine
function has Laplacian zero; and when the neighbours have the leaf's own size every quadratic function has its exact Laplacian. -/
theorem C100_laplacian {c0 : Fin 2 → K} {w0 : K} (hw : 0 < w0) {Q : Quad K 2} (hR : GradedReach c0 w0 Q) (hQ : 1 < Q.cells.length) :
    ∃ L, quadtreeLaplacian Q = some L ∧ ∀ (r m : ℕ) (c : QuadCell K 2), (qLeaves Q)[r]? = some m → Q.cells[m]? = some c →
      (∀ a, rowApply L (qLeaves Q).length (fun _ => a) r = 0) ∧
      (∀ (r' m' : ℕ) (c' : QuadCell K 2), (qLeaves Q)[r']? = some m' → Q.cells[m']? = some c' → r' ≠ r → 0 ≤ L r r' ∧ (L r r' ≠ 0 ↔ ∃ code, Touches c c' code)) ∧
      ((∀ code, 1 ≤ code → code ≤ 4 → ∃ (x : ℕ) (cx : QuadCell K 2), Q.cells[x]? = some cx ∧ Touches c cx code) →
        (∀ (x : ℕ) cx code, Q.cells[x]? = some cx → cx.Childless → Touches c cx code → c.D ≤ cx.D) →
        ∀ (a : K) (b : Fin 2 → K), rowApply L (qLeaves Q).length (sampled (quadStoredAt Q) (affine2 a b)) r = 0) ∧
      ((∀ code, 1 ≤ code → code ≤ 4 → ∃ (x : ℕ) (cx : QuadCell K 2), Q.cells[x]? = some cx ∧ Touches c cx code) →
        (∀ (x : ℕ) cx code, Q.cells[x]? = some cx → cx.Childless → Touches c cx code → cx.D = c.D) →
        ∀ (a : K) (b : Fin 2 → K) (g00 g01 g11 : K), rowApply L (qLeaves Q).length (sampled (quadStoredAt Q) (quadratic2 a b g00 g01 g11)) r = 2 * g00 + 2 * g11) := by
  have hRR := graded_reach hR
  have hd : (2 : ℕ) = 2 ∨ (2 : ℕ) = 3 := Or.inl rfl
  obtain ⟨ad, hI⟩ := reach_inv hd hRR
  obtain ⟨L, hL, hrow⟩ := lap_row hw hR hQ
  refine ⟨L, hL, ?_⟩
  intro r m c hr hc
  obtain ⟨s, hS, hval, hent⟩ := hrow r m c hr hc
  obtain ⟨c', hc', hl⟩ := mem_qLeaves.mp (List.mem_of_getElem? hr)
  rw [hc] at hc'
  cases Option.some.inj hc'
  have hsc := fun (j : Fin 2) (σ : ℕ) (hσ : σ < 2) => side_const hw hI hc (hS.spec j σ hσ)
  have hnn := fun (j : Fin 2) (σ : ℕ) (hσ : σ < 2) => side_nonneg hw hI hc hS j hσ
  have hT : ∀ {x : ℕ} {cx : QuadCell K 2} {code : ℕ}, Q.cells[x]? = some cx → code ≠ 0 → (Q.A m x = code ↔ Touches c cx code) :=
    fun hx h0 => (C21_adjacency_codes hd hw hRR hc hx).1 _ h0
  have hur : ∀ f, sampled (quadStoredAt Q) f r = f c.C := by
    intro f; unfold sampled; rw [storedAt_get r m c hr hc]; rfl
  have hpos : (∀ code, 1 ≤ code → code ≤ 4 → ∃ (x : ℕ) (cx : QuadCell K 2), Q.cells[x]? = some cx ∧ Touches c cx code) → ∀ (j : Fin 2) (σ : ℕ), σ < 2 →
      0 < (s j σ).1 ∧ sideSum Q (s j σ) (fun _ => 1) = 1 := by
    intro hint j σ hσ
    obtain ⟨x, cx, hx, ht⟩ := hint (2 * j.val + 1 + σ) (by omega) (by omega)
    rcases hsc j σ hσ with ⟨-, h⟩ | ⟨h, h', -⟩
    · exact absurd ((hT hx (by omega)).mpr ht) (h x cx hx)
    · exact ⟨h, h' 1⟩
  refine ⟨fun a => ?_, fun r' m' c' hr' hc' hne => ?_, fun hint hco a b => ?_, fun hint hun a b g00 g01 g11 => ?_⟩
  · have hz : ∀ (j : Fin 2) (σ : ℕ), σ < 2 → sideSum Q (s j σ) (fun _ => a) - sideSum Q (s j σ) (fun _ => 1) * a = 0 := by
      intro j σ hσ
      rcases hsc j σ hσ with ⟨e, -⟩ | ⟨-, h, -⟩
      · rw [e]; simp [sideSum]
      · rw [h, h]; ring
    rw [hval, hz 0 0 (by norm_num), hz 0 1 (by norm_num), hz 1 0 (by norm_num), hz 1 1 (by norm_num)]
    simp
  · rw [hent r' hne]
    have hterm : ∀ (j : Fin 2) (σ : ℕ) (hσ : σ < 2) (b : K), 0 ≤ b → 0 ≤ sideSum Q (s j σ) (fun k => if k = r' then 1 else 0) / lapDen (s j σ).1 b ∧
        (0 < sideSum Q (s j σ) (fun k => if k = r' then 1 else 0) / lapDen (s j σ).1 b ↔ Touches c c' (2 * j.val + 1 + σ)) := by
      intro j σ hσ b hb
      rw [← hT hc' (by omega), ← sideSum_ind_pos hI (hS.spec j σ hσ) hr' hc']
      have hnon := sideSum_nonneg (hS.spec j σ hσ) (u := fun k => if k = r' then 1 else 0) (fun k => by split_ifs <;> norm_num)
      rcases hsc j σ hσ with ⟨e, -⟩ | ⟨h, -⟩
      · rw [e]; simp [sideSum]
      · have hden := lapDen_pos h hb
        exact ⟨div_nonneg hnon hden.le, by rw [div_pos_iff_of_pos_right hden]⟩
    obtain ⟨p1, q1⟩ := hterm 0 0 (by norm_num) _ (hnn 0 1 (by norm_num))
    obtain ⟨p2, q2⟩ := hterm 0 1 (by norm_num) _ (hnn 0 0 (by norm_num))
    obtain ⟨p3, q3⟩ := hterm 1 0 (by norm_num) _ (hnn 1 1 (by norm_num))
    obtain ⟨p4, q4⟩ := hterm 1 1 (by norm_num) _ (hnn 1 0 (by norm_num))
    refine ⟨by linarith, ?_⟩
    constructor
    · intro hne'
      by_contra hno
      have z : ∀ {x : K} {code : ℕ}, 0 ≤ x → (0 < x ↔ Touches c c' code) → x = 0 := fun hx hq => le_antisymm (not_lt.mp fun h => hno ⟨_, hq.mp h⟩) hx
      apply hne'
      rw [z p1 q1, z p2 q2, z p3 q3, z p4 q4]; ring
    · rintro ⟨code, ht⟩
      have hcode : code = 2 * (0 : Fin 2).val + 1 + 0 ∨ code = 2 * (0 : Fin 2).val + 1 + 1 ∨ code = 2 * (1 : Fin 2).val + 1 + 0 ∨ code = 2 * (1 : Fin 2).val + 1 + 1 := by
        obtain ⟨j, h | h, -⟩ := ht
        · have := h.1; have := j.isLt; simp; omega
        · have := h.1; have := j.isLt; simp; omega
      apply ne_of_gt
      rcases hcode with rfl | rfl | rfl | rfl
      · have := q1.mpr ht; linarith
      · have := q2.mpr ht; linarith
      · have := q3.mpr ht; linarith
      · have := q4.mpr ht; linarith
  · have hP := hpos hint
    have haff : ∀ (j : Fin 2) (σ : ℕ) (hσ : σ < 2), sideSum Q (s j σ) (sampled (quadStoredAt Q) (affine2 a b)) - sideSum Q (s j σ) (fun _ => 1) * affine2 a b c.C = sgn2 σ * (s j σ).1 * b j := by
      intro j σ hσ
      rw [side_affine hw hI hc hσ (hS.spec j σ hσ) (hP j σ hσ).1.ne' a b (Or.inr fun x cx hx hxl hA => hco x cx _ hx ((childless_iff hd hI hx).mpr hxl) ((hT hx (by omega)).mp hA)),
        (hP j σ hσ).2]
      ring
    rw [hval, hur, haff 0 0 (by norm_num), haff 0 1 (by norm_num), haff 1 0 (by norm_num), haff 1 1 (by norm_num)]
    have p00 := (hP 0 0 (by norm_num)).1
    have p01 := (hP 0 1 (by norm_num)).1
    have p10 := (hP 1 0 (by norm_num)).1
    have p11 := (hP 1 1 (by norm_num)).1
    unfold lapDen sgn2
    rw [if_neg p00.ne', if_neg p01.ne', if_neg p10.ne', if_neg p11.ne']
    simp only [if_true, show (0 : ℕ) ≠ 1 by decide, if_false]
    have d0 : (s 0 0).1 + (s 0 1).1 ≠ 0 := by positivity
    have d1 : (s 1 0).1 + (s 1 1).1 ≠ 0 := by positivity
    have d0' : (s 0 1).1 + (s 0 0).1 ≠ 0 := by positivity
    have d1' : (s 1 1).1 + (s 1 0).1 ≠ 0 := by positivity
    field_simp
    ring
  · have hP := hpos hint
    have hU : ∀ (j : Fin 2) (σ : ℕ) (hσ : σ < 2), _ := fun j σ hσ => side_uniform hw hI hc hσ (hS.spec j σ hσ) (hP j σ hσ).1.ne'
      (fun x cx hx hxl hA => hun x cx _ hx ((childless_iff hd hI hx).mpr hxl) ((hT hx (by omega)).mp hA)) (quadratic2 a b g00 g01 g11)
    obtain ⟨w00, o00, v00⟩ := hU 0 0 (by norm_num)
    obtain ⟨w01, o01, v01⟩ := hU 0 1 (by norm_num)
    obtain ⟨w10, o10, v10⟩ := hU 1 0 (by norm_num)
    obtain ⟨w11, o11, v11⟩ := hU 1 1 (by norm_num)
    rw [hval, hur, v00, v01, v10, v11, o00, o01, o10, o11, w00, w01, w10, w11]
    have hW := width_pos hw hI hc
    unfold lapDen sgn2 quadratic2 affine2
    rw [if_neg hW.ne']
    simp only [if_true, show (0 : ℕ) ≠ 1 by decide, show (0 : Fin 2) ≠ 1 by decide, show (1 : Fin 2) ≠ 0 by decide, if_false]
    field_simp
    ring

end

/-- A tree with a large leaf beside small ones: the root and its first child are divided. -/
def qopTree : Option (Quad ℚ 2) := (subdivideQuadTop true (quadInit (fun _ => 0) 2) 0).bind (fun q => subdivideQuadTop true q 1)

theorem qopTree_reach {Q : Quad ℚ 2} (h : qopTree = some Q) : GradedReach (fun _ => 0) 2 Q := by
  unfold qopTree at h
  rw [Option.bind_eq_some_iff] at h
  obtain ⟨Q1, h1, h2⟩ := h
  exact .step _ _ 1 (.step _ _ 0 .init h1) h2

/-- The conditions of C100 (b) are needed: beside a larger leaf the derivative along `x` of the function `y` is not zero. -/
theorem C100_coarse_gradient_violated : ¬ ∀ (c0 : Fin 2 → ℚ) (w0 : ℚ) (Q : Quad ℚ 2), 0 < w0 → GradedReach c0 w0 Q → 1 < Q.cells.length →
    ∀ G, quadtreeGradient Q = some G → ∀ r m : ℕ, (qLeaves Q)[r]? = some m → ∀ (j : Fin 2) (a : ℚ) (b : Fin 2 → ℚ),
      rowApply G (qLeaves Q).length (sampled (quadStoredAt Q) (affine2 a b)) (r + j.val * (qLeaves Q).length) = b j := by
  intro h
  have hk : (qopTree.bind (fun q => (quadtreeGradient q).map (fun G => (decide (1 < q.cells.length), (qLeaves q)[4]?,
      rowApply G (qLeaves q).length (sampled (quadStoredAt q) (affine2 0 (fun k => if k = 0 then 0 else 1))) (4 + (0 : Fin 2).val * (qLeaves q).length))))) =
      some (true, some 6, 1 / 5) := by decide +kernel
  obtain ⟨Q, hQ, hk⟩ := Option.bind_eq_some_iff.mp hk
  obtain ⟨G, hG, hk⟩ := Option.map_eq_some_iff.mp hk
  simp only [Prod.mk.injEq, decide_eq_true_eq] at hk
  have := h _ _ Q (by norm_num) (qopTree_reach hQ) hk.1 G hG 4 6 hk.2.1 0 0 (fun k => if k = 0 then 0 else 1)
  rw [this] at hk
  exact absurd hk.2.2 (by norm_num)

/-- The same for the Laplacian: at a leaf with neighbours on all four sides, two of them larger, an affine function has a non-zero Laplacian. -/
theorem C100_coarse_laplacian_violated : ¬ ∀ (c0 : Fin 2 → ℚ) (w0 : ℚ) (Q : Quad ℚ 2), 0 < w0 → GradedReach c0 w0 Q → 1 < Q.cells.length →
    ∀ L, quadtreeLaplacian Q = some L → ∀ (r m : ℕ), (qLeaves Q)[r]? = some m →
      (∀ code, 1 ≤ code → code ≤ 4 → ∃ x, x < Q.cells.length ∧ Q.A m x = code) → ∀ (a : ℚ) (b : Fin 2 → ℚ),
      rowApply L (qLeaves Q).length (sampled (quadStoredAt Q) (affine2 a b)) r = 0 := by
  intro h
  have hk : (qopTree.bind (fun q => (quadtreeLaplacian q).map (fun L => (decide (1 < q.cells.length), (qLeaves q)[6]?,
      decide (∀ code ∈ List.range 4, ∃ x ∈ List.range q.cells.length, q.A 8 x = 1 + code),
      rowApply L (qLeaves q).length (sampled (quadStoredAt q) (affine2 0 (fun k => if k = 0 then 0 else 1))) 6)))) =
      some (true, some 8, true, -8 / 15) := by decide +kernel
  obtain ⟨Q, hQ, hk⟩ := Option.bind_eq_some_iff.mp hk
  obtain ⟨G, hG, hk⟩ := Option.map_eq_some_iff.mp hk
  simp only [Prod.mk.injEq, decide_eq_true_eq] at hk
  have := h _ _ Q (by norm_num) (qopTree_reach hQ) hk.1 G hG 6 8 hk.2.1 (fun code h1 h4 => by
    obtain ⟨x, hx, hA⟩ := hk.2.2.1 (code - 1) (List.mem_range.mpr (by omega))
    exact ⟨x, List.mem_range.mp hx, by omega⟩) 0 (fun k => if k = 0 then 0 else 1)
  rw [this] at hk
  exact absurd hk.2.2.2 (by norm_num)

/-- On an octree `quadtree_laplacian` fails: its table of distances has five entries. -/
theorem C100_octree_violated : ∃ Q : Quad ℚ 3, GradedReach (fun _ => 0) 2 Q ∧ 1 < Q.cells.length ∧ quadtreeLaplacian Q = none := by
  have hk : ((subdivideQuadTop true (quadInit (K := ℚ) (dim := 3) (fun _ => 0) 2) 0).map (fun q => (decide (1 < q.cells.length), (quadtreeLaplacian q).isSome))) = some (true, false) := by
    decide +kernel
  obtain ⟨Q, hQ, hk⟩ := Option.map_eq_some_iff.mp hk
  simp only [Prod.mk.injEq, decide_eq_true_eq] at hk
  refine ⟨Q, .step _ _ 0 .init hQ, hk.1, ?_⟩
  simpa using hk.2

/-- On the root alone both functions fail: a division by zero, and a 0-dimensional array. -/
theorem C100_single_cell_violated {K : Type} [Field K] [LinearOrder K] (c0 : Fin 2 → K) (w0 : K) :
    quadtreeGradient (quadInit c0 w0) = none ∧ quadtreeLaplacian (quadInit c0 w0) = none := by
  have hL : qLeaves (quadInit c0 w0) = [0] := by
    simp [qLeaves, quadInit, isLeafCell]
  have hn : ∀ j, j ≠ 0 → qNbs (quadInit c0 w0) 0 j = [] := by
    intro j hj
    simp only [qNbs, quadInit, List.length_singleton]
    simp [Ne.symm hj]
  have hs : ∀ j, j ≠ 0 → qSide (quadInit c0 w0) 0 j = some (0, []) := by
    intro j hj
    unfold qSide
    rw [hn j hj]; rfl
  constructor
  · unfold quadtreeGradient
    simp only [hL]
    have : gradTriplets (quadInit c0 w0) 1 0 0 = none := by
      unfold gradTriplets
      simp only [hs 1 (by norm_num), hs 2 (by norm_num), hs 3 (by norm_num), hs 4 (by norm_num), Option.bind_eq_bind, Option.bind_some]
      rw [if_pos (Or.inl (add_zero _))]
    simp [this]
  · unfold quadtreeLaplacian
    simp [hL]

/-! ### The hypotheses can be met -/

example : qopTree.map (fun Q => (Q.cells.length, qLeaves Q)) = some (9, [2, 3, 4, 5, 6, 7, 8]) := by decide +kernel

/-- Leaf 6 has a larger neighbour on the right, yet the derivative along `x` of `2 + 3 x` is exact; beside no larger leaf `2 + 3 x + 5 y` has derivative 5 along `y`. -/
example : (qopTree.bind (fun q => (quadtreeGradient q).map (fun G =>
    (rowApply G 7 (sampled (quadStoredAt q) (affine2 2 (fun k => if k = 0 then 3 else 0))) 4,
     rowApply G 7 (sampled (quadStoredAt q) (affine2 2 (fun k => if k = 0 then 3 else 5))) (4 + 7))))) = some (3, 5) := by decide +kernel

/-- A tree of sixteen equal leaves: the Laplacian of `x² + 3 y²` at an inner leaf. -/
example : (((([1, 2, 3, 4] : List ℕ).foldlM (fun q i => subdivideQuadTop true q i) =<< subdivideQuadTop true (quadInit (K := ℚ) (dim := 2) (fun _ => 0) 2) 0)).bind (fun q =>
    (quadtreeLaplacian q).map (fun L => ((quadStoredAt q)[3]?.map (fun p => (p 0, p 1)), rowApply L 16 (sampled (quadStoredAt q) (quadratic2 7 (fun _ => 1) 1 0 3)) 3)))) =
    some (some ((-1 / 4 : ℚ), (-1 / 4 : ℚ)), (8 : ℚ)) := by decide +kernel

end Gpy
