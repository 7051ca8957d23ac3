import Verif.Proofs.QuadOperators3
import Verif.Proofs.ClosestPoint

set_option autoImplicit false
namespace Gpy
open Np

variable {K : Type} [Field K] [LinearOrder K] [IsStrictOrderedRing K]

section
variable {c0 : Fin 2 → K} {w0 : K} {Q : Quad K 2} {ad : ℕ → Fin 2 → ℕ} (hI : QInv c0 w0 Q ad)
include hI

theorem leaf_ne_zero (hQ : 1 < Q.cells.length) {i : ℕ} {c : QuadCell K 2} (hc : Q.cells[i]? = some c) (hl : isLeafCell c = true) : i ≠ 0 := by
  rintro rfl
  have hd : (2 : ℕ) = 2 ∨ (2 : ℕ) = 3 := Or.inl rfl
  obtain ⟨p, cp, m, k, -, hp0, hp, hch, -⟩ := hI.par 1 _ (List.getElem?_eq_getElem hQ) (by omega)
  have : p = 0 := by omega
  subst this
  rw [hc] at hp
  cases Option.some.inj hp
  rw [isLeaf_iff hd hI hc, hch] at hl
  have h0 : ((m + 0 : ℕ) : Int) ∈ chRow 2 m := List.mem_of_getElem? (chRow_get m 0 (by norm_num))
  rw [hl] at h0
  have := List.eq_of_mem_replicate h0
  omega

theorem exists_leaf : ∃ (i : ℕ) (c : QuadCell K 2), Q.cells[i]? = some c ∧ isLeafCell c = true := by
  have hd : (2 : ℕ) = 2 ∨ (2 : ℕ) = 3 := Or.inl rfl
  obtain ⟨c, hc, -⟩ := hI.root
  have hlen := (List.getElem?_eq_some_iff.mp hc).1
  have hlt : Q.cells.length - 1 < Q.cells.length := by omega
  refine ⟨_, _, List.getElem?_eq_getElem hlt, ?_⟩
  rcases hI.ch _ _ (List.getElem?_eq_getElem hlt) with e | ⟨m, -, hm, h⟩
  · exact (isLeaf_iff hd hI (List.getElem?_eq_getElem hlt)).mpr e
  · obtain ⟨c', h', -⟩ := h 0 (by norm_num)
    have := (List.getElem?_eq_some_iff.mp h').1
    omega

end

/-- What is used about the sides of one leaf. -/
structure Sides (Q : Quad K 2) (i : ℕ) (c : QuadCell K 2) (s : Fin 2 → ℕ → K × List (ℕ × K)) : Prop where
  eq : ∀ (j : Fin 2) (σ : ℕ), σ < 2 → qSide Q i (2 * j.val + 1 + σ) = some (s j σ)
  spec : ∀ (j : Fin 2) (σ : ℕ), σ < 2 → SideSpec Q i c (2 * j.val + 1 + σ) (s j σ)

theorem sides_exist {c0 : Fin 2 → K} {w0 : K} {Q : Quad K 2} (hR : GradedReach c0 w0 Q) {i : ℕ} {c : QuadCell K 2} (hc : Q.cells[i]? = some c)
    (hl : isLeafCell c = true) : ∃ s, Sides Q i c s := by
  have h := fun (j : Fin 2) (σ : Fin 2) => qside_spec hR hc hl j σ.val σ.isLt
  choose f hf1 hf2 using h
  refine ⟨fun j σ => if h : σ < 2 then f j ⟨σ, h⟩ else (0, []), ?_, ?_⟩
  · intro j σ hσ
    rw [dif_pos hσ]; exact hf1 j ⟨σ, hσ⟩
  · intro j σ hσ
    rw [dif_pos hσ]; exact hf2 j ⟨σ, hσ⟩

section
variable {c0 : Fin 2 → K} {w0 : K} {Q : Quad K 2} {ad : ℕ → Fin 2 → ℕ} (hw : 0 < w0) (hI : QInv c0 w0 Q ad)
  {i : ℕ} {c : QuadCell K 2} (hc : Q.cells[i]? = some c) {s : Fin 2 → ℕ → K × List (ℕ × K)} (hS : Sides Q i c s)
include hw hI hc hS

theorem side_nonneg (j : Fin 2) {σ : ℕ} (hσ : σ < 2) : 0 ≤ (s j σ).1 := by
  rcases side_const hw hI hc (hS.spec j σ hσ) with ⟨e, -⟩ | ⟨h, -⟩
  · rw [e]
  · exact h.le

theorem axis_pos (hi : i ≠ 0) (j : Fin 2) : 0 < (s j 0).1 + (s j 1).1 := by
  have h0 := side_nonneg hw hI hc hS j (show 0 < 2 by norm_num)
  have h1 := side_nonneg hw hI hc hS j (show 1 < 2 by norm_num)
  obtain ⟨σ, x, b, hσ, hx, hA⟩ := sibling hI hc hi j
  have hp : 0 < (s j σ).1 := by
    rcases side_const hw hI hc (hS.spec j σ hσ) with ⟨-, h⟩ | ⟨h, -⟩
    · exact absurd hA (h x b hx)
    · exact h
  have : σ = 0 ∨ σ = 1 := by omega
  rcases this with rfl | rfl <;> linarith

/-- The value used for a side, the leaf's own value when the side is empty. -/
theorem val_const (j : Fin 2) {σ : ℕ} (hσ : σ < 2) (a v : K) (hv : v = a) : sideSum Q (s j σ) (fun _ => a) + (if (s j σ).1 = 0 then v else 0) = a := by
  rcases side_const hw hI hc (hS.spec j σ hσ) with ⟨e, -⟩ | ⟨h, h', -⟩
  · rw [e]; simp [sideSum, hv]
  · rw [if_neg h.ne', h', add_zero]

theorem val_affine (j : Fin 2) {σ : ℕ} (hσ : σ < 2) (a : K) (b : Fin 2 → K)
    (hcond : (∀ o, o ≠ j → b o = 0) ∨ ∀ x cx, Q.cells[x]? = some cx → isLeafCell cx = true → Q.A i x = 2 * j.val + 1 + σ → c.D ≤ cx.D) :
    sideSum Q (s j σ) (sampled (quadStoredAt Q) (affine2 a b)) + (if (s j σ).1 = 0 then affine2 a b c.C else 0) = affine2 a b c.C + sgn2 σ * (s j σ).1 * b j := by
  rcases side_const hw hI hc (hS.spec j σ hσ) with ⟨e, -⟩ | ⟨h, -⟩
  · rw [e]; simp [sideSum]
  · rw [if_neg h.ne', add_zero]
    exact side_affine hw hI hc hσ (hS.spec j σ hσ) h.ne' a b hcond

end

theorem mapM_exists {α β : Type} (f : α → Option β) : ∀ (l : List α), (∀ x ∈ l, ∃ y, f x = some y) → ∃ ys, l.mapM f = some ys := by
  intro l
  induction l with
  | nil => intro _; exact ⟨[], by simp⟩
  | cons x l ih =>
    intro h
    obtain ⟨y, hy⟩ := h x (by simp)
    obtain ⟨ys, hys⟩ := ih (fun z hz => h z (List.mem_cons_of_mem _ hz))
    exact ⟨y :: ys, by rw [List.mapM_cons, hy, hys]; rfl⟩

theorem mem_range_zip {L : List ℕ} {p : ℕ × ℕ} (h : p ∈ (List.range L.length).zip L) : L[p.1]? = some p.2 := by
  obtain ⟨k, hk⟩ := List.getElem?_of_mem h
  rw [List.getElem?_zip_eq_some] at hk
  obtain ⟨h1, h2⟩ := hk
  have h3 := (List.getElem?_eq_some_iff.mp h1)
  obtain ⟨h4, h5⟩ := h3
  rw [List.getElem_range] at h5
  rw [← h5]; exact h2

/-- Everything about one row of the gradient. -/
theorem grad_row {c0 : Fin 2 → K} {w0 : K} (hw : 0 < w0) {Q : Quad K 2} (hR : GradedReach c0 w0 Q) (hQ : 1 < Q.cells.length) :
    ∃ G, quadtreeGradient Q = some G ∧ ∀ (r m : ℕ) (c : QuadCell K 2), (qLeaves Q)[r]? = some m → Q.cells[m]? = some c → ∃ s, Sides Q m c s ∧ ∀ (u : ℕ → K) (j : Fin 2),
      rowApply G (qLeaves Q).length u (r + j.val * (qLeaves Q).length) =
        ((sideSum Q (s j 1) u + if (s j 1).1 = 0 then u r else 0) - (sideSum Q (s j 0) u + if (s j 0).1 = 0 then u r else 0)) / ((s j 0).1 + (s j 1).1) := by
  obtain ⟨ad, hI⟩ := reach_inv (Or.inl rfl) (graded_reach hR)
  set n := (qLeaves Q).length with hn
  have row : ∀ (r m : ℕ), (qLeaves Q)[r]? = some m → ∃ (c : QuadCell K 2) (s : Fin 2 → ℕ → K × List (ℕ × K)) (t : Triplets K), Q.cells[m]? = some c ∧ Sides Q m c s ∧ gradTriplets Q n r m = some t ∧
      (∀ e ∈ t, e.1 = r ∨ e.1 = r + n) ∧ (∀ e ∈ t, e.2.1 < n) ∧ ∀ (u : ℕ → K) (j : Fin 2), tripSum t u (r + j.val * n) =
        ((sideSum Q (s j 1) u + if (s j 1).1 = 0 then u r else 0) - (sideSum Q (s j 0) u + if (s j 0).1 = 0 then u r else 0)) / ((s j 0).1 + (s j 1).1) := by
    intro r m hr
    have hrn : r < n := (List.getElem?_eq_some_iff.mp hr).1
    obtain ⟨c, hc, hl⟩ := mem_qLeaves.mp (List.mem_of_getElem? hr)
    obtain ⟨s, hS⟩ := sides_exist hR hc hl
    have hm0 := leaf_ne_zero hI hQ hc hl
    obtain ⟨t, h1, h2, h3, h4, h5⟩ := grad_tripSum (Q := Q) (n := n) (i := r) hrn (hS.eq 0 0 (by norm_num)) (hS.eq 0 1 (by norm_num)) (hS.eq 1 0 (by norm_num)) (hS.eq 1 1 (by norm_num))
      (axis_pos hw hI hc hS hm0 0).ne' (axis_pos hw hI hc hS hm0 1).ne'
    refine ⟨c, s, t, hc, hS, h1, h2, ?_, ?_⟩
    · intro e he
      rcases h3 e he with h | ⟨p, hp, h⟩
      · rw [h]; exact hrn
      · rw [h]
        simp only [List.mem_append] at hp
        rcases hp with ((hp | hp) | hp) | hp
        · exact qCol_lt (side_mem hI (hS.spec 0 0 (by norm_num)) hp).1
        · exact qCol_lt (side_mem hI (hS.spec 0 1 (by norm_num)) hp).1
        · exact qCol_lt (side_mem hI (hS.spec 1 0 (by norm_num)) hp).1
        · exact qCol_lt (side_mem hI (hS.spec 1 1 (by norm_num)) hp).1
    · intro u j
      have : j = 0 ∨ j = 1 := by omega
      rcases this with rfl | rfl
      · simpa using h4 u
      · simpa using h5 u
  obtain ⟨ts, hts⟩ := mapM_exists (fun p : ℕ × ℕ => gradTriplets Q n p.1 p.2) ((List.range (qLeaves Q).length).zip (qLeaves Q)) (by
    intro p hp
    obtain ⟨-, -, t, -, -, h, -⟩ := row p.1 p.2 (mem_range_zip hp)
    exact ⟨t, h⟩)
  have hcols : ∀ e ∈ ts.flatten, e.2.1 < n := by
    intro e he
    obtain ⟨t, ht, he⟩ := List.mem_flatten.mp he
    obtain ⟨p, hp, hpt⟩ := mapM_mem hts t ht
    obtain ⟨-, -, t', -, -, h, -, hcol, -⟩ := row p.1 p.2 (mem_range_zip hp)
    rw [h] at hpt
    cases Option.some.inj hpt
    exact hcol e he
  refine ⟨cooGet ts.flatten, ?_, ?_⟩
  · unfold quadtreeGradient
    change Option.map _ (List.mapM (fun p : ℕ × ℕ => gradTriplets Q n p.1 p.2) ((List.range (qLeaves Q).length).zip (qLeaves Q))) = _
    rw [hts]; rfl
  · intro r m c hr hc
    obtain ⟨c', s, t, hc', hS, ht, hrow, -, hsum⟩ := row r m hr
    rw [hc] at hc'
    cases Option.some.inj hc'
    refine ⟨s, hS, fun u j => ?_⟩
    rw [rowApply_coo _ _ _ _ (fun e he _ => hcols e he), ← hsum u j]
    have hrn : r < n := (List.getElem?_eq_some_iff.mp hr).1
    refine rows_spec (F := gradTriplets Q n) hts hr u ?_ ht
    intro p x t' hp hF hne e he hei
    have hpn : p < n := (List.getElem?_eq_some_iff.mp hp).1
    obtain ⟨-, -, t'', -, -, h, hrow', -⟩ := row p x hp
    rw [hF] at h
    cases Option.some.inj h
    have : j = 0 ∨ j = 1 := by omega
    rcases hrow' e he with h | h <;> rcases this with rfl | rfl <;> simp at hei <;> omega

theorem tripSum_ind (t : Triplets K) (i j : ℕ) : tripSum t (fun k => if k = j then 1 else 0) i = cooGet t i j := by
  induction t with
  | nil => simp [tripSum, cooGet]
  | cons e t ih =>
    unfold tripSum cooGet at ih ⊢
    by_cases h : e.1 = i
    · by_cases h' : e.2.1 = j
      · simp [h, h'] at ih ⊢; rw [ih]
      · simp [h, h'] at ih ⊢; exact ih
    · simp [h] at ih ⊢; exact ih

/-- Everything about one row of the Laplacian. -/
theorem lap_row {c0 : Fin 2 → K} {w0 : K} (hw : 0 < w0) {Q : Quad K 2} (hR : GradedReach c0 w0 Q) (hQ : 1 < Q.cells.length) :
    ∃ L, quadtreeLaplacian Q = some L ∧ ∀ (r m : ℕ) (c : QuadCell K 2), (qLeaves Q)[r]? = some m → Q.cells[m]? = some c → ∃ s, Sides Q m c s ∧
      (∀ (u : ℕ → K), rowApply L (qLeaves Q).length u r =
        2 * ((sideSum Q (s 0 0) u - sideSum Q (s 0 0) (fun _ => 1) * u r) / lapDen (s 0 0).1 (s 0 1).1 +
          (sideSum Q (s 0 1) u - sideSum Q (s 0 1) (fun _ => 1) * u r) / lapDen (s 0 1).1 (s 0 0).1 +
          (sideSum Q (s 1 0) u - sideSum Q (s 1 0) (fun _ => 1) * u r) / lapDen (s 1 0).1 (s 1 1).1 +
          (sideSum Q (s 1 1) u - sideSum Q (s 1 1) (fun _ => 1) * u r) / lapDen (s 1 1).1 (s 1 0).1)) ∧
      ∀ r', r' ≠ r → L r r' = 2 * (sideSum Q (s 0 0) (fun k => if k = r' then 1 else 0) / lapDen (s 0 0).1 (s 0 1).1 +
          sideSum Q (s 0 1) (fun k => if k = r' then 1 else 0) / lapDen (s 0 1).1 (s 0 0).1 +
          sideSum Q (s 1 0) (fun k => if k = r' then 1 else 0) / lapDen (s 1 0).1 (s 1 1).1 +
          sideSum Q (s 1 1) (fun k => if k = r' then 1 else 0) / lapDen (s 1 1).1 (s 1 0).1) := by
  obtain ⟨ad, hI⟩ := reach_inv (Or.inl rfl) (graded_reach hR)
  set n := (qLeaves Q).length with hn
  have row : ∀ (r m : ℕ), (qLeaves Q)[r]? = some m → ∃ (c : QuadCell K 2) (s : Fin 2 → ℕ → K × List (ℕ × K)) (t : Triplets K), Q.cells[m]? = some c ∧ Sides Q m c s ∧ lapTriplets Q r m = some t ∧
      (∀ e ∈ t, e.1 = r) ∧ (∀ e ∈ t, e.2.1 < n) ∧ ∀ (u : ℕ → K), tripSum t u r =
        -(sideSum Q (s 0 0) u / lapDen (s 0 0).1 (s 0 1).1 + sideSum Q (s 0 1) u / lapDen (s 0 1).1 (s 0 0).1 + sideSum Q (s 1 0) u / lapDen (s 1 0).1 (s 1 1).1 +
          sideSum Q (s 1 1) u / lapDen (s 1 1).1 (s 1 0).1) := by
    intro r m hr
    obtain ⟨c, hc, hl⟩ := mem_qLeaves.mp (List.mem_of_getElem? hr)
    obtain ⟨s, hS⟩ := sides_exist hR hc hl
    obtain ⟨t, h1, h2, h3, h4⟩ := lap_tripSum (Q := Q) (i := r) (hS.eq 0 0 (by norm_num)) (hS.eq 0 1 (by norm_num)) (hS.eq 1 0 (by norm_num)) (hS.eq 1 1 (by norm_num)) (by
      simp [lapExtra])
    refine ⟨c, s, t, hc, hS, h1, h2, ?_, h4⟩
    intro e he
    obtain ⟨p, hp, h⟩ := h3 e he
    rw [h]
    simp only [List.mem_append] at hp
    rcases hp with ((hp | hp) | hp) | hp
    · exact qCol_lt (side_mem hI (hS.spec 0 0 (by norm_num)) hp).1
    · exact qCol_lt (side_mem hI (hS.spec 0 1 (by norm_num)) hp).1
    · exact qCol_lt (side_mem hI (hS.spec 1 0 (by norm_num)) hp).1
    · exact qCol_lt (side_mem hI (hS.spec 1 1 (by norm_num)) hp).1
  obtain ⟨ts, hts⟩ := mapM_exists (fun p : ℕ × ℕ => lapTriplets Q p.1 p.2) ((List.range (qLeaves Q).length).zip (qLeaves Q)) (by
    intro p hp
    obtain ⟨-, -, t, -, -, h, -⟩ := row p.1 p.2 (mem_range_zip hp)
    exact ⟨t, h⟩)
  have hcols : ∀ e ∈ ts.flatten, e.2.1 < n := by
    intro e he
    obtain ⟨t, ht, he⟩ := List.mem_flatten.mp he
    obtain ⟨p, hp, hpt⟩ := mapM_mem hts t ht
    obtain ⟨-, -, t', -, -, h, -, hcol, -⟩ := row p.1 p.2 (mem_range_zip hp)
    rw [h] at hpt
    cases Option.some.inj hpt
    exact hcol e he
  have h1 : (qLeaves Q).length ≠ 1 := by
    intro h1
    obtain ⟨i, c, hc, hl⟩ := exists_leaf hI
    have hi0 := leaf_ne_zero hI hQ hc hl
    obtain ⟨s, hS⟩ := sides_exist hR hc hl
    obtain ⟨σ, x, b, hσ, hx, hA⟩ := sibling hI hc hi0 0
    have hmem : ∃ e, e ∈ (s 0 σ).2 := by
      have hsp := hS.spec 0 σ hσ
      generalize s 0 σ = r at hsp
      cases hsp with
      | empty h => exact absurd hA (h x b hx)
      | one m => exact ⟨(m, 1), by simp⟩
      | two x y => exact ⟨(x, 1 / 2), by simp⟩
    obtain ⟨e, he⟩ := hmem
    obtain ⟨he1, he2, -⟩ := side_mem hI (hS.spec 0 σ hσ) he
    obtain ⟨a, ha⟩ := List.length_eq_one_iff.mp h1
    have e1 : i = a := by
      have := mem_qLeaves.mpr ⟨c, hc, hl⟩
      rw [ha] at this; simpa using this
    have e2 : e.1 = a := by rw [ha] at he1; simpa using he1
    rw [e2, ← e1] at he2
    have := axis_dist hw hI hc hc hσ he2
    have hW := width_pos hw hI hc
    unfold sgn2 at this
    split_ifs at this <;> linarith
  refine ⟨fun i j => -2 * cooGet ts.flatten i j - (if i = j then ((List.range (qLeaves Q).length).map (fun k => -2 * cooGet ts.flatten i k)).sum else 0), ?_, ?_⟩
  · unfold quadtreeLaplacian
    change (if (qLeaves Q).length = 1 then none else Option.map _ (List.mapM (fun p : ℕ × ℕ => lapTriplets Q p.1 p.2) ((List.range (qLeaves Q).length).zip (qLeaves Q)))) = _
    rw [if_neg h1, hts]; rfl
  · intro r m c hr hc
    obtain ⟨c', s, t, hc', hS, ht, hrow, -, hsum⟩ := row r m hr
    rw [hc] at hc'
    cases Option.some.inj hc'
    have hrn : r < n := (List.getElem?_eq_some_iff.mp hr).1
    have hT : ∀ u, tripSum ts.flatten u r = tripSum t u r := by
      intro u
      refine rows_spec (F := lapTriplets Q) hts hr u ?_ ht
      intro p x t' hp hF hne e he hei
      obtain ⟨-, -, t'', -, -, h, hrow', -⟩ := row p x hp
      rw [hF] at h
      cases Option.some.inj h
      rw [hrow' e he] at hei
      exact hne hei
    refine ⟨s, hS, fun u => ?_, fun r' hr' => ?_⟩
    · have hu := rowApply_coo n u r ts.flatten (fun e he _ => hcols e he)
      have h1 := rowApply_coo n (fun _ => 1) r ts.flatten (fun e he _ => hcols e he)
      rw [hT, hsum] at hu h1
      unfold rowApply at hu h1 ⊢
      have hsplit : ∀ S : K, ((List.range n).map (fun k => (-2 * cooGet ts.flatten r k - if r = k then S else 0) * u k)).sum =
          -2 * ((List.range n).map (fun k => cooGet ts.flatten r k * u k)).sum - S * u r := by
        intro S
        rw [← sum_range_ite n r hrn S u, ← List.sum_map_mul_left]
        have : ∀ l : List ℕ, (l.map (fun k => (-2 * cooGet ts.flatten r k - if r = k then S else 0) * u k)).sum =
          (l.map (fun k => -2 * (cooGet ts.flatten r k * u k))).sum - (l.map (fun k => (if r = k then S else 0) * u k)).sum := by
          intro l
          induction l with
          | nil => simp
          | cons a l ih => simp only [List.map_cons, List.sum_cons, ih]; ring
        rw [this]
      rw [hsplit, hu]
      have hS1 : ((List.range n).map (fun k => -2 * cooGet ts.flatten r k)).sum = -2 * ((List.range n).map (fun k => cooGet ts.flatten r k * 1)).sum := by
        rw [← List.sum_map_mul_left]; simp
      rw [hS1, h1]
      ring
    · dsimp only
      rw [if_neg (Ne.symm hr'), ← tripSum_ind, hT, hsum]
      ring

end Gpy
