import Verif.Proofs.CutRelabel
import Verif.Proofs.HalfedgeEdgeMap
import Verif.Spec.Cut
import Mathlib.Algebra.Order.BigOperators.Group.Finset

set_option autoImplicit false
namespace Gpy
open Np

theorem get_ne_zero (M : Csr ℕ) (i j : ℕ) (h1 : ∀ t ∈ M.trip, t.2.2 = 1) : M.get i j ≠ 0 ↔ ∃ v, (i, j, v) ∈ M.trip := by
  unfold Csr.get
  rw [Ne, List.sum_eq_zero_iff_forall_eq_nat]
  simp only [List.mem_map, forall_exists_index, and_imp, forall_apply_eq_imp_iff₂, not_forall]
  constructor
  · rintro ⟨t, ht, h⟩
    by_cases h' : t.1 = i ∧ t.2.1 = j
    · obtain ⟨rfl, rfl⟩ := h'
      exact ⟨t.2.2, ht⟩
    · rw [if_neg h'] at h; exact absurd rfl h
  · rintro ⟨v, hv⟩
    refine ⟨_, hv, ?_⟩
    have := h1 _ hv
    simp at this
    simp [this]

theorem csrOnes_spec {rows cols : List ℕ} {r c : ℕ} (hl : cols.length = rows.length) (hr : ∀ i ∈ rows, i < r) (hc : ∀ j ∈ cols, j < c) :
    ∃ M, csrOnes rows cols r c = some M ∧ M.nrows = r ∧ M.ncols = c ∧ ∀ i j, M.get i j ≠ 0 ↔ (i, j) ∈ rows.zip cols := by
  refine ⟨⟨r, c, zip3 rows cols (List.replicate rows.length 1)⟩, ?_, rfl, rfl, ?_⟩
  · rw [csrOnes, csrMatrix, if_pos ⟨by simp, by simp [hl], hr, hc⟩]
  · intro i j
    rw [get_ne_zero]
    · constructor
      · rintro ⟨v, hv⟩
        simp only [zip3] at hv
        rw [List.mem_iff_getElem?] at hv ⊢
        obtain ⟨k, hk⟩ := hv
        refine ⟨k, ?_⟩
        rw [List.getElem?_zip_eq_some] at hk ⊢
        refine ⟨hk.1, ?_⟩
        have := hk.2
        rw [List.getElem?_zip_eq_some] at this
        exact this.1
      · intro h
        refine ⟨1, ?_⟩
        simp only [zip3]
        rw [List.mem_iff_getElem?] at h ⊢
        obtain ⟨k, hk⟩ := h
        refine ⟨k, ?_⟩
        rw [List.getElem?_zip_eq_some] at hk ⊢
        refine ⟨hk.1, ?_⟩
        rw [List.getElem?_zip_eq_some]
        refine ⟨hk.2, ?_⟩
        have := (List.getElem?_eq_some_iff.mp hk.1).1
        simp [this]
    · intro t ht
      simp only [zip3] at ht
      have h1 := (List.of_mem_zip ht).2
      have h2 := (List.of_mem_zip h1).2
      exact (List.mem_replicate.mp h2).2

/-- the entries of the corner adjacency matrix that are not zero -/
theorem cutA_ne_zero (VE UE N VV : Csr ℕ) (p q : ℕ) :
    cutA VE UE N VV p q ≠ 0 ↔
      (∃ e < VE.ncols, ∃ e' < VE.ncols, VE.get p e ≠ 0 ∧ VE.get q e' ≠ 0 ∧
        ∃ u < UE.nrows, ∃ u' < UE.nrows, UE.get u e ≠ 0 ∧ N.get u u' ≠ 0 ∧ UE.get u' e' ≠ 0) ∧
      ∃ v < VV.ncols, VV.get p v ≠ 0 ∧ VV.get q v ≠ 0 := by
  unfold cutA
  rw [Nat.mul_ne_zero_iff]
  refine and_congr ?_ ?_
  · rw [Ne, Finset.sum_eq_zero_iff]
    simp only [Finset.sum_eq_zero_iff, mul_eq_zero, Finset.mem_range]
    push Not
    constructor
    · rintro ⟨e, he, e', he', h1, h2⟩
      obtain ⟨h1, u, hu, u', hu', ⟨h3, h4⟩, h5⟩ := h1
      exact ⟨e, he, e', he', h1, h2, u, hu, u', hu', h3, h4, h5⟩
    · rintro ⟨e, he, e', he', h1, h2, u, hu, u', hu', h3, h4, h5⟩
      exact ⟨e, he, e', he', ⟨h1, u, hu, u', hu', ⟨h3, h4⟩, h5⟩, h2⟩
  · rw [Ne, Finset.sum_eq_zero_iff]
    simp only [mul_eq_zero, Finset.mem_range]
    push Not
    rfl

theorem mem_vvToEe {m p e : ℕ} : (p, e) ∈ (vvToEeRows m).zip (vvToEeCols m) ↔
    ∃ f < m, ∃ a b : Fin 3, a ≠ b ∧ p = a.val * m + f ∧ e = b.val * m + f := by
  have hz : ∀ a b : ℕ, (ffCol m a).zip (ffCol m b) = (List.range m).map (fun f => (a * m + f, b * m + f)) := by
    intro a b
    unfold ffCol
    generalize List.range m = l
    induction l with
    | nil => rfl
    | cons x t ih => simp only [List.map_cons, List.zip_cons_cons, ih]
  have hl : ∀ a, (ffCol m a).length = m := by intro a; simp [ffCol]
  unfold vvToEeRows vvToEeCols
  rw [List.zip_append (by simp [hl]), List.zip_append (by simp [hl]), List.zip_append (by simp [hl]), List.zip_append (by simp [hl]),
    List.zip_append (by simp [hl]), hz, hz, hz, hz, hz, hz]
  simp only [List.mem_append, List.mem_map, List.mem_range, Prod.mk.injEq]
  constructor
  · rintro (((((⟨f, hf, rfl, rfl⟩ | ⟨f, hf, rfl, rfl⟩) | ⟨f, hf, rfl, rfl⟩) | ⟨f, hf, rfl, rfl⟩) | ⟨f, hf, rfl, rfl⟩) | ⟨f, hf, rfl, rfl⟩)
    · exact ⟨f, hf, 0, 1, by decide, rfl, rfl⟩
    · exact ⟨f, hf, 1, 2, by decide, rfl, rfl⟩
    · exact ⟨f, hf, 2, 0, by decide, rfl, rfl⟩
    · exact ⟨f, hf, 0, 2, by decide, rfl, rfl⟩
    · exact ⟨f, hf, 1, 0, by decide, rfl, rfl⟩
    · exact ⟨f, hf, 2, 1, by decide, rfl, rfl⟩
  · rintro ⟨f, hf, a, b, hab, rfl, rfl⟩
    match a, b, hab with
    | 0, 0, h => exact absurd rfl h
    | 1, 1, h => exact absurd rfl h
    | 2, 2, h => exact absurd rfl h
    | 0, 1, _ => exact Or.inl (Or.inl (Or.inl (Or.inl (Or.inl ⟨f, hf, rfl, rfl⟩))))
    | 1, 2, _ => exact Or.inl (Or.inl (Or.inl (Or.inl (Or.inr ⟨f, hf, rfl, rfl⟩))))
    | 2, 0, _ => exact Or.inl (Or.inl (Or.inl (Or.inr ⟨f, hf, rfl, rfl⟩)))
    | 0, 2, _ => exact Or.inl (Or.inl (Or.inr ⟨f, hf, rfl, rfl⟩))
    | 1, 0, _ => exact Or.inl (Or.inr ⟨f, hf, rfl, rfl⟩)
    | 2, 1, _ => exact Or.inr ⟨f, hf, rfl, rfl⟩

/-- number of a corner, in column-major order -/
def enc (m : ℕ) (x : ℕ × Fin 3) : ℕ := x.2.val * m + x.1

theorem enc_lt {m : ℕ} {x : ℕ × Fin 3} (h : x.1 < m) : enc m x < 3 * m := by
  unfold enc
  have : x.2.val * m ≤ 2 * m := Nat.mul_le_mul_right _ (by omega)
  omega

theorem enc_inj {m : ℕ} {x y : ℕ × Fin 3} (hx : x.1 < m) (hy : y.1 < m) (h : enc m x = enc m y) : x = y := by
  unfold enc at h
  have h1 := congrArg (· % m) h
  simp only [Nat.mul_add_mod_self_right, Nat.mod_eq_of_lt hx, Nat.mod_eq_of_lt hy] at h1
  have h2 : x.2.val * m = y.2.val * m := by omega
  have h3 := Nat.eq_of_mul_eq_mul_right (by omega) h2
  exact Prod.ext h1 (Fin.ext h3)

def dec (m : ℕ) (p : ℕ) : ℕ × Fin 3 := (p % m, Fin.ofNat 3 (p / m))

theorem enc_dec {m p : ℕ} (h : p < 3 * m) : enc m (dec m p) = p ∧ (dec m p).1 < m := by
  have hm : 0 < m := by omega
  have h3 : p / m < 3 := by rw [Nat.div_lt_iff_lt_mul hm]; omega
  unfold enc dec
  refine ⟨?_, Nat.mod_lt _ hm⟩
  simp only [Fin.ofNat, Nat.mod_eq_of_lt h3]
  exact Nat.div_add_mod' p m

theorem mem_ravel_zip {F : List Tri} {p v : ℕ} : (p, v) ∈ (ffRavel F.length).zip (ravelC F) ↔
    ∃ f t c, F[f]? = some t ∧ p = enc F.length (f, c) ∧ v = t.corner c := by
  have hr : ∀ (f : ℕ) (c : Fin 3), (ravelC F)[3 * f + c.val]? = F[f]?.map (fun t => t.corner c) :=
    fun f c => flatMap3_get F (fun (t : Tri) (c : Fin 3) => t.corner c) f c
  rw [List.mem_iff_getElem?]
  constructor
  · rintro ⟨k, hk⟩
    rw [List.getElem?_zip_eq_some] at hk
    obtain ⟨h1, h2⟩ := hk
    have hkk : 3 * (k / 3) + (⟨k % 3, Nat.mod_lt _ (by omega)⟩ : Fin 3).val = k := by simp; omega
    have hlen : (ffRavel F.length).length = 3 * F.length := by simp [ffRavel]; omega
    have hk3 : k < 3 * F.length := by rw [← hlen]; exact (List.getElem?_eq_some_iff.mp h1).1
    have hf : k / 3 < F.length := by omega
    have a1 := ffRavel_get hf ⟨k % 3, Nat.mod_lt _ (by omega)⟩
    have a2 := hr (k / 3) ⟨k % 3, Nat.mod_lt _ (by omega)⟩
    rw [hkk, h1] at a1
    rw [hkk, h2, List.getElem?_eq_getElem hf, Option.map_some] at a2
    exact ⟨k / 3, _, _, List.getElem?_eq_getElem hf, Option.some.inj a1, Option.some.inj a2⟩
  · rintro ⟨f, t, c, hf, rfl, rfl⟩
    refine ⟨3 * f + c.val, ?_⟩
    rw [List.getElem?_zip_eq_some]
    refine ⟨ffRavel_get (List.getElem?_eq_some_iff.mp hf).1 c, ?_⟩
    rw [hr, hf]; rfl

theorem zip_range_mem {l : List ℕ} {n : ℕ} (hl : l.length = n) {u e : ℕ} : (u, e) ∈ l.zip (List.range n) ↔ l[e]? = some u := by
  rw [List.mem_iff_getElem?]
  constructor
  · rintro ⟨k, hk⟩
    rw [List.getElem?_zip_eq_some] at hk
    have := (List.getElem?_eq_some_iff.mp hk.1).1
    rw [List.getElem?_range (by omega)] at hk
    obtain rfl := Option.some.inj hk.2
    exact hk.1
  · intro h
    have := (List.getElem?_eq_some_iff.mp h).1
    exact ⟨e, by rw [List.getElem?_zip_eq_some]; exact ⟨h, List.getElem?_range (by omega)⟩⟩

theorem zip_self_mem {l : List ℕ} {u u' : ℕ} : (u, u') ∈ l.zip l ↔ u = u' ∧ u ∈ l := by
  rw [List.mem_iff_getElem?]
  constructor
  · rintro ⟨k, hk⟩
    rw [List.getElem?_zip_eq_some] at hk
    refine ⟨Option.some.inj (hk.1.symm.trans hk.2), List.mem_of_getElem? hk.1⟩
  · rintro ⟨rfl, h⟩
    obtain ⟨k, hk⟩ := List.mem_iff_getElem?.mp h
    exact ⟨k, by rw [List.getElem?_zip_eq_some]; exact ⟨hk, hk⟩⟩

theorem cutLabels_spec (cc : ℕ → (ℕ → ℕ → ℕ) → List ℕ) {F : List Tri} (hF : F ≠ []) {E : List Edge} (hE : E ≠ []) :
    ∃ A, cutLabels cc F E = some (cc (3 * F.length) A) ∧
      ∀ x y : ℕ × Fin 3, x.1 < F.length → y.1 < F.length → (A (enc F.length x) (enc F.length y) ≠ 0 ↔ CutAdj F E x y) := by
  have hm : 0 < F.length := List.length_pos_iff.mpr hF
  obtain ⟨S, hS⟩ : ∃ S, S = (flatL F).map Edge.sort := ⟨_, rfl⟩
  have hSl : S.length = 3 * F.length := by rw [hS, List.length_map, length_flatL]
  have hrl : (ravelC F).length = 3 * F.length := by simp [ravelC]; omega
  obtain ⟨mx, m1, m2, m3⟩ := npMaxInt_spec (F := (ravelC F).map (fun k : ℕ => (k : Int))) (by
    intro h; have := congrArg List.length h; rw [List.length_map, hrl] at this; simp at this; exact hF this)
  have hcorr := arrayCorrespondence_eq ((npUnique S).map Edge.sort) (E.map Edge.sort) (by simpa using hE)
  obtain ⟨notE, hn⟩ : ∃ notE, notE = npWhere ((((npUnique S).map Edge.sort).map
    (fun x => if x ∈ E.map Edge.sort then ((E.map Edge.sort).idxOf x : Int) else -1)).map (fun x => decide (x < 0))) := ⟨_, rfl⟩
  have hnotE : ∀ u, u ∈ notE ↔ ∃ s, (npUnique S)[u]? = some s ∧ s ∉ E.map Edge.sort := by
    intro u
    rw [hn, mem_npWhere_map]
    simp only [List.getElem?_map, Option.map_eq_some_iff]
    constructor
    · rintro ⟨x, ⟨y, ⟨s, hs, rfl⟩, rfl⟩, hx⟩
      have hss : s.sort = s := by
        have := mem_npUnique.mp (List.mem_of_getElem? hs)
        rw [hS, List.mem_map] at this
        obtain ⟨e, -, rfl⟩ := this
        exact Edge.sort_sort e
      refine ⟨s, hs, ?_⟩
      intro hmem
      rw [hss, if_pos hmem] at hx
      simp at hx
      omega
    · rintro ⟨s, hs, hmem⟩
      have hss : s.sort = s := by
        have := mem_npUnique.mp (List.mem_of_getElem? hs)
        rw [hS, List.mem_map] at this
        obtain ⟨e, -, rfl⟩ := this
        exact Edge.sort_sort e
      refine ⟨_, ⟨_, ⟨s, hs, rfl⟩, rfl⟩, ?_⟩
      rw [hss, if_neg hmem]; decide
  have hinvl : (npUniqueInverse S).length = 3 * F.length := by simp [npUniqueInverse, hSl]
  have hinv : ∀ e u : ℕ, (npUniqueInverse S)[e]? = some u ↔ ∃ s, S[e]? = some s ∧ (npUnique S)[u]? = some s := by
    intro e u
    rw [npUniqueInverse, List.getElem?_map, Option.map_eq_some_iff]
    constructor
    · rintro ⟨s, hs, rfl⟩
      exact ⟨s, hs, List.getElem?_idxOf (mem_npUnique.mpr (List.mem_of_getElem? hs))⟩
    · rintro ⟨s, hs, hu⟩
      refine ⟨s, hs, ?_⟩
      obtain ⟨h1, h2⟩ := List.getElem?_eq_some_iff.mp hu
      subst h2
      exact (nodup_npUnique S).idxOf_getElem _ _
  obtain ⟨N, n1, n2, n3, n4⟩ := csrOnes_spec (rows := notE) (cols := notE) (r := (npUnique S).length) (c := (npUnique S).length) rfl
    (fun i hi => by obtain ⟨s, hs, -⟩ := (hnotE i).mp hi; exact (List.getElem?_eq_some_iff.mp hs).1)
    (fun i hi => by obtain ⟨s, hs, -⟩ := (hnotE i).mp hi; exact (List.getElem?_eq_some_iff.mp hs).1)
  obtain ⟨UE, u1, u2, u3, u4⟩ := csrOnes_spec (rows := npUniqueInverse S) (cols := List.range (3 * F.length)) (r := (npUnique S).length)
    (c := 3 * F.length) (by simp [hinvl])
    (fun i hi => by
      obtain ⟨e, he⟩ := List.mem_iff_getElem?.mp hi
      obtain ⟨s, -, hs⟩ := (hinv e i).mp he
      exact (List.getElem?_eq_some_iff.mp hs).1)
    (fun j hj => List.mem_range.mp hj)
  have hVEr : ∀ i ∈ vvToEeRows F.length, i < 3 * F.length := by
    intro i hi
    simp only [vvToEeRows, ffCol, List.mem_append, List.mem_map, List.mem_range] at hi
    rcases hi with ((((⟨f, hf, rfl⟩ | ⟨f, hf, rfl⟩) | ⟨f, hf, rfl⟩) | ⟨f, hf, rfl⟩) | ⟨f, hf, rfl⟩) | ⟨f, hf, rfl⟩ <;> omega
  have hVEc : ∀ i ∈ vvToEeCols F.length, i < 3 * F.length := by
    intro i hi
    simp only [vvToEeCols, ffCol, List.mem_append, List.mem_map, List.mem_range] at hi
    rcases hi with ((((⟨f, hf, rfl⟩ | ⟨f, hf, rfl⟩) | ⟨f, hf, rfl⟩) | ⟨f, hf, rfl⟩) | ⟨f, hf, rfl⟩) | ⟨f, hf, rfl⟩ <;> omega
  obtain ⟨VE, e1, e2, e3, e4⟩ := csrOnes_spec (rows := vvToEeRows F.length) (cols := vvToEeCols F.length) (r := 3 * F.length) (c := 3 * F.length)
    (by simp [vvToEeRows, vvToEeCols, ffCol]) hVEr hVEc
  obtain ⟨VV, v1, v2, v3, v4⟩ := csrOnes_spec (rows := ffRavel F.length) (cols := ravelC F) (r := 3 * F.length) (c := (mx + 1).toNat)
    (by simp [ffRavel, ravelC]) (fun i hi => mem_ffRavel.mp hi)
    (fun j hj => by
      have := m3 (j : Int) (List.mem_map.mpr ⟨j, hj, rfl⟩)
      omega)
  refine ⟨cutA VE UE N VV, ?_, ?_⟩
  · unfold cutLabels
    dsimp only
    rw [m1, Option.bind_eq_bind, Option.bind_some, if_neg hE, halfedges_eq hF, Option.bind_eq_bind, Option.bind_some,
      flattenHe_heL, ← hS, hcorr, Option.bind_eq_bind, Option.bind_some, ← hn, n1, u1, e1, v1]
    rfl
  · intro x y hx hy
    rw [cutA_ne_zero]
    simp only [e4, u4, n4, v4, e3, u2, v3, mem_vvToEe, zip_range_mem hinvl, zip_self_mem, mem_ravel_zip, hnotE, hinv]
    have hSget : ∀ (f : ℕ) (t : Tri) (i : Fin 3), F[f]? = some t → S[i.val * F.length + f]? = some (t.side i).sort := by
      intro f t i h
      rw [hS, List.getElem?_map, flatL_get h]; rfl
    constructor
    · rintro ⟨⟨e, he, e', he', ⟨f, hf, a, b, hab, hp, rfl⟩, ⟨f', hf', a', b', hab', hp', rfl⟩, u, hu, u', hu', ⟨s, hs, hsu⟩, ⟨rfl, s2, hs2, hs2E⟩, s', hs', hsu'⟩,
        v, hv, ⟨g, t, c, hg, hgx, hvx⟩, g', t', c', hg', hgy, hvy⟩
      have ex : x = (f, a) := enc_inj hx hf hp
      have ey : y = (f', a') := enc_inj hy hf' hp'
      have ex' : x = (g, c) := enc_inj hx (List.getElem?_eq_some_iff.mp hg).1 hgx
      have ey' : y = (g', c') := enc_inj hy (List.getElem?_eq_some_iff.mp hg').1 hgy
      subst ex
      subst ey
      obtain ⟨rfl, rfl⟩ := Prod.mk.inj ex'
      obtain ⟨rfl, rfl⟩ := Prod.mk.inj ey'
      rw [hSget _ t b hg] at hs
      rw [hSget _ t' b' hg'] at hs'
      rw [hsu] at hsu' hs2
      obtain rfl := Option.some.inj hsu'
      obtain rfl := Option.some.inj hs2
      have hss := (Option.some.inj hs).trans (Option.some.inj hs').symm
      refine ⟨t, t', hg, hg', hvx.symm.trans hvy, b, b', hab.symm, hab'.symm, Edge.sort_eq_iff.mp hss.symm, ?_⟩
      intro e he hu
      apply hs2E
      rw [List.mem_map]
      exact ⟨e, he, by rw [← Option.some.inj hs]; exact (Edge.sort_eq_iff.mpr hu).symm⟩
    · rintro ⟨t, t', hg, hg', hv, i, j, hi, hj, hu, hE'⟩
      have hss : (t'.side j).sort = (t.side i).sort := Edge.sort_eq_iff.mpr hu
      have hSi := hSget _ t i hg
      have hSj := hSget _ t' j hg'
      rw [hss] at hSj
      have hmem : (t.side i).sort ∈ npUnique S := mem_npUnique.mpr (List.mem_of_getElem? hSi)
      have hidx := List.getElem?_idxOf hmem
      have hul := (List.getElem?_eq_some_iff.mp hidx).1
      refine ⟨⟨enc F.length (x.1, i), enc_lt hx, enc F.length (y.1, j), enc_lt hy, ⟨x.1, hx, x.2, i, hi.symm, rfl, rfl⟩,
        ⟨y.1, hy, y.2, j, hj.symm, rfl, rfl⟩, _, hul, _, hul, ⟨_, hSi, hidx⟩, ⟨rfl, _, hidx, ?_⟩, _, hSj, hidx⟩, t.corner x.2, ?_, ?_, ?_⟩
      · intro h
        rw [List.mem_map] at h
        obtain ⟨e, he, h⟩ := h
        exact hE' e he (Edge.sort_eq_iff.mp h.symm)
      · have hmem : t.corner x.2 ∈ ravelC F := by
          unfold ravelC
          rw [List.mem_flatMap]
          refine ⟨t, List.mem_of_getElem? hg, ?_⟩
          match x.2 with
          | 0 => simp [Tri.corner]
          | 1 => simp [Tri.corner]
          | 2 => simp [Tri.corner]
        have := m3 _ (List.mem_map.mpr ⟨_, hmem, rfl⟩)
        omega
      · exact ⟨x.1, t, x.2, hg, rfl, rfl⟩
      · exact ⟨y.1, t', y.2, hg', rfl, hv⟩

end Gpy
