import Verif.Model.PolylineSubdivide
import Verif.Props.Subdivide

/-! C137: subdivision of polylines. -/

set_option autoImplicit false
namespace Gpy
open Np

variable {K : Type} [Field K] {d : ℕ}

/-- what is known after `k` steps: `lab` names the rows of the edge list by (old edge, number of the piece) -/
structure LineInv (V : List (Fin d → K)) (F : List Edge) (k : ℕ) (Vu : List (Fin d → K)) (Fu : List Edge) (path : ℕ → ℕ → ℕ) (lab : List (ℕ × ℕ)) : Prop where
  nodup : lab.Nodup
  mem : ∀ p, p ∈ lab ↔ p.1 < F.length ∧ p.2 < 2 ^ k
  Fu : Fu = lab.map (fun p => (⟨path p.1 p.2, path p.1 (p.2 + 1)⟩ : Edge))
  len : Vu.length = V.length + F.length * (2 ^ k - 1)
  old : ∀ i < V.length, Vu[i]? = V[i]?
  ends : ∀ f e, F[f]? = some e → path f 0 = e.s ∧ path f (2 ^ k) = e.t
  pos : ∀ f e, F[f]? = some e → ∀ j ≤ 2 ^ k, Vu[path f j]? = some (fun c => vpos V e.s c + (j : K) / 2 ^ k * (vpos V e.t c - vpos V e.s c))
  new : ∀ f < F.length, ∀ j, 0 < j → j < 2 ^ k → V.length ≤ path f j
  inj : ∀ f < F.length, ∀ g < F.length, ∀ i j, 0 < i → i < 2 ^ k → 0 < j → j < 2 ^ k → path f i = path g j → f = g ∧ i = j

theorem LineInv.lablen {V : List (Fin d → K)} {F : List Edge} {k : ℕ} {Vu : List (Fin d → K)} {Fu : List Edge} {path : ℕ → ℕ → ℕ} {lab : List (ℕ × ℕ)}
    (h : LineInv V F k Vu Fu path lab) : lab.length = F.length * 2 ^ k := by
  have h1 : lab.toFinset = Finset.range F.length ×ˢ Finset.range (2 ^ k) := by
    ext p
    rw [List.mem_toFinset, h.mem, Finset.mem_product, Finset.mem_range, Finset.mem_range]
  rw [← List.toFinset_card_of_nodup h.nodup, h1, Finset.card_product, Finset.card_range, Finset.card_range]

theorem lineInv_zero (V : List (Fin d → K)) (F : List Edge) (hF : ∀ e ∈ F, e.s < V.length ∧ e.t < V.length) :
    LineInv V F 0 V F (fun f j => if j = 0 then (F.getD f ⟨0, 0⟩).s else (F.getD f ⟨0, 0⟩).t) ((List.range F.length).map (fun f => (f, 0))) := by
  have hv : ∀ i < V.length, V[i]? = some (vpos V i) := by
    intro i hi
    simp [vpos, hi]
  refine ⟨?_, ?_, ?_, by simp, fun _ _ => rfl, ?_, ?_, ?_, ?_⟩
  · exact (List.nodup_map_iff (fun a b h => (Prod.mk.inj h).1)).2 List.nodup_range
  · intro p
    simp only [List.mem_map, List.mem_range, pow_zero, Nat.lt_one_iff]
    constructor
    · rintro ⟨f, hf, rfl⟩; exact ⟨hf, rfl⟩
    · rintro ⟨h1, h2⟩; exact ⟨p.1, h1, by rw [← h2]⟩
  · rw [List.map_map]
    apply List.ext_getElem (by simp)
    intro i h1 h2
    simp [h1]
  · intro f e he
    simp [he]
  · intro f e he j hj
    have hm := hF e (List.mem_of_getElem? he)
    simp only [pow_zero] at hj
    rcases Nat.le_one_iff_eq_zero_or_eq_one.1 hj with rfl | rfl
    · simp [he, hv _ hm.1]
    · simp [he, hv _ hm.2]
  · intro f _ j h0 h1; simp at h1; omega
  · intro f _ g _ i j h0 h1; simp at h1; omega

theorem lineInv_succ (h2 : (2 : K) ≠ 0) {V : List (Fin d → K)} {F : List Edge} {k : ℕ} {Vu : List (Fin d → K)} {Fu : List Edge} {path : ℕ → ℕ → ℕ} {lab : List (ℕ × ℕ)}
    (h : LineInv V F k Vu Fu path lab) {N : List (Fin d → K)} (hl : N.length = Fu.length)
    (hN : ∀ (k : ℕ) (e : Edge) (x y : Fin d → K), Fu[k]? = some e → Vu[e.s]? = some x → Vu[e.t]? = some y → N[k]? = some (fun c => (1 / 2) * (x c + y c))) :
    LineInv V F (k + 1) (Vu ++ N) (lineChildren Vu.length Fu) (fun f j => if j % 2 = 0 then path f (j / 2) else Vu.length + lab.idxOf (f, j / 2))
      (lab.map (fun p => (p.1, 2 * p.2)) ++ lab.map (fun p => (p.1, 2 * p.2 + 1))) := by
  have hll := h.lablen
  have hp : 2 ^ (k + 1) = 2 * 2 ^ k := by rw [pow_succ]; ring
  have hlt : ∀ f e, F[f]? = some e → ∀ j ≤ 2 ^ k, path f j < Vu.length := by
    intro f e he j hj
    by_contra hc
    have := h.pos f e he j hj
    rw [List.getElem?_eq_none (by omega)] at this
    cases this
  have hidx : ∀ f j, f < F.length → j < 2 ^ k → lab.idxOf (f, j) < lab.length := fun f j hf hj => List.idxOf_lt_length_of_mem ((h.mem _).2 ⟨hf, hj⟩)
  refine ⟨?_, ?_, ?_, ?_, ?_, ?_, ?_, ?_, ?_⟩
  · refine List.Nodup.append ((List.nodup_map_iff_inj_on h.nodup).2 ?_) ((List.nodup_map_iff_inj_on h.nodup).2 ?_) ?_
    · rintro ⟨a, b⟩ - ⟨c, e⟩ - hx
      have := Prod.mk.inj hx
      ext <;> simp only <;> omega
    · rintro ⟨a, b⟩ - ⟨c, e⟩ - hx
      have := Prod.mk.inj hx
      ext <;> simp only <;> omega
    · rintro p hp1 hp2
      rw [List.mem_map] at hp1 hp2
      obtain ⟨a, -, rfl⟩ := hp1
      obtain ⟨b, -, hb⟩ := hp2
      have := (Prod.mk.inj hb).2
      omega
  · rintro ⟨f, j⟩
    simp only [List.mem_append, List.mem_map, h.mem, Prod.mk.injEq]
    constructor
    · rintro (⟨p, hp1, rfl, rfl⟩ | ⟨p, hp1, rfl, rfl⟩) <;> exact ⟨hp1.1, by omega⟩
    · rintro ⟨hf, hj⟩
      rcases Nat.mod_two_eq_zero_or_one j with hm | hm
      · exact Or.inl ⟨(f, j / 2), ⟨hf, by show j / 2 < _; omega⟩, rfl, by show 2 * (j / 2) = j; omega⟩
      · exact Or.inr ⟨(f, j / 2), ⟨hf, by show j / 2 < _; omega⟩, rfl, by show 2 * (j / 2) + 1 = j; omega⟩
  · unfold lineChildren
    rw [List.map_append, List.map_map, List.map_map]
    congr 1
    · apply List.ext_getElem (by simp [h.Fu])
      intro i h1 h3
      have hi : i < lab.length := by simpa using h3
      have hx : lab.idxOf lab[i] = i := h.nodup.idxOf_getElem i hi
      simp only [h.Fu, List.getElem_map, List.getElem_zipIdx, Function.comp, Edge.mk.injEq, Nat.mul_mod_right, if_true]
      rw [if_neg (by omega), show 2 * lab[i].2 / 2 = lab[i].2 by omega, show (2 * lab[i].2 + 1) / 2 = lab[i].2 by omega, hx]
      exact ⟨rfl, by omega⟩
    · apply List.ext_getElem (by simp [h.Fu])
      intro i h1 h3
      have hi : i < lab.length := by simpa using h3
      have hx : lab.idxOf lab[i] = i := h.nodup.idxOf_getElem i hi
      simp only [h.Fu, List.getElem_map, List.getElem_zipIdx, Function.comp, Edge.mk.injEq]
      rw [if_neg (by omega), if_pos (by omega), show (2 * lab[i].2 + 1) / 2 = lab[i].2 by omega, hx, show (2 * lab[i].2 + 1 + 1) / 2 = lab[i].2 + 1 by omega]
      exact ⟨by omega, rfl⟩
  · rw [List.length_append, hl, h.len, h.Fu, List.length_map, hll, hp]
    have : 1 ≤ 2 ^ k := Nat.one_le_two_pow
    have e : F.length * (2 * 2 ^ k - 1) = F.length * 2 ^ k + F.length * (2 ^ k - 1) := by rw [← Nat.mul_add]; congr 1; omega
    rw [e]
    omega
  · intro i hi
    rw [List.getElem?_append_left (by rw [h.len]; omega)]
    exact h.old i hi
  · intro f e he
    obtain ⟨a, b⟩ := h.ends f e he
    refine ⟨?_, ?_⟩
    · simpa using a
    · rw [hp, if_pos (by omega), show 2 * 2 ^ k / 2 = 2 ^ k by omega, b]
  · intro f e he j hj
    have hf : f < F.length := (List.getElem?_eq_some_iff.1 he).1
    rcases Nat.mod_two_eq_zero_or_one j with hm | hm
    · rw [if_pos hm, List.getElem?_append_left (hlt f e he _ (by omega)), h.pos f e he _ (by omega)]
      obtain ⟨i, rfl⟩ : ∃ i, j = 2 * i := ⟨j / 2, by omega⟩
      congr 1
      funext c
      rw [show 2 * i / 2 = i by omega, pow_succ]
      push_cast
      field_simp
    · rw [if_neg (by omega)]
      obtain ⟨i, rfl⟩ : ∃ i, j = 2 * i + 1 := ⟨j / 2, by omega⟩
      rw [show (2 * i + 1) / 2 = i by omega, List.getElem?_append_right (by omega), Nat.add_sub_cancel_left]
      have hi : i < 2 ^ k := by omega
      have hx := hidx f i hf hi
      have hrow : Fu[lab.idxOf (f, i)]? = some ⟨path f i, path f (i + 1)⟩ := by
        rw [h.Fu, List.getElem?_map, List.getElem?_eq_getElem hx, List.getElem_idxOf hx]
        rfl
      rw [hN _ _ _ _ hrow (h.pos f e he i (by omega)) (h.pos f e he (i + 1) (by omega))]
      congr 1
      funext c
      rw [pow_succ]
      push_cast
      field_simp
      ring
  · intro f hf j h0 hj
    rcases Nat.mod_two_eq_zero_or_one j with hm | hm
    · rw [if_pos hm]
      exact h.new f hf _ (by omega) (by omega)
    · rw [if_neg (by omega), h.len]
      omega
  · intro f hf g hg i j hi0 hi hj0 hj he
    have hle : ∀ f < F.length, ∀ j ≤ 2 ^ k, path f j < Vu.length := fun f hf j hj => hlt f _ (List.getElem?_eq_getElem hf) j hj
    rcases Nat.mod_two_eq_zero_or_one i with hm | hm <;> rcases Nat.mod_two_eq_zero_or_one j with hm' | hm'
    · rw [if_pos hm, if_pos hm'] at he
      have := h.inj f hf g hg _ _ (by omega) (by omega) (by omega) (by omega) he
      exact ⟨this.1, by omega⟩
    · rw [if_pos hm, if_neg (by omega)] at he
      have := hle f hf (i / 2) (by omega)
      omega
    · rw [if_neg (by omega), if_pos hm'] at he
      have := hle g hg (j / 2) (by omega)
      omega
    · rw [if_neg (by omega), if_neg (by omega)] at he
      have := (List.idxOf_inj ((h.mem (f, i / 2)).2 ⟨hf, by show i / 2 < _; omega⟩)).1 (Nat.add_left_cancel he)
      have := Prod.mk.inj this
      exact ⟨this.1, by omega⟩

theorem LineInv.range {V : List (Fin d → K)} {F : List Edge} {k : ℕ} {Vu : List (Fin d → K)} {Fu : List Edge} {path : ℕ → ℕ → ℕ} {lab : List (ℕ × ℕ)}
    (h : LineInv V F k Vu Fu path lab) : ∀ e ∈ Fu, e.s < Vu.length ∧ e.t < Vu.length := by
  intro e he
  rw [h.Fu, List.mem_map] at he
  obtain ⟨p, hp, rfl⟩ := he
  obtain ⟨h1, h2⟩ := (h.mem p).1 hp
  have key : ∀ j ≤ 2 ^ k, path p.1 j < Vu.length := by
    intro j hj
    by_contra hc
    have := h.pos p.1 _ (List.getElem?_eq_getElem h1) j hj
    rw [List.getElem?_eq_none (by omega)] at this
    cases this
  exact ⟨key _ (by omega), key _ (by omega)⟩

theorem subdividePolyline_inv (h2 : (2 : K) ≠ 0) (V : List (Fin d → K)) (F : List Edge) (hne : F ≠ []) (hV : 2 ≤ V.length) (hF : ∀ e ∈ F, e.s < V.length ∧ e.t < V.length) (k : ℕ) :
    ∃ Vu Fu S path lab, subdividePolyline k V F = some (Vu, Fu, S) ∧ LineInv V F k Vu Fu path lab ∧
      (∀ i < Vu.length, ∀ c : Fin d, vpos Vu i c = ∑ j ∈ Finset.range V.length, S i j * vpos V j c) := by
  induction k with
  | zero =>
    refine ⟨V, F, _, _, _, rfl, lineInv_zero V F hF, ?_⟩
    intro i hi c
    rw [Finset.sum_eq_single i]
    · simp [hi]
    · intro b _ hb; rw [if_neg (fun h => hb h.1.symm)]; simp
    · intro h; exact absurd (Finset.mem_range.mpr hi) h
  | succ k ih =>
    obtain ⟨V1, F1, S1, path, lab, h1, inv, hS1⟩ := ih
    have hr := inv.range
    obtain ⟨N, hN, hl, hmid⟩ := midpoints_eq V1 F1 hr
    obtain ⟨S, hS⟩ : ∃ S, upMatrix (K := K) V1.length F1 = some S := ⟨_, upMatrix_eq _ _ hr⟩
    have hlen : F1.length = F.length * 2 ^ k := by rw [inv.Fu, List.length_map, inv.lablen]
    have hpos : 0 < F1.length := by rw [hlen]; exact Nat.mul_pos (List.length_pos_iff.2 hne) (by positivity)
    refine ⟨V1 ++ N, lineChildren V1.length F1, (fun i j => ∑ l ∈ Finset.range S.ncols, S.get i l * S1 l j), _, _, ?_, lineInv_succ h2 inv hl hmid, ?_⟩
    · rw [subdividePolyline, h1, Option.bind_some]
      simp only [upsamplePolyline, if_neg (show ¬ V1.length ≤ 1 by rw [inv.len]; omega), if_neg (show ¬ F1.length = 0 by omega), hN, hS, Option.bind_eq_bind, Option.bind_some, Option.map_some]
    · intro i hi c
      obtain ⟨-, hnc, m1, m2⟩ := upMatrix_mulVec hr hS (fun l => vpos V1 l c)
      have hval : vpos (V1 ++ N) i c = S.mulVec (fun l => vpos V1 l c) i := by
        rcases Nat.lt_or_ge i V1.length with hlt | hge
        · rw [m1 i hlt]
          simp [vpos, List.getElem?_append_left hlt]
        · obtain ⟨j, rfl⟩ := Nat.exists_eq_add_of_le hge
          rw [List.length_append] at hi
          have hj : j < F1.length := by omega
          have e1 := hr _ (List.getElem_mem hj)
          have hv : ∀ i < V1.length, V1[i]? = some (vpos V1 i) := by
            intro i hi
            simp [vpos, hi]
          rw [m2 j _ (List.getElem?_eq_getElem hj)]
          have := hmid j _ _ _ (List.getElem?_eq_getElem hj) (hv _ e1.1) (hv _ e1.2)
          simp only [vpos, List.getD_eq_getElem?_getD, List.getElem?_append_right hge, Nat.add_sub_cancel_left] at this ⊢
          rw [this]
          rfl
      rw [hval]
      unfold Csr.mulVec
      rw [hnc]
      simp only [Finset.sum_mul]
      rw [Finset.sum_comm]
      apply Finset.sum_congr rfl
      intro l hl
      rw [hS1 l (Finset.mem_range.mp hl) c, Finset.mul_sum]
      apply Finset.sum_congr rfl
      intro j _
      ring

/-- **C137** Subdividing a polyline (any list of at least one edge between at least two vertices) `k` times puts `2^k - 1` new vertices on every edge, evenly spaced, each new vertex on one edge only, and replaces the edge by the `2^k` pieces
in the direction of the edge.  The old vertices keep their numbers and places, and the returned matrix takes the old to the new vertices. -/
theorem C137_polyline (h2 : (2 : K) ≠ 0) (V : List (Fin d → K)) (F : List Edge) (hne : F ≠ []) (hV : 2 ≤ V.length) (hF : ∀ e ∈ F, e.s < V.length ∧ e.t < V.length) (k : ℕ) :
    ∃ Vu Fu S, subdividePolyline k V F = some (Vu, Fu, S) ∧ Vu.length = V.length + F.length * (2 ^ k - 1) ∧ (∀ i < V.length, Vu[i]? = V[i]?) ∧
      (∀ i < Vu.length, ∀ c : Fin d, vpos Vu i c = ∑ j ∈ Finset.range V.length, S i j * vpos V j c) ∧
      ∃ path : ℕ → ℕ → ℕ, (∀ f e, F[f]? = some e → path f 0 = e.s ∧ path f (2 ^ k) = e.t ∧
          ∀ j ≤ 2 ^ k, Vu[path f j]? = some (fun c => vpos V e.s c + (j : K) / 2 ^ k * (vpos V e.t c - vpos V e.s c))) ∧
        Fu.Perm ((List.range F.length).flatMap (fun f => (List.range (2 ^ k)).map (fun j => (⟨path f j, path f (j + 1)⟩ : Edge)))) ∧
        (∀ i, V.length ≤ i ∧ i < Vu.length ↔ ∃ f < F.length, ∃ j, 0 < j ∧ j < 2 ^ k ∧ path f j = i) ∧
        (∀ f < F.length, ∀ g < F.length, ∀ i j, 0 < i → i < 2 ^ k → 0 < j → j < 2 ^ k → path f i = path g j → f = g ∧ i = j) := by
  obtain ⟨Vu, Fu, S, path, lab, h1, inv, hS⟩ := subdividePolyline_inv h2 V F hne hV hF k
  refine ⟨Vu, Fu, S, h1, inv.len, inv.old, hS, path, fun f e he => ⟨(inv.ends f e he).1, (inv.ends f e he).2, inv.pos f e he⟩, ?_, ?_, inv.inj⟩
  · have hp : lab.Perm ((List.range F.length).flatMap (fun f => (List.range (2 ^ k)).map (fun j => (f, j)))) := by
      refine (List.perm_ext_iff_of_nodup inv.nodup ?_).2 ?_
      · exact List.Nodup.product List.nodup_range List.nodup_range
      · rintro ⟨f, j⟩
        rw [inv.mem]
        simp
    rw [inv.Fu]
    refine (hp.map _).trans (List.Perm.of_eq ?_)
    rw [List.map_flatMap]
    simp only [List.map_map]
    rfl
  · have hlt : ∀ f < F.length, ∀ j ≤ 2 ^ k, path f j < Vu.length := by
      intro f hf j hj
      by_contra hc
      have := inv.pos f _ (List.getElem?_eq_getElem hf) j hj
      rw [List.getElem?_eq_none (by omega)] at this
      cases this
    -- counting: the numbers of new vertices are all taken
    set A := (Finset.range F.length ×ˢ Finset.Ico 1 (2 ^ k)).image (fun p => path p.1 p.2) with hA
    have hsub : A ⊆ Finset.Ico V.length Vu.length := by
      intro i hi
      rw [hA, Finset.mem_image] at hi
      obtain ⟨⟨f, j⟩, hm, rfl⟩ := hi
      simp only [Finset.mem_product, Finset.mem_range, Finset.mem_Ico] at hm
      exact Finset.mem_Ico.2 ⟨inv.new f hm.1 j (by omega) hm.2.2, hlt f hm.1 j (by omega)⟩
    have hcard : A.card = F.length * (2 ^ k - 1) := by
      rw [hA, Finset.card_image_of_injOn, Finset.card_product, Finset.card_range, Nat.card_Ico]
      rintro ⟨f, i⟩ hx ⟨g, j⟩ hy he
      simp only [Finset.coe_product, Set.mem_prod, Finset.mem_coe, Finset.mem_range, Finset.mem_Ico] at hx hy
      have := inv.inj f hx.1 g hy.1 i j (by omega) hx.2.2 (by omega) hy.2.2 he
      ext
      · exact this.1
      · exact this.2
    have heq : A = Finset.Ico V.length Vu.length := Finset.eq_of_subset_of_card_le hsub (by rw [hcard, Nat.card_Ico, inv.len]; omega)
    intro i
    rw [← Finset.mem_Ico, ← heq, hA, Finset.mem_image]
    constructor
    · rintro ⟨⟨f, j⟩, hm, rfl⟩
      simp only [Finset.mem_product, Finset.mem_range, Finset.mem_Ico] at hm
      exact ⟨f, hm.1, j, by omega, hm.2.2, rfl⟩
    · rintro ⟨f, hf, j, h0, hj, rfl⟩
      exact ⟨(f, j), by simp only [Finset.mem_product, Finset.mem_range, Finset.mem_Ico]; omega, rfl⟩

/-- **C137** (length) The total length does not change. -/
theorem C137_length (V : List (Fin d → ℝ)) (F : List Edge) (hne : F ≠ []) (hV : 2 ≤ V.length) (hF : ∀ e ∈ F, e.s < V.length ∧ e.t < V.length) (k : ℕ) :
    ∃ Vu Fu S, subdividePolyline k V F = some (Vu, Fu, S) ∧
      (Fu.map (fun e => Real.sqrt (∑ c, (vpos Vu e.t c - vpos Vu e.s c) ^ 2))).sum = (F.map (fun e => Real.sqrt (∑ c, (vpos V e.t c - vpos V e.s c) ^ 2))).sum := by
  obtain ⟨Vu, Fu, S, h1, -, -, -, path, h3, h4, -⟩ := C137_polyline (by norm_num) V F hne hV hF k
  refine ⟨Vu, Fu, S, h1, ?_⟩
  rw [(h4.map _).sum_eq, List.map_flatMap]
  have hp : ∀ f e, F[f]? = some e → ∀ j ≤ 2 ^ k, vpos Vu (path f j) = fun c => vpos V e.s c + (j : ℝ) / 2 ^ k * (vpos V e.t c - vpos V e.s c) := by
    intro f e he j hj
    have := (h3 f e he).2.2 j hj
    simp [vpos, List.getD_eq_getElem?_getD, this]
  have hrow : ∀ f ∈ List.range F.length, (((List.range (2 ^ k)).map (fun j => (⟨path f j, path f (j + 1)⟩ : Edge))).map (fun e => Real.sqrt (∑ c, (vpos Vu e.t c - vpos Vu e.s c) ^ 2))).sum
      = Real.sqrt (∑ c, (vpos V (F.getD f ⟨0, 0⟩).t c - vpos V (F.getD f ⟨0, 0⟩).s c) ^ 2) := by
    intro f hf
    rw [List.mem_range] at hf
    have he : F[f]? = some (F.getD f ⟨0, 0⟩) := by simp [hf]
    generalize F.getD f ⟨0, 0⟩ = e at he
    rw [List.map_map]
    have hc : ∀ j ∈ List.range (2 ^ k), ((fun e : Edge => Real.sqrt (∑ c, (vpos Vu e.t c - vpos Vu e.s c) ^ 2)) ∘ fun j => (⟨path f j, path f (j + 1)⟩ : Edge)) j
        = Real.sqrt (∑ c, (vpos V e.t c - vpos V e.s c) ^ 2) / 2 ^ k := by
      intro j hj
      rw [List.mem_range] at hj
      simp only [Function.comp]
      rw [hp f e he j (by omega), hp f e he (j + 1) (by omega), eq_div_iff (by positivity)]
      have : ∀ c, (vpos V e.s c + ((j + 1 : ℕ) : ℝ) / 2 ^ k * (vpos V e.t c - vpos V e.s c) - (vpos V e.s c + (j : ℝ) / 2 ^ k * (vpos V e.t c - vpos V e.s c))) ^ 2
          = (1 / 2 ^ k) ^ 2 * (vpos V e.t c - vpos V e.s c) ^ 2 := by
        intro c; push_cast; ring
      simp only [this]
      rw [← Finset.mul_sum, Real.sqrt_mul (by positivity), Real.sqrt_sq (by positivity)]
      field_simp
    rw [List.map_congr_left hc, List.map_const', List.sum_replicate, List.length_range, nsmul_eq_mul]
    push_cast
    field_simp
  have hsum : ∀ (l : List ℕ) (g : ℕ → List ℝ) (q : ℕ → ℝ), (∀ f ∈ l, (g f).sum = q f) → (l.flatMap g).sum = (l.map q).sum := by
    intro l g q h
    induction l with
    | nil => rfl
    | cons a l ih => rw [List.flatMap_cons, List.sum_append, List.map_cons, List.sum_cons, h a (by simp), ih (fun f hf => h f (by simp [hf]))]
  rw [hsum _ _ _ hrow]
  congr 1
  apply List.ext_getElem (by simp)
  intro i h5 h6
  simp at h6
  simp [h6]

/-- the hypotheses are met: a closed triangle and a tail -/
example : ∃ Vu Fu S, subdividePolyline (K := ℚ) (d := 2) 1 [![0, 0], ![4, 0], ![0, 4], ![8, 0]] [⟨0, 1⟩, ⟨1, 2⟩, ⟨2, 0⟩, ⟨1, 3⟩] = some (Vu, Fu, S) ∧ Vu.length = 8 ∧
    Fu = [⟨0, 4⟩, ⟨1, 5⟩, ⟨2, 6⟩, ⟨1, 7⟩, ⟨4, 1⟩, ⟨5, 2⟩, ⟨6, 0⟩, ⟨7, 3⟩] := by
  obtain ⟨Vu, Fu, S, h1, h2, -⟩ := C137_polyline (K := ℚ) (d := 2) (by norm_num) [![0, 0], ![4, 0], ![0, 4], ![8, 0]] [⟨0, 1⟩, ⟨1, 2⟩, ⟨2, 0⟩, ⟨1, 3⟩] (by simp) (by simp) (by decide) 1
  have h3 : (subdividePolyline (K := ℚ) (d := 2) 1 [![0, 0], ![4, 0], ![0, 4], ![8, 0]] [⟨0, 1⟩, ⟨1, 2⟩, ⟨2, 0⟩, ⟨1, 3⟩]).map (fun q => q.2.1)
      = some [⟨0, 4⟩, ⟨1, 5⟩, ⟨2, 6⟩, ⟨1, 7⟩, ⟨4, 1⟩, ⟨5, 2⟩, ⟨6, 0⟩, ⟨7, 3⟩] := by decide +kernel
  rw [h1] at h3
  exact ⟨Vu, Fu, S, h1, h2, by simpa using h3⟩

end Gpy
