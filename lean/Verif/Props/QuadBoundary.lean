import Verif.Props.InQuadtree

/-! C55: `quadtree_children`, `quadtree_boundary`. -/

set_option autoImplicit false
namespace Gpy
open Np

variable {K : Type} [Field K] [LinearOrder K] [IsStrictOrderedRing K] {dim : ℕ}

/-- across a facet that is not on the side of the root box there is a cell, not deeper than this one -/
theorem QInv.nbr (hd : dim = 2 ∨ dim = 3) {c0 : Fin dim → K} {w0 : K} {Q : Quad K dim} {ad : ℕ → Fin dim → ℕ} (h : QInv c0 w0 Q ad) :
    ∀ (n i : ℕ), i < n → ∀ (c : QuadCell K dim), Q.cells[i]? = some c → ∀ (j : Fin dim) (s : ℕ), s < 2 →
      (s = 1 → ad i j + 1 < 2 ^ (c.D - 1)) → (s = 0 → 0 < ad i j) →
      ∃ b cb, Q.cells[b]? = some cb ∧ cb.D ≤ c.D ∧ adjZ (c.D - 1) (ad i) (cb.D - 1) (ad b) j s
  | 0, _, hn => absurd hn (Nat.not_lt_zero _)
  | n + 1, i, hn => by
    intro c hc j s hs h1 h0
    by_cases hi : i = 0
    · subst hi
      obtain ⟨r, hr, hD, -, ha⟩ := h.root
      rw [hc] at hr; cases hr
      interval_cases s
      · have := h0 rfl
        rw [ha] at this; omega
      · have := h1 rfl
        rw [ha, hD] at this; simp at this
    · obtain ⟨p, cp, m, k, g1, g2, g3, g4, g5, g6, g7, g8⟩ := h.par i c hc hi
      have hDp := (h.geom p cp g3).1
      have hfun : ad i = fun j : Fin dim => 2 * ad p j + kbit k j := funext g8
      have hDe : c.D - 1 = (cp.D - 1) + 1 := by omega
      have hk2 := kbit_lt k j
      by_cases hbit : kbit k j = 1 - s
      · -- a sibling
        obtain ⟨k', hk', hb'⟩ := exists_bits hd (fun i : Fin dim => if i = j then s else kbit k i)
          (fun i => by split_ifs; exacts [hs, kbit_lt _ _])
        rcases h.ch p cp g3 with e | ⟨m', e, -, hm⟩
        · exfalso
          rw [g4] at e
          have e1 : (chRow dim m)[0]? = some (-1) := by
            rw [e, List.getElem?_replicate, if_pos (by positivity)]
          rw [chRow_get m 0 (by positivity)] at e1
          have := Option.some.inj e1
          omega
        · have hmm : m = m' := chRow_inj hd (g4.symm.trans e)
          subst hmm
          obtain ⟨cb, f1, f2, f3, f4⟩ := hm k' hk'
          refine ⟨m + k', cb, f1, by omega, ?_⟩
          have hfun' : ad (m + k') = fun j : Fin dim => 2 * ad p j + kbit k' j := funext f4
          rw [hfun, hfun', f3, hDe, show cp.D + 1 - 1 = (cp.D - 1) + 1 by omega]
          refine (adjZ_sibling (β := fun i : Fin dim => kbit k i) (γ := fun i : Fin dim => kbit k' i) hs (fun i => kbit_lt _ _) (fun i => kbit_lt _ _)).mpr ⟨hbit, ?_, ?_⟩
          · rw [hb' j, if_pos rfl]
          · intro i hij
            rw [hb' i, if_neg hij]
      · have hbs : kbit k j = s := by omega
        have hpow : 2 ^ (c.D - 1) = 2 * 2 ^ (cp.D - 1) := by rw [hDe, pow_succ']
        have e8 := g8 j
        obtain ⟨b, cb, f1, f2, f3⟩ := QInv.nbr hd h n p (by omega) cp g3 j s hs
          (fun hs1 => by have := h1 hs1; omega) (fun hs0 => by have := h0 hs0; omega)
        have hDb := (h.geom b cb f1).1
        refine ⟨b, cb, f1, by omega, ?_⟩
        rw [adjZ_symm hs] at f3 ⊢
        rw [hfun, hDe]
        refine (adjZ_child_coarse (β := fun i : Fin dim => kbit k i) (by omega) (by omega) (fun i => kbit_lt _ _)).mpr ⟨f3, ?_⟩
        omega

/-- C55 (a): `quadtree_children` returns the indices of the leaves, in increasing order. -/
theorem C55_children (hd : dim = 2 ∨ dim = 3) {c0 : Fin dim → K} {w0 : K} {Q : Quad K dim} (h : QuadReach c0 w0 Q) :
    (quadtreeChildren Q).Pairwise (· < ·) ∧ ∀ i, i ∈ quadtreeChildren Q ↔ ∃ c, Q.cells[i]? = some c ∧ c.Childless := by
  obtain ⟨ad, hI⟩ := reach_inv hd h
  have h2 := two_le_pow hd
  refine ⟨List.Pairwise.filter _ List.pairwise_lt_range, fun i => ?_⟩
  unfold quadtreeChildren
  rw [List.mem_filter, List.mem_range]
  constructor
  · rintro ⟨h1, h3⟩
    rw [List.getElem?_eq_getElem h1] at h3
    have hc := List.getElem?_eq_getElem h1
    refine ⟨_, hc, ?_⟩
    rcases hI.ch i _ hc with e | ⟨m, e, -⟩
    · exact (childless_iff hd hI hc).mpr ((isLeaf_iff hd hI hc).mpr e)
    · exfalso
      simp only [e, chRow_get m 0 (by omega : 0 < 2 ^ dim), decide_eq_true_eq] at h3
      omega
  · rintro ⟨c, hc, hl⟩
    refine ⟨(List.getElem?_eq_some_iff.mp hc).1, ?_⟩
    have := (isLeaf_iff hd hI hc).mp ((childless_iff hd hI hc).mp hl)
    simp [hc, this]

/-- C55 (b): `quadtree_boundary` returns the cells one of whose sides across the first or the second axis lies on the side of the root box (first
list: those among them that are leaves), in increasing order, each once. In two dimensions these are the cells that reach the boundary of the
root box; in an octree the cells that reach it only along the third axis are missing, see the example below. -/
theorem C55_boundary (hd : dim = 2 ∨ dim = 3) {c0 : Fin dim → K} {w0 : K} (hw : 0 < w0) {Q : Quad K dim} (h : QuadReach c0 w0 Q) :
    (quadtreeBoundary Q).1.Pairwise (· < ·) ∧ (quadtreeBoundary Q).2.Pairwise (· < ·) ∧
    (∀ i, i ∈ (quadtreeBoundary Q).2 ↔ ∃ c, Q.cells[i]? = some c ∧
      ∃ j : Fin dim, j.val < 2 ∧ (c.lo j = c0 j - w0 / 2 ∨ c.hi j = c0 j + w0 / 2)) ∧
    (∀ i, i ∈ (quadtreeBoundary Q).1 ↔ i ∈ (quadtreeBoundary Q).2 ∧ ∃ c, Q.cells[i]? = some c ∧ c.Childless) := by
  obtain ⟨ad, hI⟩ := reach_inv hd h
  have h2 := two_le_pow hd
  have hd2 : 2 ≤ dim := by omega
  -- one direction
  have hdir : ∀ (i : ℕ) (c : QuadCell K dim), Q.cells[i]? = some c → ∀ (j : Fin dim) (s : ℕ), s < 2 →
      ((∀ k < Q.cells.length, Q.A i k ≠ 2 * j.val + 1 + s) ↔ if s = 1 then c.hi j = c0 j + w0 / 2 else c.lo j = c0 j - w0 / 2) := by
    intro i c hc j s hs
    have hlt := hI.ad_lt hc j
    have hlo : c.lo j = c0 j - w0 / 2 ↔ ad i j = 0 := by
      rw [hI.lo_eq hc, add_eq_left, div_eq_zero_iff, mul_eq_zero]
      simp [hw.ne']
    have hhi : c.hi j = c0 j + w0 / 2 ↔ ad i j + 1 = 2 ^ (c.D - 1) := by
      rw [hI.hi_eq hc]
      have hp : (0 : K) < 2 ^ (c.D - 1) := by positivity
      constructor
      · intro e
        have e2 : w0 * ((ad i j : K) + 1) / 2 ^ (c.D - 1) = w0 := by linarith
        rw [div_eq_iff hp.ne', mul_right_inj' hw.ne'] at e2
        exact_mod_cast e2
      · intro e
        have e2 : ((ad i j : K) + 1) = 2 ^ (c.D - 1) := by exact_mod_cast e
        rw [e2, mul_div_assoc, div_self hp.ne']
        ring
    constructor
    · intro hn
      by_contra hcon
      have : ∃ b cb, Q.cells[b]? = some cb ∧ cb.D ≤ c.D ∧ adjZ (c.D - 1) (ad i) (cb.D - 1) (ad b) j s := by
        refine QInv.nbr hd hI (i + 1) i (by omega) c hc j s hs ?_ ?_
        · intro hs1
          rw [if_pos hs1, hhi] at hcon
          omega
        · intro hs0
          rw [if_neg (by omega), hlo] at hcon
          omega
      obtain ⟨b, cb, f1, -, f3⟩ := this
      exact hn b (List.getElem?_eq_some_iff.mp f1).1 ((hI.adj i b c cb hc f1 j s hs).mpr f3)
    · intro hb k hk hA
      obtain ⟨ck, hck⟩ : ∃ ck, Q.cells[k]? = some ck := ⟨_, List.getElem?_eq_getElem hk⟩
      have hz := ((hI.adj i k c ck hc hck j s hs).mp hA).1
      have hltk := hI.ad_lt hck j
      unfold upE at hz
      interval_cases s
      · rw [if_neg (by omega), hlo] at hb
        rw [if_neg (by omega), hb] at hz
        have : 0 < (ad k j + 1) * 2 ^ (c.D - 1) := by positivity
        omega
      · rw [if_pos rfl, hhi] at hb
        rw [if_pos rfl, hb, mul_comm] at hz
        have := Nat.eq_of_mul_eq_mul_right (by positivity) hz
        omega
  have hother : ∀ i, i ∈ (quadtreeBoundary Q).2 ↔ ∃ c, Q.cells[i]? = some c ∧
      ∃ j : Fin dim, j.val < 2 ∧ (c.lo j = c0 j - w0 / 2 ∨ c.hi j = c0 j + w0 / 2) := by
    intro i
    unfold quadtreeBoundary
    simp only [List.mem_filter, List.mem_range]
    constructor
    · rintro ⟨h1, h3⟩
      obtain ⟨c, hc⟩ : ∃ c, Q.cells[i]? = some c := ⟨_, List.getElem?_eq_getElem h1⟩
      refine ⟨c, hc, ?_⟩
      rw [List.any_eq_true] at h3
      obtain ⟨code, hm, h3⟩ := h3
      simp only [List.all_eq_true, List.mem_range, bne_iff_ne] at h3
      have hcases : code = 1 ∨ code = 2 ∨ code = 3 ∨ code = 4 := by simpa using hm
      rcases hcases with rfl | rfl | rfl | rfl
      · exact ⟨⟨0, by omega⟩, by simp, Or.inl (by simpa using (hdir i c hc ⟨0, by omega⟩ 0 (by omega)).mp (by simpa using h3))⟩
      · exact ⟨⟨0, by omega⟩, by simp, Or.inr (by simpa using (hdir i c hc ⟨0, by omega⟩ 1 (by omega)).mp (by simpa using h3))⟩
      · exact ⟨⟨1, by omega⟩, by simp, Or.inl (by simpa using (hdir i c hc ⟨1, by omega⟩ 0 (by omega)).mp (by simpa using h3))⟩
      · exact ⟨⟨1, by omega⟩, by simp, Or.inr (by simpa using (hdir i c hc ⟨1, by omega⟩ 1 (by omega)).mp (by simpa using h3))⟩
    · rintro ⟨c, hc, j, hj, hb⟩
      refine ⟨(List.getElem?_eq_some_iff.mp hc).1, ?_⟩
      rw [List.any_eq_true]
      rcases hb with hb | hb
      · refine ⟨2 * j.val + 1 + 0, ?_, ?_⟩
        · have : j.val = 0 ∨ j.val = 1 := by omega
          rcases this with e | e <;> simp [e]
        · simp only [List.all_eq_true, List.mem_range, bne_iff_ne]
          exact (hdir i c hc j 0 (by omega)).mpr (by simpa using hb)
      · refine ⟨2 * j.val + 1 + 1, ?_, ?_⟩
        · have : j.val = 0 ∨ j.val = 1 := by omega
          rcases this with e | e <;> simp [e]
        · simp only [List.all_eq_true, List.mem_range, bne_iff_ne]
          exact (hdir i c hc j 1 (by omega)).mpr (by simpa using hb)
  refine ⟨List.Pairwise.filter _ (List.Pairwise.filter _ List.pairwise_lt_range), List.Pairwise.filter _ List.pairwise_lt_range, hother, fun i => ?_⟩
  have e : (quadtreeBoundary Q).1 =
      (quadtreeBoundary Q).2.filter (fun i => match Q.cells[i]? with | some c => c.CH[0]? == some (-1) | none => false) := rfl
  rw [e, List.mem_filter]
  apply and_congr_right
  intro _
  cases hc : Q.cells[i]? with
  | none => simp
  | some c =>
    simp only [Option.some.injEq, exists_eq_left', beq_iff_eq]
    rcases hI.ch i c hc with e | ⟨m, e, -⟩
    · have : c.Childless := (childless_iff hd hI hc).mpr ((isLeaf_iff hd hI hc).mpr e)
      simp only [this, iff_true]
      rw [e, List.getElem?_replicate, if_pos (by omega)]
    · rw [e, chRow_get m 0 (by omega)]
      constructor
      · intro h3
        have := Option.some.inj h3
        omega
      · intro hl
        exfalso
        have h3 : ((m + 0 : ℕ) : Int) ∈ c.CH := by
          rw [e]; exact List.mem_of_getElem? (chRow_get m 0 (by omega))
        have := hl _ h3
        omega

/-- The demo tree of `C22`: the boundary cells and the boundary leaves. -/
example : quadDemo.map (fun Q => ((quadtreeBoundary Q).2, (quadtreeBoundary Q).1)) =
    some ([0, 1, 2, 3, 4, 5, 6, 7, 13, 14, 16, 17, 19, 20], [4, 5, 6, 7, 13, 14, 16, 17, 19, 20]) := by decide +kernel

/-- In an octree the function misses cells: here a cell that touches only the bottom (third axis) of the root box. -/
example : (((subdivideQuadTop true (quadInit (K := ℚ) (dim := 3) (fun _ => 1 / 2) 1) 0).bind (fun Q => subdivideQuadTop true Q 1)).map
    (fun Q => (decide (12 ∈ (quadtreeBoundary Q).2), Q.cells[12]?.map (fun c => decide (c.lo 2 = 0))))) = some (false, some true) := by decide +kernel

end Gpy
