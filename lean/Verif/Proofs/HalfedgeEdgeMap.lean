import Verif.Model.HalfedgeEdgeMap
import Verif.Proofs.Edges
import Verif.Proofs.ArrayCorrespondence

namespace Gpy
open Np

theorem flatL_get {F : List Tri} {f : ℕ} {t : Tri} (h : F[f]? = some t) (i : Fin 3) :
    (flatL F)[i.val * F.length + f]? = some (t.side i) := by
  have hlt : f < F.length := (List.getElem?_eq_some_iff.mp h).1
  unfold flatL
  match i with
  | 0 =>
    rw [List.append_assoc, List.getElem?_append_left (by simpa using hlt)]
    simp [List.getElem?_map, h]
  | 1 =>
    rw [List.append_assoc, List.getElem?_append_right (by simp), List.getElem?_append_left (by simp; omega)]
    simp [List.getElem?_map, h]
  | 2 =>
    rw [List.getElem?_append_right (by simp; omega)]
    have : 2 * F.length + f - (List.map (fun x => x.side 0) F ++ List.map (fun x => x.side 1) F).length = f := by
      simp; omega
    rw [show ((2 : Fin 3).val) = 2 from rfl, this]
    simp [List.getElem?_map, h]

theorem flatL_decode {F : List Tri} {k : ℕ} {e : Edge} (h : (flatL F)[k]? = some e) :
    ∃ (t : Tri) (i : Fin 3), F[k % F.length]? = some t ∧ k / F.length = i.val ∧ t.side i = e := by
  have hk : k < 3 * F.length := by
    have := (List.getElem?_eq_some_iff.mp h).1; rwa [length_flatL] at this
  have hm : 0 < F.length := by omega
  have hf : k % F.length < F.length := Nat.mod_lt _ hm
  have hi : k / F.length < 3 := by rw [Nat.div_lt_iff_lt_mul hm]; omega
  refine ⟨F[k % F.length], ⟨k / F.length, hi⟩, List.getElem?_eq_getElem hf, rfl, ?_⟩
  have := flatL_get (F := F) (f := k % F.length) (List.getElem?_eq_getElem hf) ⟨k / F.length, hi⟩
  have hk2 : k / F.length * F.length + k % F.length = k := Nat.div_add_mod' k F.length
  simp only [hk2] at this
  rw [h] at this
  exact (Option.some.inj this).symm

/-- `(f,i)` (as integers) is a valid face/side index and that side is the directed edge `e` -/
def HalfedgeAt (F : List Tri) (q : Int × Int) (e : Edge) : Prop :=
  ∃ (f : ℕ) (t : Tri) (i : Fin 3), q = ((f : Int), (i.val : Int)) ∧ F[f]? = some t ∧ t.side i = e

theorem halfedgeAt_unflat {F : List Tri} {k : ℕ} {e : Edge} (h : (flatL F)[k]? = some e) :
    HalfedgeAt F (unflatHe F.length (k : Int)) e := by
  obtain ⟨t, i, h1, h2, h3⟩ := flatL_decode h
  refine ⟨k % F.length, t, i, ?_, h1, h3⟩
  unfold unflatHe
  rw [← h2]; push_cast; rfl

theorem unflat_encode {F : List Tri} {f : ℕ} (hf : f < F.length) (i : Fin 3) :
    unflatHe F.length ((i.val * F.length + f : ℕ) : Int) = ((f : Int), (i.val : Int)) := by
  have hm : 0 < F.length := by omega
  have h1 : (i.val * F.length + f) % F.length = f := by
    rw [Nat.add_comm, Nat.add_mul_mod_self_right, Nat.mod_eq_of_lt hf]
  have h2 : (i.val * F.length + f) / F.length = i.val := by
    rw [Nat.add_comm, Nat.add_mul_div_right _ _ hm, Nat.div_eq_of_lt hf, Nat.zero_add]
  unfold unflatHe
  rw [← Int.natCast_mod, ← Int.natCast_div, h1, h2]

theorem mem_sides {F : List Tri} {e : Edge} : e ∈ sides F ↔ ∃ (f : ℕ) (t : Tri) (i : Fin 3), F[f]? = some t ∧ t.side i = e := by
  unfold sides
  rw [List.mem_flatMap]
  constructor
  · rintro ⟨t, ht, he⟩
    obtain ⟨f, hf⟩ := List.mem_iff_getElem?.mp ht
    simp at he
    rcases he with rfl | rfl | rfl
    exacts [⟨f, t, 0, hf, rfl⟩, ⟨f, t, 1, hf, rfl⟩, ⟨f, t, 2, hf, rfl⟩]
  · rintro ⟨f, t, i, hf, rfl⟩
    refine ⟨t, List.mem_of_getElem? hf, ?_⟩
    match i with
    | 0 => simp
    | 1 => simp
    | 2 => simp

/-- In an oriented manifold an edge of incidence ≥ 2 also has its reverse as a side. -/
theorem flip_mem_of_incid {F : List Tri} (hF : OrientedManifold F) {e : Edge}
    (h2 : 2 ≤ incid F e) : e ∈ sides F ∧ e.flip ∈ sides F := by
  have hnd : ((sides F).filter (fun h => Undir e h)).Nodup := hF.1.filter _
  unfold incid at h2
  set L := (sides F).filter (fun h => Undir e h) with hL
  have hmem : ∀ x ∈ L, x ∈ sides F ∧ (x = e ∨ x = e.flip) := by
    intro x hx; rw [hL, List.mem_filter] at hx
    exact ⟨hx.1, of_decide_eq_true hx.2⟩
  match hLL : L, h2, hnd with
  | a :: b :: l, _, hnd =>
    have hab : a ≠ b := by intro h; subst h; simp at hnd
    have ha := hmem a (by simp)
    have hb := hmem b (by simp)
    rcases ha.2 with h | h <;> rcases hb.2 with h' | h'
    · exact absurd (h.trans h'.symm) hab
    · exact ⟨h ▸ ha.1, h' ▸ hb.1⟩
    · exact ⟨h' ▸ hb.1, h ▸ ha.1⟩
    · exact absurd (h.trans h'.symm) hab

theorem side_not_loop {F : List Tri} (hF : OrientedManifold F) {e : Edge} (he : e ∈ sides F) : e ≠ e.flip := by
  obtain ⟨f, t, i, hf, rfl⟩ := mem_sides.mp he
  have := hF.2 t (List.mem_of_getElem? hf)
  intro h
  have h1 := (Edge.eq_iff.mp h).1
  match i with
  | 0 => simp [Tri.side] at h1; exact this.2.1 h1
  | 1 => simp [Tri.side] at h1; exact this.2.2 h1
  | 2 => simp [Tri.side] at h1; exact this.1 h1

theorem incid_eq_two {F : List Tri} (hF : OrientedManifold F) {e : Edge} (h2 : 2 ≤ incid F e) : incid F e = 2 := by
  have hnd : ((sides F).filter (fun h => Undir e h)).Nodup := hF.1.filter _
  have hsub : (sides F).filter (fun h => Undir e h) ⊆ [e, e.flip] := by
    intro x hx; rw [List.mem_filter] at hx
    have := of_decide_eq_true hx.2
    simpa [Undir] using this
  have := (List.subperm_of_subset hnd hsub).length_le
  unfold incid at *
  simp at this; omega

/-! The list `scatterLookup` reads one of the writes. -/

theorem scatterLookup_spec {writes : List ((Int × Int) × Int)} {f c : ℕ} (P : Int → Prop)
    (hex : ∃ w ∈ writes, w.1 = ((f : Int), (c : Int)))
    (hall : ∀ w ∈ writes, w.1.1 = (f : Int) → (if w.1.2 < 0 then w.1.2 + 3 else w.1.2) = (c : Int) → P w.2) :
    P (scatterLookup writes f c) := by
  unfold scatterLookup
  set L := writes.filter (fun w => decide (w.1.1 = (f : Int) ∧ (if w.1.2 < 0 then w.1.2 + 3 else w.1.2) = (c : Int)))
    with hL
  have hne : L ≠ [] := by
    obtain ⟨w, hw, hw1⟩ := hex
    have : w ∈ L := by
      rw [hL, List.mem_filter]
      refine ⟨hw, ?_⟩
      rw [hw1]; simp
    exact List.ne_nil_of_mem this
  rw [List.getLast?_eq_some_getLast hne]
  have hm := List.getLast_mem hne
  have hm' := List.mem_filter.mp hm
  have h2 := of_decide_eq_true hm'.2
  exact hall _ hm'.1 h2.1 h2.2

/-! ### assume_manifold = True -/

def intPickL (F : List Tri) : List Edge :=
  ((npUnique (sortedL F)).filter (fun x => decide ((sortedL F).count x > 1))).map (pick F)

theorem mem_intPickL {F : List Tri} {e : Edge} (h : e ∈ intPickL F) : e ∈ sides F ∧ 2 ≤ incid F e := by
  unfold intPickL at h
  rw [List.mem_map] at h
  obtain ⟨x, hx, rfl⟩ := h
  rw [List.mem_filter] at hx
  have hp := pick_spec (mem_sortedL hx.1)
  refine ⟨hp.2.2, ?_⟩
  rw [incid_eq_count, hp.2.1]
  have := hx.2; simp at this; omega

def EL (F : List Tri) : List Edge := bdryL F ++ intPickL F

theorem intPickL_map_sort (F : List Tri) : (intPickL F).map Edge.sort = intL F := by
  unfold intPickL intL
  rw [List.map_map]
  conv_rhs => rw [← List.map_id ((npUnique (sortedL F)).filter _)]
  apply List.map_congr_left
  intro x hx
  exact (pick_spec (mem_sortedL (List.mem_of_mem_filter hx))).2.1

theorem EL_length (F : List Tri) : (EL F).length = (npUnique (sortedL F)).length := by
  rw [← length_split]
  unfold EL
  simp only [List.length_append]
  rw [← intPickL_map_sort]; simp

theorem EL_pairwise (F : List Tri) : (EL F).Pairwise (fun e e' => ¬ Undir e e') := by
  have h := E_pairwise F
  have h2 : ((bdryL F ++ intL F).map Edge.sort).Pairwise (· ≠ ·) := by
    rw [List.pairwise_map]
    exact h.imp (fun {a b} hn he => hn (Edge.sort_eq_iff.mp he.symm))
  have h3 : (bdryL F ++ intL F).map Edge.sort = (EL F).map Edge.sort := by
    unfold EL; rw [List.map_append, List.map_append, intPickL_map_sort, intL_map_sort]
  rw [h3, List.pairwise_map] at h2
  exact h2.imp (fun {a b} hn he => hn (Edge.sort_eq_iff.mpr he).symm)

theorem mem_EL_side {F : List Tri} {e : Edge} (h : e ∈ EL F) : e ∈ sides F := by
  rcases List.mem_append.mp h with h | h
  · exact (mem_bdryL.mp h).1
  · exact (mem_intPickL h).1

/-- every side lies on an edge of `EL` -/
theorem exists_EL {F : List Tri} {e : Edge} (h : e ∈ sides F) : ∃ e' ∈ EL F, Undir e' e := by
  have h1 : e.sort ∈ npUnique (sortedL F) := mem_npUnique.mpr (mem_sortedL_of_side h)
  have hp := pick_spec (mem_sortedL h1)
  have hu : Undir (pick F e.sort) e := by rw [← Edge.sort_eq_iff, hp.2.1]
  refine ⟨pick F e.sort, ?_, hu⟩
  unfold EL bdryL intPickL
  rw [List.mem_append, List.mem_map, List.mem_map]
  have hpos := count_pos_of_mem_uniq h1
  by_cases hc : (sortedL F).count e.sort = 1
  · left; exact ⟨e.sort, List.mem_filter.mpr ⟨h1, by simp [hc]⟩, rfl⟩
  · right; exact ⟨e.sort, List.mem_filter.mpr ⟨h1, by simp; omega⟩, rfl⟩

theorem EL_unique {F : List Tri} {i j : ℕ} {e e' : Edge} (hi : (EL F)[i]? = some e) (hj : (EL F)[j]? = some e')
    (hu : Undir e e') : i = j := by
  have hp := EL_pairwise F
  rw [List.pairwise_iff_getElem] at hp
  obtain ⟨hi1, rfl⟩ := List.getElem?_eq_some_iff.mp hi
  obtain ⟨hj1, rfl⟩ := List.getElem?_eq_some_iff.mp hj
  rcases Nat.lt_trichotomy i j with h | h | h
  · exact absurd hu (hp i j hi1 hj1 h)
  · exact h
  · exact absurd hu.symm (hp j i hj1 hi1 h)

theorem npMask_idx (F : List Tri) (p : Nat → Bool) :
    npMask (npUniqueIndex (sortedL F)) ((npUniqueCounts (sortedL F)).map p)
      = ((npUnique (sortedL F)).filter (fun x => p ((sortedL F).count x))).map (fun x => (sortedL F).idxOf x) := by
  unfold npUniqueIndex npUniqueCounts
  rw [List.map_map, npMask_map_map]; rfl

def firstI (F : List Tri) (e : Edge) : Int := if e ∈ flatL F then ((flatL F).idxOf e : Int) else -1
def secondI (F : List Tri) (e : Edge) : Int :=
  if e ∈ (flatL F).map Edge.flip then (((flatL F).map Edge.flip).idxOf e : Int) else -1

def EToHeL (F : List Tri) : List ((Int × Int) × (Int × Int)) :=
  ((npUnique (sortedL F)).filter (fun x => (sortedL F).count x == 1)).map
      (fun x => (unflatHe F.length ((sortedL F).idxOf x : Int), ((-1 : Int), (-1 : Int))))
    ++ (intPickL F).map (fun e => (unflatHe F.length (firstI F e), unflatHe F.length (secondI F e)))

def writesL (F : List Tri) : List ((Int × Int) × Int) :=
  ((EToHeL F).zipIdx.flatMap (fun p => [(p.1.1, (p.2 : Int)), (p.1.2, (p.2 : Int))])).filter
    (fun w => decide (0 ≤ w.1.1))

def heToEL (F : List Tri) : List (Row3 Int) := (List.range F.length).map (fun f =>
    Row3.mk (scatterLookup (writesL F) f 0) (scatterLookup (writesL F) f 1) (scatterLookup (writesL F) f 2))

theorem EToHeL_length (F : List Tri) : (EToHeL F).length = (EL F).length := by
  unfold EToHeL EL bdryL; simp

theorem idxOf_flat_get {F : List Tri} {e : Edge} (h : e ∈ sides F) :
    firstI F e = ((flatL F).idxOf e : Int) ∧ (flatL F)[(flatL F).idxOf e]? = some e := by
  have h1 := mem_flatL.mpr h
  unfold firstI
  rw [if_pos h1]
  refine ⟨rfl, ?_⟩
  rw [List.getElem?_eq_getElem (List.idxOf_lt_length_iff.mpr h1)]; simp

theorem idxOf_flip_get {F : List Tri} {e : Edge} (h : e.flip ∈ sides F) :
    ∃ k : ℕ, secondI F e = (k : Int) ∧ (flatL F)[k]? = some e.flip := by
  have h1 := mem_flatL.mpr h
  have h2 : e ∈ (flatL F).map Edge.flip := List.mem_map.mpr ⟨e.flip, h1, rfl⟩
  unfold secondI
  rw [if_pos h2]
  refine ⟨_, rfl, ?_⟩
  have hlt := List.idxOf_lt_length_iff.mpr h2
  have hg : ((flatL F).map Edge.flip)[((flatL F).map Edge.flip).idxOf e]? = some e := by
    rw [List.getElem?_eq_getElem hlt]; simp
  rw [List.getElem?_map] at hg
  rcases h : (flatL F)[((flatL F).map Edge.flip).idxOf e]? with _ | x
  · rw [h] at hg; simp at hg
  · rw [h] at hg
    have hx : x.flip = e := by simpa using hg
    rw [← hx]; rfl

/-- what `EToHe` says about edge number `k` -/
theorem EToHeL_spec {F : List Tri} (hF : OrientedManifold F) {k : ℕ} {e : Edge} (hk : (EL F)[k]? = some e) :
    ∃ q0 q1, (EToHeL F)[k]? = some (q0, q1) ∧ HalfedgeAt F q0 e ∧
      ((q1 = (-1, -1) ∧ incid F e = 1) ∨ (HalfedgeAt F q1 e.flip ∧ incid F e = 2)) := by
  by_cases hlt : k < (bdryL F).length
  · unfold EL at hk
    rw [List.getElem?_append_left hlt] at hk
    have hinc := (mem_bdryL.mp (List.mem_of_getElem? hk)).2
    unfold bdryL at hk hlt
    rw [List.getElem?_map] at hk
    rw [List.length_map] at hlt
    obtain ⟨x, hx, hpx⟩ := Option.map_eq_some_iff.mp hk
    have hxm := mem_sortedL (List.mem_of_mem_filter (List.mem_of_getElem? hx))
    refine ⟨unflatHe F.length ((sortedL F).idxOf x : Int), (-1, -1), ?_, ?_, Or.inl ⟨rfl, hinc⟩⟩
    · unfold EToHeL
      rw [List.getElem?_append_left (by simpa using hlt), List.getElem?_map, hx]; rfl
    · rw [← hpx]; exact halfedgeAt_unflat (pick_spec hxm).1
  · unfold EL at hk
    rw [List.getElem?_append_right (by omega)] at hk
    have hm := mem_intPickL (List.mem_of_getElem? hk)
    have h2 := incid_eq_two hF hm.2
    obtain ⟨_, hfl⟩ := flip_mem_of_incid hF hm.2
    obtain ⟨h3, h4⟩ := idxOf_flat_get hm.1
    obtain ⟨k1, h5, h6⟩ := idxOf_flip_get hfl
    refine ⟨unflatHe F.length (firstI F e), unflatHe F.length (secondI F e), ?_, ?_, Or.inr ⟨?_, h2⟩⟩
    · unfold EToHeL
      rw [List.getElem?_append_right (by simpa [bdryL] using Nat.not_lt.mp hlt), List.length_map]
      rw [List.getElem?_map]
      unfold bdryL at hk
      rw [List.length_map] at hk
      rw [hk]; rfl
    · rw [h3]; exact halfedgeAt_unflat h4
    · rw [h5]; exact halfedgeAt_unflat h6

theorem halfedgeAt_inj {F : List Tri} {q : Int × Int} {e e' : Edge} (h : HalfedgeAt F q e) (h' : HalfedgeAt F q e') :
    e = e' := by
  obtain ⟨f, t, i, rfl, h1, h2⟩ := h
  obtain ⟨f', t', i', h3, h4, h5⟩ := h'
  simp only [Prod.mk.injEq, Nat.cast_inj] at h3
  obtain ⟨rfl, hi⟩ := h3
  have : i = i' := Fin.ext hi
  subst this
  rw [h1] at h4; cases h4
  rw [← h2, ← h5]

/-- in an oriented manifold a directed edge is the side of at most one place -/
theorem halfedgeAt_unique {F : List Tri} (hF : OrientedManifold F) {q q' : Int × Int} {e : Edge}
    (h : HalfedgeAt F q e) (h' : HalfedgeAt F q' e) : q = q' := by
  obtain ⟨f, t, i, rfl, h1, h2⟩ := h
  obtain ⟨f', t', i', rfl, h4, h5⟩ := h'
  have hnd : (flatL F).Nodup := (flatL_perm F).nodup_iff.mpr hF.1
  have g1 := flatL_get h1 i
  have g2 := flatL_get h4 i'
  rw [h2] at g1; rw [h5] at g2
  have hk := List.getElem?_inj (List.getElem?_eq_some_iff.mp g1).1 hnd |>.mp (g1.trans g2.symm)
  have u1 := unflat_encode (List.getElem?_eq_some_iff.mp h1).1 i
  have u2 := unflat_encode (List.getElem?_eq_some_iff.mp h4).1 i'
  rw [← u1, ← u2, hk]

theorem mem_writesL {F : List Tri} {w : (Int × Int) × Int} :
    w ∈ writesL F ↔ 0 ≤ w.1.1 ∧ ∃ (k : ℕ) (q0 q1 : Int × Int), (EToHeL F)[k]? = some (q0, q1) ∧ w.2 = (k : Int) ∧
      (w.1 = q0 ∨ w.1 = q1) := by
  unfold writesL
  rw [List.mem_filter, List.mem_flatMap]
  constructor
  · rintro ⟨⟨⟨⟨q0, q1⟩, k⟩, hp, hw⟩, h0⟩
    rw [List.mem_zipIdx_iff_getElem?] at hp
    simp at hw h0
    refine ⟨h0, k, q0, q1, hp, ?_, ?_⟩ <;> rcases hw with rfl | rfl <;> simp
  · rintro ⟨h0, k, q0, q1, hk, hw2, hw1⟩
    refine ⟨⟨((q0, q1), k), ?_, ?_⟩, by simpa using h0⟩
    · rw [List.mem_zipIdx_iff_getElem?]; exact hk
    · obtain ⟨w1, w2⟩ := w
      simp at hw1 hw2 ⊢
      subst hw2; simpa using hw1

theorem heToE_lookup {F : List Tri} (hF : OrientedManifold F) {f : ℕ} {t : Tri} (hf : F[f]? = some t) (i : Fin 3) :
    ∃ k : ℕ, scatterLookup (writesL F) f i.val = (k : Int) ∧ ∃ e, (EL F)[k]? = some e ∧ Undir e (t.side i) := by
  have hside : t.side i ∈ sides F := mem_sides.mpr ⟨f, t, i, hf, rfl⟩
  apply scatterLookup_spec (P := fun z => ∃ k : ℕ, z = (k : Int) ∧ ∃ e, (EL F)[k]? = some e ∧ Undir e (t.side i))
  · obtain ⟨e', he', hu⟩ := exists_EL hside
    obtain ⟨k, hk⟩ := List.mem_iff_getElem?.mp he'
    obtain ⟨q0, q1, hE, h0, h1⟩ := EToHeL_spec hF hk
    have here : HalfedgeAt F ((f : Int), (i.val : Int)) (t.side i) := ⟨f, t, i, rfl, hf, rfl⟩
    refine ⟨(((f : Int), (i.val : Int)), (k : Int)), mem_writesL.mpr ⟨by simp, k, q0, q1, hE, rfl, ?_⟩, rfl⟩
    rcases hu with hu | hu
    · left; rw [hu] at here; exact halfedgeAt_unique hF here h0
    · right
      rw [hu] at here
      rcases h1 with ⟨rfl, hi⟩ | ⟨h1, _⟩
      · exfalso
        -- incidence one but both e' and its flip are sides
        have hm' := mem_EL_side he'
        have hne := side_not_loop hF hm'
        unfold incid at hi
        obtain ⟨z, hz⟩ := List.length_eq_one_iff.mp hi
        have m1 : e' ∈ (sides F).filter (fun h => Undir e' h) := List.mem_filter.mpr ⟨hm', by simp [Undir]⟩
        have m2 : e'.flip ∈ (sides F).filter (fun h => Undir e' h) :=
          List.mem_filter.mpr ⟨hu ▸ hside, by simp [Undir]⟩
        rw [hz] at m1 m2
        simp at m1 m2
        exact hne (m1.trans m2.symm)
      · exact halfedgeAt_unique hF here h1
  · intro w hw h1 h2
    obtain ⟨h0, k, q0, q1, hk, hw2, hq⟩ := mem_writesL.mp hw
    refine ⟨k, hw2, ?_⟩
    have hklt : k < (EL F).length := by
      rw [← EToHeL_length]; exact (List.getElem?_eq_some_iff.mp hk).1
    refine ⟨(EL F)[k], List.getElem?_eq_getElem hklt, ?_⟩
    obtain ⟨q0', q1', hE, h0', h1'⟩ := EToHeL_spec hF (List.getElem?_eq_getElem hklt)
    rw [hk] at hE
    simp only [Option.some.injEq, Prod.mk.injEq] at hE
    obtain ⟨rfl, rfl⟩ := hE
    have here : HalfedgeAt F ((f : Int), (i.val : Int)) (t.side i) := ⟨f, t, i, rfl, hf, rfl⟩
    have key : ∀ e, HalfedgeAt F w.1 e → e = t.side i := by
      rintro e ⟨f', t', i', hq', hf', hs'⟩
      have : w.1 = ((f : Int), (i.val : Int)) := by
        rw [hq'] at h1 h2 ⊢
        simp only at h1 h2
        rw [if_neg (by omega)] at h2
        rw [h1, h2]
      rw [← hs']
      exact halfedgeAt_inj (q := w.1) ⟨f', t', i', hq', hf', rfl⟩ (this ▸ here)
    rcases hq with hq | hq
    · rw [← hq] at h0'
      rw [key _ h0']; exact Or.inl rfl
    · rw [← hq] at h1'
      rcases h1' with ⟨hneg, _⟩ | ⟨h1', _⟩
      · rw [hneg] at h0; simp at h0
      · rw [← key _ h1']; exact Or.inr rfl

theorem halfedgeEdgeMap_eq {F : List Tri} (hne : F ≠ []) (hF : OrientedManifold F) :
    halfedgeEdgeMap F = some ⟨heL F, EL F, heToEL F, EToHeL F⟩ := by
  have hs : (flatL F).map Edge.sort = sortedL F := rfl
  have hflat : flatL F ≠ [] := by
    intro h; have h1 := length_flatL F; rw [h] at h1
    have h2 := List.length_pos_iff.mpr hne; simp only [List.length_nil] at h1; omega
  have hflat2 : (flatL F).map Edge.flip ≠ [] := by simpa using hflat
  unfold halfedgeEdgeMap
  rw [halfedges_eq hne]
  simp only [Option.bind_eq_bind, Option.bind_some, flattenHe_heL, hs, npTakeN_bdry]
  rw [show (((npUnique (sortedL F)).filter (fun x => decide ((sortedL F).count x > 1))).map (pick F)) = intPickL F from rfl,
    show (((npUnique (sortedL F)).filter (fun x => (sortedL F).count x == 1)).map (pick F)) = bdryL F from rfl]
  rw [arrayCorrespondence_eq _ _ hflat, arrayCorrespondence_eq _ _ hflat2]
  simp only [Option.bind_some]
  rw [List.zipWith_map, List.zipWith_self, npMask_idx, List.map_map]
  rw [if_neg (by simpa [EL] using EL_length F)]
  rw [if_neg]
  · rfl
  · change ¬ ((heToEL F).any _ = true)
    rw [List.any_eq_true]
    rintro ⟨r, hr, hr2⟩
    unfold heToEL at hr
    rw [List.mem_map] at hr
    obtain ⟨f, hf, rfl⟩ := hr
    have hf := List.mem_range.mp hf
    have hget := List.getElem?_eq_getElem hf
    obtain ⟨k0, h0, _⟩ := heToE_lookup hF hget 0
    obtain ⟨k1, h1, _⟩ := heToE_lookup hF hget 1
    obtain ⟨k2, h2, _⟩ := heToE_lookup hF hget 2
    rw [show ((0 : Fin 3).val) = 0 from rfl] at h0
    rw [show ((1 : Fin 3).val) = 1 from rfl] at h1
    rw [show ((2 : Fin 3).val) = 2 from rfl] at h2
    rw [h0, h1, h2] at hr2
    simp at hr2

end Gpy
