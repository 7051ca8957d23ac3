import Verif.Proofs.HalfedgeEdgeMap
import Mathlib.Data.List.Duplicate
import Mathlib.Data.List.NodupEquivFin

namespace Gpy
open Np

def EToHeNML (F : List Tri) : List (List (Int × Int)) :=
  ((npUnique (sortedL F)).filter (fun x => (sortedL F).count x == 1)).map
      (fun x => [unflatHe F.length ((sortedL F).idxOf x : Int)])
    ++ (intPickL F).map (fun e => ((npWhere ((flatL F).map (fun h => decide (e = h) || decide (e.flip = h)))).map
        (fun k : ℕ => unflatHe F.length (k : Int))))

def writesNML (F : List Tri) : List ((Int × Int) × Int) :=
  (EToHeNML F).zipIdx.flatMap (fun p => p.1.map (fun q => (q, (p.2 : Int))))

def heToENML (F : List Tri) : List (Row3 Int) := (List.range F.length).map (fun f =>
    Row3.mk (scatterLookup (writesNML F) f 0) (scatterLookup (writesNML F) f 1) (scatterLookup (writesNML F) f 2))

theorem EToHeNML_length (F : List Tri) : (EToHeNML F).length = (EL F).length := by
  unfold EToHeNML EL bdryL; simp

theorem halfedgeAt_iff_flat {F : List Tri} {q : Int × Int} {e : Edge} :
    HalfedgeAt F q e ↔ ∃ k : ℕ, (flatL F)[k]? = some e ∧ q = unflatHe F.length (k : Int) := by
  constructor
  · rintro ⟨f, t, i, rfl, h1, h2⟩
    refine ⟨i.val * F.length + f, ?_, ?_⟩
    · rw [flatL_get h1 i, h2]
    · rw [unflat_encode (List.getElem?_eq_some_iff.mp h1).1 i]
  · rintro ⟨k, h1, rfl⟩; exact halfedgeAt_unflat h1

theorem unflat_inj {F : List Tri} {k k' : ℕ} (h : unflatHe F.length (k : Int) = unflatHe F.length (k' : Int)) : k = k' := by
  unfold unflatHe at h
  simp only [Prod.mk.injEq] at h
  rw [← Int.natCast_mod, ← Int.natCast_mod, ← Int.natCast_div, ← Int.natCast_div] at h
  have h1 : k % F.length = k' % F.length := by exact_mod_cast h.1
  have h2 : k / F.length = k' / F.length := by exact_mod_cast h.2
  have e1 := Nat.div_add_mod' k F.length
  have e2 := Nat.div_add_mod' k' F.length
  rw [h1, h2] at e1
  omega

theorem mem_npWhere_flat {F : List Tri} {e : Edge} {k : ℕ} :
    k ∈ npWhere ((flatL F).map (fun h => decide (e = h) || decide (e.flip = h))) ↔
      ∃ h, (flatL F)[k]? = some h ∧ Undir e h := by
  rw [mem_npWhere_map]
  constructor
  · rintro ⟨x, h1, h2⟩
    refine ⟨x, h1, ?_⟩
    simp at h2
    rcases h2 with h2 | h2
    · exact Or.inl h2.symm
    · exact Or.inr h2.symm
  · rintro ⟨x, h1, h2⟩
    refine ⟨x, h1, ?_⟩
    rcases h2 with h2 | h2 <;> simp [h2]

theorem EToHeNML_spec {F : List Tri} {k : ℕ} {e : Edge} (hk : (EL F)[k]? = some e) :
    ∃ L, (EToHeNML F)[k]? = some L ∧ L.Nodup ∧ ∀ q, q ∈ L ↔ ∃ h, Undir e h ∧ HalfedgeAt F q h := by
  by_cases hlt : k < (bdryL F).length
  · unfold EL at hk
    rw [List.getElem?_append_left hlt] at hk
    have hinc := (mem_bdryL.mp (List.mem_of_getElem? hk)).2
    unfold bdryL at hk hlt
    rw [List.getElem?_map] at hk
    rw [List.length_map] at hlt
    obtain ⟨x, hx, hpx⟩ := Option.map_eq_some_iff.mp hk
    have hxm := mem_sortedL (List.mem_of_mem_filter (List.mem_of_getElem? hx))
    have hp := pick_spec hxm
    rw [hpx] at hp
    refine ⟨[unflatHe F.length ((sortedL F).idxOf x : Int)], ?_, by simp, ?_⟩
    · unfold EToHeNML
      rw [List.getElem?_append_left (by simpa using hlt), List.getElem?_map, hx]; rfl
    · intro q
      rw [List.mem_singleton]
      constructor
      · rintro rfl
        exact ⟨e, Or.inl rfl, halfedgeAt_unflat hp.1⟩
      · rintro ⟨h, hu, hq⟩
        obtain ⟨k', hk', rfl⟩ := halfedgeAt_iff_flat.mp hq
        -- count of x in sortedL is one
        have hs : (sortedL F)[k']? = some x := by
          unfold sortedL; rw [List.getElem?_map, hk']
          simp [Edge.sort_eq_iff.mpr hu, hp.2.1]
        have hs0 : (sortedL F)[(sortedL F).idxOf x]? = some x := by
          rw [List.getElem?_eq_getElem (List.idxOf_lt_length_iff.mpr hxm)]; simp
        rw [incid_eq_count, hp.2.1] at hinc
        by_contra hne
        have hne' : k' ≠ (sortedL F).idxOf x := fun h => hne (by rw [h])
        have h2 : List.Duplicate x (sortedL F) := by
          rw [List.duplicate_iff_exists_distinct_get]
          obtain ⟨ha, ha'⟩ := List.getElem?_eq_some_iff.mp hs
          obtain ⟨hb, hb'⟩ := List.getElem?_eq_some_iff.mp hs0
          rcases Nat.lt_or_gt_of_ne hne' with h | h
          · exact ⟨⟨k', ha⟩, ⟨_, hb⟩, h, by simp [ha'], by simp⟩
          · exact ⟨⟨_, hb⟩, ⟨k', ha⟩, h, by simp, by simp [ha']⟩
        have := List.duplicate_iff_two_le_count.mp h2
        omega
  · unfold EL at hk
    rw [List.getElem?_append_right (by omega)] at hk
    refine ⟨((npWhere ((flatL F).map (fun h => decide (e = h) || decide (e.flip = h)))).map
        (fun k : ℕ => unflatHe F.length (k : Int))), ?_, ?_, ?_⟩
    · unfold EToHeNML
      rw [List.getElem?_append_right (by simpa [bdryL] using Nat.not_lt.mp hlt), List.length_map]
      rw [List.getElem?_map]
      unfold bdryL at hk
      rw [List.length_map] at hk
      rw [hk]; rfl
    · refine List.Nodup.map (fun a b h => unflat_inj h) ?_
      exact (npWhere_pairwise _).imp (fun h => ne_of_lt h)
    · intro q
      rw [List.mem_map]
      constructor
      · rintro ⟨k', hk', rfl⟩
        obtain ⟨h, h1, h2⟩ := mem_npWhere_flat.mp hk'
        exact ⟨h, h2, halfedgeAt_unflat h1⟩
      · rintro ⟨h, hu, hq⟩
        obtain ⟨k', hk', rfl⟩ := halfedgeAt_iff_flat.mp hq
        exact ⟨k', mem_npWhere_flat.mpr ⟨h, hk', hu⟩, rfl⟩

theorem mem_writesNML {F : List Tri} {w : (Int × Int) × Int} :
    w ∈ writesNML F ↔ ∃ (k : ℕ) (L : List (Int × Int)), (EToHeNML F)[k]? = some L ∧ w.2 = (k : Int) ∧ w.1 ∈ L := by
  unfold writesNML
  rw [List.mem_flatMap]
  constructor
  · rintro ⟨⟨L, k⟩, hp, hw⟩
    rw [List.mem_zipIdx_iff_getElem?] at hp
    rw [List.mem_map] at hw
    obtain ⟨q, hq, rfl⟩ := hw
    exact ⟨k, L, hp, rfl, hq⟩
  · rintro ⟨k, L, hk, hw2, hw1⟩
    refine ⟨(L, k), ?_, ?_⟩
    · rw [List.mem_zipIdx_iff_getElem?]; exact hk
    · rw [List.mem_map]
      exact ⟨w.1, hw1, by rw [← hw2]⟩

theorem heToENM_lookup {F : List Tri} {f : ℕ} {t : Tri} (hf : F[f]? = some t) (i : Fin 3) :
    ∃ k : ℕ, scatterLookup (writesNML F) f i.val = (k : Int) ∧ ∃ e, (EL F)[k]? = some e ∧ Undir e (t.side i) := by
  have hside : t.side i ∈ sides F := mem_sides.mpr ⟨f, t, i, hf, rfl⟩
  have here : HalfedgeAt F ((f : Int), (i.val : Int)) (t.side i) := ⟨f, t, i, rfl, hf, rfl⟩
  apply scatterLookup_spec (P := fun z => ∃ k : ℕ, z = (k : Int) ∧ ∃ e, (EL F)[k]? = some e ∧ Undir e (t.side i))
  · obtain ⟨e', he', hu⟩ := exists_EL hside
    obtain ⟨k, hk⟩ := List.mem_iff_getElem?.mp he'
    obtain ⟨L, hL, _, hq⟩ := EToHeNML_spec hk
    exact ⟨(((f : Int), (i.val : Int)), (k : Int)),
      mem_writesNML.mpr ⟨k, L, hL, rfl, (hq _).mpr ⟨_, hu, here⟩⟩, rfl⟩
  · intro w hw h1 h2
    obtain ⟨k, L, hk, hw2, hq⟩ := mem_writesNML.mp hw
    refine ⟨k, hw2, ?_⟩
    have hklt : k < (EL F).length := by
      rw [← EToHeNML_length]; exact (List.getElem?_eq_some_iff.mp hk).1
    refine ⟨(EL F)[k], List.getElem?_eq_getElem hklt, ?_⟩
    obtain ⟨L', hL', _, hq'⟩ := EToHeNML_spec (List.getElem?_eq_getElem hklt)
    rw [hk] at hL'
    cases hL'
    obtain ⟨h, hu, hh⟩ := (hq' _).mp hq
    have hh' := hh
    obtain ⟨f', t', i', hq1, hf', hs'⟩ := hh'
    have : w.1 = ((f : Int), (i.val : Int)) := by
      rw [hq1] at h1 h2 ⊢
      simp only at h1 h2
      rw [if_neg (by omega)] at h2
      rw [h1, h2]
    rw [this] at hh
    rw [halfedgeAt_inj here hh]; exact hu

theorem halfedgeEdgeMapNM_eq {F : List Tri} (hne : F ≠ []) :
    halfedgeEdgeMapNM F = some ⟨heL F, EL F, heToENML F, EToHeNML F⟩ := by
  have hs : (flatL F).map Edge.sort = sortedL F := rfl
  unfold halfedgeEdgeMapNM
  rw [halfedges_eq hne]
  simp only [Option.bind_eq_bind, Option.bind_some, flattenHe_heL, hs, npTakeN_bdry]
  rw [show (((npUnique (sortedL F)).filter (fun x => decide ((sortedL F).count x > 1))).map (pick F)) = intPickL F from rfl,
    show (((npUnique (sortedL F)).filter (fun x => (sortedL F).count x == 1)).map (pick F)) = bdryL F from rfl]
  rw [npMask_idx, List.map_map]
  rw [if_neg (by simpa [EL] using EL_length F)]
  rw [if_neg]
  · rfl
  · change ¬ ((heToENML F).any _ = true)
    rw [List.any_eq_true]
    rintro ⟨r, hr, hr2⟩
    unfold heToENML at hr
    rw [List.mem_map] at hr
    obtain ⟨f, hf, rfl⟩ := hr
    have hf := List.mem_range.mp hf
    have hget := List.getElem?_eq_getElem hf
    obtain ⟨k0, h0, _⟩ := heToENM_lookup hget 0
    obtain ⟨k1, h1, _⟩ := heToENM_lookup hget 1
    obtain ⟨k2, h2, _⟩ := heToENM_lookup hget 2
    rw [show ((0 : Fin 3).val) = 0 from rfl] at h0
    rw [show ((1 : Fin 3).val) = 1 from rfl] at h1
    rw [show ((2 : Fin 3).val) = 2 from rfl] at h2
    rw [h0, h1, h2] at hr2
    simp at hr2

/-! ### triangle_triangle_adjacency -/

theorem range_map_getElem? {α β : Type*} (l : List α) (g : α → β) (h : ℕ → β)
    (hh : ∀ f t, l[f]? = some t → h f = g t) : (List.range l.length).map h = l.map g := by
  apply List.ext_getElem
  · simp
  · intro i h1 h2
    simp only [List.getElem_map, List.getElem_range]
    exact hh i _ (List.getElem?_eq_getElem (by simpa using h2))

theorem reshape_eq (F : List Tri) (g : Edge → Int) :
    ((List.range F.length).mapM (fun f => do
      let a ← ((flatL F).map g)[0 * F.length + f]?
      let b ← ((flatL F).map g)[1 * F.length + f]?
      let c ← ((flatL F).map g)[2 * F.length + f]?
      some (Row3.mk a b c))) = some (F.map (fun t => Row3.mk (g (t.side 0)) (g (t.side 1)) (g (t.side 2)))) := by
  rw [mapM_eq_some_map (g := fun f => (F.map (fun t => Row3.mk (g (t.side 0)) (g (t.side 1)) (g (t.side 2))))[f]?.getD ⟨0, 0, 0⟩)]
  · congr 1
    apply range_map_getElem?
    intro f t hf
    rw [List.getElem?_map, hf]; rfl
  · intro f hf
    have hf := List.mem_range.mp hf
    have hget := List.getElem?_eq_getElem hf
    have h0 := flatL_get hget 0
    have h1 := flatL_get hget 1
    have h2 := flatL_get hget 2
    rw [show ((0 : Fin 3).val) = 0 from rfl] at h0
    rw [show ((1 : Fin 3).val) = 1 from rfl] at h1
    rw [show ((2 : Fin 3).val) = 2 from rfl] at h2
    simp only [List.getElem?_map, h0, h1, h2, hget]
    rfl

def ttOf (F : List Tri) (e : Edge) : Int := if secondI F e < 0 then -1 else secondI F e % (F.length : Int)
def ttiOf (F : List Tri) (e : Edge) : Int := if secondI F e < 0 then -1 else secondI F e / (F.length : Int)

theorem tta_eq {F : List Tri} (hne : F ≠ []) : triangleTriangleAdjacency F =
    some (F.map (fun t => Row3.mk (ttOf F (t.side 0)) (ttOf F (t.side 1)) (ttOf F (t.side 2))),
      F.map (fun t => Row3.mk (ttiOf F (t.side 0)) (ttiOf F (t.side 1)) (ttiOf F (t.side 2)))) := by
  have hflat : flatL F ≠ [] := by
    intro h; have h1 := length_flatL F; rw [h] at h1
    have h2 := List.length_pos_iff.mpr hne; simp only [List.length_nil] at h1; omega
  have hflat2 : (flatL F).map Edge.flip ≠ [] := by simpa using hflat
  unfold triangleTriangleAdjacency
  rw [halfedges_eq hne]
  simp only [Option.bind_eq_bind, Option.bind_some, flattenHe_heL]
  rw [arrayCorrespondence_eq _ _ hflat2]
  simp only [Option.bind_some, List.map_map]
  have := reshape_eq F (ttOf F)
  have h2 := reshape_eq F (ttiOf F)
  simp only [Option.bind_eq_bind] at this h2
  erw [this]
  simp only [Option.bind_some]
  erw [h2]
  rfl

theorem row_get_map {g : Edge → Int} {t : Tri} (i : Fin 3) :
    (Row3.mk (g (t.side 0)) (g (t.side 1)) (g (t.side 2))).get i = g (t.side i) := by
  match i with
  | 0 => rfl
  | 1 => rfl
  | 2 => rfl

end Gpy
