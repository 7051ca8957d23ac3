import Verif.Model.Edges

namespace Gpy
open Np

theorem Edge.ext' {e e' : Edge} (h1 : e.s = e'.s) (h2 : e.t = e'.t) : e = e' := by
  cases e; cases e'; simp_all

theorem Edge.eq_iff {e e' : Edge} : e = e' ↔ e.s = e'.s ∧ e.t = e'.t :=
  ⟨fun h => by simp [h], fun h => Edge.ext' h.1 h.2⟩

@[simp] theorem Edge.flip_flip (e : Edge) : e.flip.flip = e := rfl
@[simp] theorem Edge.flip_s (e : Edge) : e.flip.s = e.t := rfl
@[simp] theorem Edge.flip_t (e : Edge) : e.flip.t = e.s := rfl

theorem Edge.sort_s (e : Edge) : e.sort.s = min e.s e.t := by unfold Edge.sort; split <;> simp <;> omega
theorem Edge.sort_t (e : Edge) : e.sort.t = max e.s e.t := by unfold Edge.sort; split <;> simp <;> omega

theorem Edge.sort_eq_iff {e e' : Edge} : e'.sort = e.sort ↔ Undir e e' := by
  unfold Undir
  rw [Edge.eq_iff, Edge.eq_iff, Edge.eq_iff, Edge.sort_s, Edge.sort_s, Edge.sort_t, Edge.sort_t]
  simp only [Edge.flip_s, Edge.flip_t]
  omega

theorem Edge.sort_sort (e : Edge) : e.sort.sort = e.sort := by
  rw [Edge.eq_iff]; simp only [Edge.sort_s, Edge.sort_t]; omega

theorem Edge.sort_eq_self_iff {e : Edge} : e.sort = e ↔ e.s ≤ e.t := by
  rw [Edge.eq_iff]; simp only [Edge.sort_s, Edge.sort_t]; omega

theorem Undir.symm {e e' : Edge} (h : Undir e e') : Undir e' e := by
  rw [← Edge.sort_eq_iff] at *; exact h.symm

theorem undir_sort (e : Edge) : Undir e e.sort := by
  rw [← Edge.sort_eq_iff, Edge.sort_sort]

/-- the halfedges of a nonempty list -/
def heL (F : List Tri) : List Halfedges3 := F.map (fun f => ⟨⟨f.b, f.c⟩, ⟨f.c, f.a⟩, ⟨f.a, f.b⟩⟩)

def flatL (F : List Tri) : List Edge := F.map (Tri.side · 0) ++ F.map (Tri.side · 1) ++ F.map (Tri.side · 2)

theorem halfedges_eq {F : List Tri} (hF : F ≠ []) : halfedges F = some (heL F) := by
  unfold halfedges
  rw [if_neg (by simpa using hF)]; rfl

theorem halfedges_nil : halfedges [] = none := rfl

theorem flattenHe_heL (F : List Tri) : flattenHe (heL F) = flatL F := by
  simp [flattenHe, heL, flatL, Function.comp_def, Tri.side]

theorem perm_flat_aux {α β : Type*} (F : List α) (f g h : α → β) :
    (F.map f ++ F.map g ++ F.map h).Perm (F.flatMap (fun t => [f t, g t, h t])) := by
  induction F with
  | nil => simp
  | cons t F ih =>
    simp only [List.map_cons, List.flatMap_cons, List.cons_append, List.nil_append]
    refine List.Perm.cons _ ?_
    have h1 : (F.map f ++ g t :: F.map g ++ h t :: F.map h).Perm (g t :: h t :: (F.map f ++ F.map g ++ F.map h)) := by
      refine (List.perm_middle (l₁ := F.map f ++ g t :: F.map g)).trans ?_
      rw [List.append_assoc, List.cons_append]
      refine (List.Perm.cons _ List.perm_middle).trans ?_
      rw [← List.append_assoc]
      exact List.Perm.swap _ _ _
    exact h1.trans (List.Perm.cons _ (List.Perm.cons _ ih))

theorem flatL_perm (F : List Tri) : (flatL F).Perm (sides F) := perm_flat_aux F _ _ _

theorem mem_flatL {F : List Tri} {e : Edge} : e ∈ flatL F ↔ e ∈ sides F := (flatL_perm F).mem_iff

theorem length_flatL (F : List Tri) : (flatL F).length = 3 * F.length := by
  simp [flatL]; omega

def sortedL (F : List Tri) : List Edge := (flatL F).map Edge.sort

theorem incid_eq_count (F : List Tri) (e : Edge) : incid F e = (sortedL F).count e.sort := by
  unfold incid sortedL
  rw [((flatL_perm F).symm.filter _).length_eq, List.count, List.countP_map, List.countP_eq_length_filter]
  congr 1
  apply List.filter_congr
  intro x _
  rw [Bool.eq_iff_iff]; simp [Edge.sort_eq_iff]

theorem incid_sort (F : List Tri) (e : Edge) : incid F e.sort = incid F e := by
  rw [incid_eq_count, incid_eq_count, Edge.sort_sort]

theorem incid_pos_iff (F : List Tri) (e : Edge) : 0 < incid F e ↔ ∃ h ∈ sides F, Undir e h := by
  unfold incid
  rw [List.length_pos_iff_exists_mem]
  constructor
  · rintro ⟨a, ha⟩; rw [List.mem_filter] at ha; exact ⟨a, ha.1, by simpa using ha.2⟩
  · rintro ⟨a, ha, h⟩; exact ⟨a, List.mem_filter.mpr ⟨ha, by simpa using h⟩⟩

/-- first side on the undirected edge `x` (sorted), in the flat order -/
def pick (F : List Tri) (x : Edge) : Edge := ((flatL F)[(sortedL F).idxOf x]?).getD x

theorem pick_spec {F : List Tri} {x : Edge} (hx : x ∈ sortedL F) :
    (flatL F)[(sortedL F).idxOf x]? = some (pick F x) ∧ (pick F x).sort = x ∧ pick F x ∈ sides F := by
  have hlt := List.idxOf_lt_length_iff.mpr hx
  have hlt' : (sortedL F).idxOf x < (flatL F).length := by simpa [sortedL] using hlt
  have h1 : (flatL F)[(sortedL F).idxOf x]? = some (pick F x) := by
    unfold pick
    rw [List.getElem?_eq_getElem hlt']; rfl
  refine ⟨h1, ?_, ?_⟩
  · have h2 : (sortedL F)[(sortedL F).idxOf x] = x := List.getElem_idxOf hlt
    have h3 : (sortedL F)[(sortedL F).idxOf x]? = some ((pick F x).sort) := by
      unfold sortedL at h1 ⊢
      rw [List.getElem?_map, h1]; rfl
    rw [List.getElem?_eq_getElem hlt, h2] at h3
    exact (Option.some.inj h3).symm
  · rw [← mem_flatL]; exact List.mem_of_getElem? h1

def bdryL (F : List Tri) : List Edge := ((npUnique (sortedL F)).filter (fun x => (sortedL F).count x == 1)).map (pick F)
def intL (F : List Tri) : List Edge := (npUnique (sortedL F)).filter (fun x => decide ((sortedL F).count x > 1))

theorem mem_sortedL {F : List Tri} {x : Edge} : x ∈ npUnique (sortedL F) → x ∈ sortedL F := mem_npUnique.mp

theorem npTakeN_bdry (F : List Tri) (p : Nat → Bool) :
    npTakeN (flatL F) (npMask (npUniqueIndex (sortedL F)) ((npUniqueCounts (sortedL F)).map p))
      = some (((npUnique (sortedL F)).filter (fun x => p ((sortedL F).count x))).map (pick F)) := by
  unfold npUniqueIndex npUniqueCounts npTakeN
  rw [List.map_map, npMask_map_map, List.mapM_map]
  apply mapM_eq_some_map
  intro x hx
  exact (pick_spec (mem_sortedL (List.mem_of_mem_filter hx))).1

theorem npMask_uniq (F : List Tri) (p : Nat → Bool) :
    npMask (npUnique (sortedL F)) ((npUniqueCounts (sortedL F)).map p)
      = (npUnique (sortedL F)).filter (fun x => p ((sortedL F).count x)) := by
  unfold npUniqueCounts
  rw [List.map_map, npMask_self_map]; rfl

theorem count_pos_of_mem_uniq {F : List Tri} {x : Edge} (hx : x ∈ npUnique (sortedL F)) :
    0 < (sortedL F).count x := List.count_pos_iff.mpr (mem_sortedL hx)

theorem length_split (F : List Tri) : (bdryL F ++ intL F).length = (npUnique (sortedL F)).length := by
  have h := List.length_eq_length_filter_add (l := npUnique (sortedL F)) (fun x => (sortedL F).count x == 1)
  rw [List.length_append, h]
  unfold bdryL intL
  rw [List.length_map]
  congr 2
  apply List.filter_congr
  intro x hx
  have := count_pos_of_mem_uniq hx
  by_cases h : (sortedL F).count x = 1
  · simp [h]
  · have : (sortedL F).count x > 1 := by omega
    simp [h, this]

theorem edges_eq {F : List Tri} (hF : F ≠ []) : edges F = some
    { E := bdryL F ++ intL F
      boundaryIndices := List.range (bdryL F).length
      interiorIndices := npWhere ((npUnique (sortedL F)).map (fun x => decide ((sortedL F).count x > 1)))
      nonmanifoldIndices := npWhere ((npUnique (sortedL F)).map (fun x => decide ((sortedL F).count x > 2))) } := by
  have hs : (flatL F).map Edge.sort = sortedL F := rfl
  have h := length_split F
  unfold edges
  rw [halfedges_eq hF]
  simp only [Option.bind_eq_bind, Option.bind_some, flattenHe_heL, hs, npTakeN_bdry, npMask_uniq]
  change (if (bdryL F ++ intL F).length ≠ _ then none else _) = _
  rw [if_neg (by simpa using h)]
  simp only [npUniqueCounts, List.map_map, Function.comp_def]
  rfl

theorem edges_nil : edges [] = none := rfl

theorem mem_intL {F : List Tri} {e : Edge} : e ∈ intL F ↔ e.s ≤ e.t ∧ 2 ≤ incid F e := by
  unfold intL
  rw [List.mem_filter, mem_npUnique]
  constructor
  · rintro ⟨h1, h2⟩
    have hs : e.sort = e := by
      unfold sortedL at h1; rw [List.mem_map] at h1
      obtain ⟨a, _, rfl⟩ := h1; exact Edge.sort_sort a
    refine ⟨Edge.sort_eq_self_iff.mp hs, ?_⟩
    rw [incid_eq_count, hs]; simp at h2; omega
  · rintro ⟨h1, h2⟩
    have hs := Edge.sort_eq_self_iff.mpr h1
    rw [incid_eq_count, hs] at h2
    exact ⟨List.count_pos_iff.mp (by omega), by simp; omega⟩

theorem mem_sortedL_of_side {F : List Tri} {e : Edge} (h : e ∈ sides F) : e.sort ∈ sortedL F :=
  List.mem_map_of_mem (mem_flatL.mpr h)

theorem mem_bdryL {F : List Tri} {e : Edge} : e ∈ bdryL F ↔ e ∈ sides F ∧ incid F e = 1 := by
  unfold bdryL
  rw [List.mem_map]
  constructor
  · rintro ⟨x, hx, rfl⟩
    rw [List.mem_filter] at hx
    have hp := pick_spec (mem_sortedL hx.1)
    refine ⟨hp.2.2, ?_⟩
    rw [incid_eq_count, hp.2.1]; simpa using hx.2
  · rintro ⟨h1, h2⟩
    refine ⟨e.sort, ?_, ?_⟩
    · rw [List.mem_filter, mem_npUnique]
      exact ⟨mem_sortedL_of_side h1, by rw [incid_eq_count] at h2; simpa using h2⟩
    · have hp := pick_spec (mem_sortedL_of_side h1)
      -- both are sides on the same undirected edge of incidence 1
      have hu : Undir e (pick F e.sort) := Edge.sort_eq_iff.mp hp.2.1
      unfold incid at h2
      obtain ⟨z, hz⟩ := List.length_eq_one_iff.mp h2
      have m1 : e ∈ (sides F).filter (fun h => Undir e h) := List.mem_filter.mpr ⟨h1, by simp [Undir]⟩
      have m2 : pick F e.sort ∈ (sides F).filter (fun h => Undir e h) :=
        List.mem_filter.mpr ⟨hp.2.2, by simpa using hu⟩
      rw [hz] at m1 m2
      simp at m1 m2
      rw [m2, m1]

theorem bdryL_map_sort (F : List Tri) :
    (bdryL F).map Edge.sort = (npUnique (sortedL F)).filter (fun x => (sortedL F).count x == 1) := by
  unfold bdryL
  rw [List.map_map]
  conv_rhs => rw [← List.map_id ((npUnique (sortedL F)).filter _)]
  apply List.map_congr_left
  intro x hx
  exact (pick_spec (mem_sortedL (List.mem_of_mem_filter hx))).2.1

theorem bdryL_sorted (F : List Tri) : ((bdryL F).map Edge.sort).Pairwise (· < ·) := by
  rw [bdryL_map_sort]; exact (npUnique_pairwise_lt _).filter _

theorem intL_sorted (F : List Tri) : (intL F).Pairwise (· < ·) := (npUnique_pairwise_lt _).filter _

theorem intL_map_sort (F : List Tri) : (intL F).map Edge.sort = intL F := by
  conv_rhs => rw [← List.map_id (intL F)]
  apply List.map_congr_left
  intro x hx; exact Edge.sort_eq_self_iff.mpr (mem_intL.mp hx).1

theorem E_pairwise (F : List Tri) : (bdryL F ++ intL F).Pairwise (fun e e' => ¬ Undir e e') := by
  rw [List.pairwise_append]
  refine ⟨?_, ?_, ?_⟩
  · have := bdryL_sorted F
    rw [List.pairwise_map] at this
    exact this.imp (fun {a b} h hu => absurd (Edge.sort_eq_iff.mpr hu) (ne_of_gt h))
  · have := intL_sorted F
    rw [← intL_map_sort, List.pairwise_map] at this
    exact this.imp (fun {a b} h hu => absurd (Edge.sort_eq_iff.mpr hu) (ne_of_gt h))
  · intro a ha b hb hu
    have h1 := (mem_bdryL.mp ha).2
    have h2 := (mem_intL.mp hb).2
    rw [incid_eq_count] at h1 h2
    rw [Edge.sort_eq_iff.mpr hu] at h2
    omega

theorem mem_npWhere_map {α : Type*} {l : List α} {p : α → Bool} {i : Nat} :
    i ∈ npWhere (l.map p) ↔ ∃ x, l[i]? = some x ∧ p x = true := by
  unfold npWhere
  rw [List.mem_filter, List.mem_range, List.length_map]
  constructor
  · rintro ⟨h1, h2⟩
    refine ⟨l[i], List.getElem?_eq_getElem h1, ?_⟩
    simpa [List.getElem?_map, List.getElem?_eq_getElem h1] using h2
  · rintro ⟨x, h1, h2⟩
    have hlt : i < l.length := (List.getElem?_eq_some_iff.mp h1).1
    exact ⟨hlt, by simp [List.getElem?_map, h1, h2]⟩

theorem npWhere_pairwise (m : List Bool) : (npWhere m).Pairwise (· < ·) :=
  List.pairwise_lt_range.filter _

theorem npTakeN_range {α : Type*} (l l' : List α) : npTakeN (l ++ l') (List.range l.length) = some l := by
  unfold npTakeN
  have : ∀ i ∈ List.range l.length, ∃ x, (l ++ l')[i]? = some x := by
    intro i hi
    have := List.mem_range.mp hi
    exact ⟨_, List.getElem?_eq_getElem (by simp; omega)⟩
  cases l with
  | nil => rfl
  | cons a t =>
    rw [mapM_eq_some_map (g := fun i => ((a :: t)[i]?).getD a)]
    · congr 1
      apply List.ext_getElem
      · simp
      · intro i h1 h2
        simp only [List.getElem_map, List.getElem_range]
        rw [List.getElem?_eq_getElem h2]; rfl
    · intro i hi
      have hlt := List.mem_range.mp hi
      rw [List.getElem?_append_left hlt, List.getElem?_eq_getElem hlt]; rfl

theorem boundaryEdges_eq {F : List Tri} (hF : F ≠ []) : boundaryEdges F = some (bdryL F) := by
  unfold boundaryEdges
  rw [edges_eq hF]
  exact npTakeN_range _ _

theorem nonManifoldEdges_eq {F : List Tri} (hF : F ≠ []) :
    nonManifoldEdges F = some ((npUnique (sortedL F)).filter (fun x => decide ((sortedL F).count x > 2))) := by
  unfold nonManifoldEdges
  rw [halfedges_eq hF]
  have h0 : (heL F).flatMap (fun h => [h.h0, h.h1, h.h2]) = sides F := by
    simp [heL, sides, List.flatMap_map, Tri.side]
  simp only [Option.bind_eq_bind, Option.bind_some, h0, Option.pure_def]
  have hp : ((sides F).map Edge.sort).Perm (sortedL F) := ((flatL_perm F).symm.map _)
  have hu : npUnique ((sides F).map Edge.sort) = npUnique (sortedL F) := npUnique_congr (fun x => hp.mem_iff)
  unfold npUniqueCounts
  rw [hu, List.map_map, npMask_self_map]
  congr 2
  funext x
  simp [hp.count_eq]

end Gpy
