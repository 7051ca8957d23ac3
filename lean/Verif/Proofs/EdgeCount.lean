import Verif.Proofs.Edges
import Verif.Spec.Topology
import Verif.Proofs.HalfedgeEdgeMap
import Verif.Proofs.LoopSubdivide
import Mathlib.Algebra.BigOperators.Group.List.Basic

set_option autoImplicit false
namespace Gpy
open Np

theorem sum_count_split (l : List Edge) (f : Edge → ℕ) (h : ∀ x ∈ l, f x = 1 ∨ f x = 2) :
    (l.map f).sum = (l.filter (fun x => f x == 1)).length + 2 * (l.filter (fun x => decide (f x > 1))).length := by
  induction l with
  | nil => rfl
  | cons a t ih =>
    have := ih (fun x hx => h x (List.mem_cons_of_mem _ hx))
    rw [List.map_cons, List.sum_cons, this, List.filter_cons, List.filter_cons]
    rcases h a (by simp) with h | h <;> simp [h] <;> omega

/-- every side lies on exactly one edge, boundary edges carry one and interior edges two sides -/
theorem three_faces {F : List Tri} (hM : OrientedManifold F) : 3 * F.length = (bdryL F).length + 2 * (intL F).length := by
  have hp : (npUnique (sortedL F)).Perm (sortedL F).dedup := by
    apply (List.perm_ext_iff_of_nodup _ (List.nodup_dedup _)).mpr
    · intro a; rw [mem_npUnique, List.mem_dedup]
    · exact (npUnique_pairwise_lt _).imp (fun h => ne_of_lt h)
  have h1 : ((npUnique (sortedL F)).map (fun x => (sortedL F).count x)).sum = (sortedL F).length := by
    rw [(hp.map _).sum_eq, List.sum_map_count_dedup_eq_length]
  have h2 : (sortedL F).length = 3 * F.length := by rw [sortedL, List.length_map, length_flatL]
  rw [← h2, ← h1, sum_count_split]
  · unfold bdryL intL
    rw [List.length_map]
  · intro x hx
    have hx' := mem_sortedL hx
    have hpos := count_pos_of_mem_uniq hx
    have hs : x.sort = x := by
      unfold sortedL at hx'; rw [List.mem_map] at hx'
      obtain ⟨a, _, rfl⟩ := hx'; exact Edge.sort_sort a
    have hi : incid F x = (sortedL F).count x := by rw [incid_eq_count, hs]
    by_cases h : 2 ≤ incid F x
    · right; rw [← hi]; exact incid_eq_two hM h
    · left; omega

/-- `V - E + F`: the number of edges of a consistently oriented manifold -/
theorem edge_count {F : List Tri} (hF : F ≠ []) (hM : OrientedManifold F) {out : EdgesOut} (h : edges F = some out) :
    2 * out.E.length = 3 * F.length + (bdryL F).length := by
  rw [edges_eq hF] at h
  have := (Option.some.inj h).symm
  subst this
  have := three_faces hM
  simp only [List.length_append]
  omega

theorem undir_iff_sym2 (e e' : Edge) : Undir e e' ↔ s(e.s, e.t) = s(e'.s, e'.t) := by
  unfold Undir
  rw [Sym2.eq_iff]
  constructor
  · rintro (rfl | rfl)
    · exact Or.inl ⟨rfl, rfl⟩
    · exact Or.inr ⟨rfl, rfl⟩
  · rintro (⟨h1, h2⟩ | ⟨h1, h2⟩)
    · left; cases e; cases e'; simp_all
    · right; cases e; cases e'; simp_all [Edge.flip]

theorem E_cover (F : List Tri) (e : Edge) : (∃ e' ∈ bdryL F ++ intL F, Undir e e') ↔ ∃ h ∈ sides F, Undir e h := by
  rw [← incid_pos_iff]
  constructor
  · rintro ⟨e', he', hu⟩
    have hi : incid F e' = incid F e := by
      rw [incid_eq_count, incid_eq_count, Edge.sort_eq_iff.mpr hu]
    rcases List.mem_append.mp he' with h | h
    · have := (mem_bdryL.mp h).2; omega
    · have := (mem_intL.mp h).2; omega
  · intro hpos
    by_cases h1 : incid F e = 1
    · obtain ⟨h, hh, hu⟩ := (incid_pos_iff F e).mp hpos
      refine ⟨h, List.mem_append.mpr (Or.inl (mem_bdryL.mpr ⟨hh, ?_⟩)), hu⟩
      rw [incid_eq_count, Edge.sort_eq_iff.mpr hu, ← incid_eq_count, h1]
    · refine ⟨e.sort, List.mem_append.mpr (Or.inr (mem_intL.mpr ⟨?_, ?_⟩)), undir_sort e⟩
      · rw [Edge.sort_s, Edge.sort_t]; omega
      · rw [incid_sort]; omega

theorem numEdges_eq {F : List Tri} (hF : F ≠ []) {out : EdgesOut} (h : edges F = some out) : numEdges F = out.E.length := by
  rw [edges_eq hF] at h
  have := (Option.some.inj h).symm
  subst this
  have hp := E_pairwise F
  have hm : ∀ e, (∃ e' ∈ bdryL F ++ intL F, Undir e e') ↔ ∃ h ∈ sides F, Undir e h := E_cover F
  unfold numEdges
  have hnd : ((bdryL F ++ intL F).map (fun e => s(e.s, e.t))).Nodup := by
    unfold List.Nodup
    rw [List.pairwise_map]
    exact hp.imp (fun h h' => h ((undir_iff_sym2 _ _).mpr h'))
  have hset : ((sides F).map (fun e => s(e.s, e.t))).toFinset = ((bdryL F ++ intL F).map (fun e => s(e.s, e.t))).toFinset := by
    ext x
    simp only [List.mem_toFinset, List.mem_map]
    constructor
    · rintro ⟨e, he, rfl⟩
      obtain ⟨e', h1, h2⟩ := (hm e).mpr ⟨e, he, Or.inl rfl⟩
      exact ⟨e', h1, ((undir_iff_sym2 _ _).mp h2).symm⟩
    · rintro ⟨e, he, rfl⟩
      obtain ⟨e', h1, h2⟩ := (hm e).mp ⟨e, he, Or.inl rfl⟩
      exact ⟨e', h1, ((undir_iff_sym2 _ _).mp h2).symm⟩
  rw [hset, List.toFinset_card_of_nodup hnd, List.length_map]

theorem bdryL_nodup (F : List Tri) : (bdryL F).Nodup := by
  have h := E_pairwise F
  rw [List.pairwise_append] at h
  exact h.1.imp (fun h h' => h (Or.inl h'.symm))

/-- the number of edges from an explicit list of the boundary sides -/
theorem numEdges_of_boundary {F : List Tri} (hF : F ≠ []) (hM : OrientedManifold F) {B : List Edge} (hnd : B.Nodup)
    (hB : ∀ e, e ∈ B ↔ IsBoundarySide F e) : 2 * numEdges F = 3 * F.length + B.length := by
  rw [numEdges_eq hF (edges_eq hF), edge_count hF hM (edges_eq hF)]
  congr 1
  apply List.Perm.length_eq
  rw [List.perm_ext_iff_of_nodup (bdryL_nodup F) hnd]
  intro e
  rw [hB, mem_bdryL]
  unfold IsBoundarySide
  constructor
  · rintro ⟨h1, h2⟩; exact ⟨h1, (incid_one_iff hM h1).mp h2⟩
  · rintro ⟨h1, h2⟩; exact ⟨h1, (incid_one_iff hM h1).mpr h2⟩

end Gpy
