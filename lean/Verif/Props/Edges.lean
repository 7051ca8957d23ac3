import Verif.Proofs.Edges
import Verif.Proofs.ArrayCorrespondence

/-! Properties C01 - C04: `array_correspondence`, `edges`, `boundary_edges`, `boundary_vertices`, `non_manifold_edges`. -/

namespace Gpy

/-! ## C01 -/

/-- `r` is the index of the first entry of `B` equal to `x`, or `-1` if there is none. -/
def IsFirstMatch {α : Type*} (B : List α) (x : α) (r : Int) : Prop :=
  (r = -1 ∧ ∀ j : ℕ, B[j]? ≠ some x) ∨
  (∃ j : ℕ, r = (j : Int) ∧ B[j]? = some x ∧ ∀ k < j, B[k]? ≠ some x)

/-- C01: `array_correspondence(A,B)` succeeds for nonempty `B` and returns, for every entry of `A`, its first match. -/
theorem C01_array_correspondence_first_match {α : Type*} [LinearOrder α] (A B : List α) (hB : B ≠ []) :
    ∃ f, arrayCorrespondence A B = some f ∧ f.length = A.length ∧
      ∀ (i : ℕ) (x : α), A[i]? = some x → ∃ r, f[i]? = some r ∧ IsFirstMatch B x r := by
  refine ⟨_, arrayCorrespondence_eq A B hB, by simp, ?_⟩
  intro i x hx
  refine ⟨if x ∈ B then (B.idxOf x : Int) else -1, by simp [List.getElem?_map, hx], ?_⟩
  by_cases hxB : x ∈ B
  · right
    refine ⟨B.idxOf x, by simp [hxB], ?_, ?_⟩
    · rw [List.getElem?_eq_getElem (List.idxOf_lt_length_iff.mpr hxB)]; simp
    · intro k hk hkx
      have hlt : k < B.length := (List.getElem?_eq_some_iff.mp hkx).1
      have : B[k] = x := (List.getElem?_eq_some_iff.mp hkx).2
      have h2 := List.not_of_lt_findIdx (p := (· == x)) (xs := B) hk
      simp [this] at h2
  · left
    refine ⟨by simp [hxB], fun j hj => hxB (List.mem_of_getElem? hj)⟩

/-- C01, remaining case: an empty `B` raises (`IndexError`) unless `A` is empty as well. -/
theorem C01_array_correspondence_empty {α : Type*} [LinearOrder α] (A : List α) :
    arrayCorrespondence A ([] : List α) = if A = [] then some [] else none := by
  split
  · next h => subst h; exact arrayCorrespondence_nil _
  · next h => exact arrayCorrespondence_empty_B A h

example : arrayCorrespondence [3, 7, 5, 3] [5, 3, 3, 9] = some [(1 : Int), -1, 0, 1] := by decide +kernel
example : ([5, 3, 3, 9] : List ℕ) ≠ [] := by decide

/-! ## C02 -/

/-- C02: for a nonempty triangle list `edges` succeeds; its result is the list of boundary edges (incidence one), oriented as
in their triangle, followed by the edges of incidence at least two as `(min,max)` in increasing lexicographic order;
no undirected edge is listed twice. -/
theorem C02_edges_lists_each_edge_once (F : List Tri) (hF : F ≠ []) :
    ∃ out B I, edges F = some out ∧ out.E = B ++ I ∧
      (∀ e, e ∈ B ↔ e ∈ sides F ∧ incid F e = 1) ∧
      (∀ e, e ∈ I ↔ e.s ≤ e.t ∧ 2 ≤ incid F e) ∧
      I.Pairwise (fun e e' => e.s < e'.s ∨ (e.s = e'.s ∧ e.t < e'.t)) ∧
      (B.Pairwise (fun e e' => min e.s e.t < min e'.s e'.t ∨
          (min e.s e.t = min e'.s e'.t ∧ max e.s e.t < max e'.s e'.t))) ∧
      out.E.Pairwise (fun e e' => ¬ Undir e e') ∧
      (∀ e, (∃ e' ∈ out.E, Undir e e') ↔ ∃ h ∈ sides F, Undir e h) := by
  refine ⟨_, bdryL F, intL F, edges_eq hF, rfl, fun _ => mem_bdryL, fun _ => mem_intL, intL_sorted F, ?_,
    E_pairwise F, ?_⟩
  · have := bdryL_sorted F
    rw [List.pairwise_map] at this
    refine this.imp ?_
    intro a b h
    rw [Edge.lt_def, Edge.sort_s, Edge.sort_s, Edge.sort_t, Edge.sort_t] at h
    exact h
  · intro e
    rw [← incid_pos_iff]
    constructor
    · rintro ⟨e', he', hu⟩
      have hi : incid F e' = incid F e := by
        rw [incid_eq_count, incid_eq_count, Edge.sort_eq_iff.mpr hu]
      rcases List.mem_append.mp he' with h | h
      · have := (mem_bdryL.mp h).2; omega
      · have := (mem_intL.mp h).2; omega
    · intro hpos
      by_cases h1 : incid F e = 1
      · obtain ⟨h, hh, hu⟩ := (incid_pos_iff F e).mp hpos
        refine ⟨h, List.mem_append.mpr (Or.inl (mem_bdryL.mpr ⟨hh, ?_⟩)), hu⟩
        rw [incid_eq_count, Edge.sort_eq_iff.mpr hu, ← incid_eq_count, h1]
      · refine ⟨e.sort, List.mem_append.mpr (Or.inr (mem_intL.mpr ⟨?_, ?_⟩)), undir_sort e⟩
        · rw [Edge.sort_s, Edge.sort_t]; omega
        · rw [incid_sort]; omega

/-- C02, error branch: the empty list is rejected (assert). -/
theorem C02_edges_empty_rejected : edges [] = none := rfl

/-- a fan of three triangles, one with flipped orientation -/
example : edges [⟨0, 1, 2⟩, ⟨2, 1, 3⟩, ⟨1, 2, 4⟩] =
    some ⟨[⟨0, 1⟩, ⟨2, 0⟩, ⟨1, 3⟩, ⟨4, 1⟩, ⟨3, 2⟩, ⟨2, 4⟩, ⟨1, 2⟩], [0, 1, 2, 3, 4, 5], [2], [2]⟩ := by decide +kernel

/-! ## C03 -/

/-- The returned index arrays address exactly the boundary / interior / non-manifold rows of the returned `E`. -/
def IndicesAddressRows (F : List Tri) (out : EdgesOut) : Prop :=
  ∀ (i : ℕ),
    (i ∈ out.boundaryIndices ↔ ∃ e, out.E[i]? = some e ∧ incid F e = 1) ∧
    (i ∈ out.interiorIndices ↔ ∃ e, out.E[i]? = some e ∧ 2 ≤ incid F e) ∧
    (i ∈ out.nonmanifoldIndices ↔ ∃ e, out.E[i]? = some e ∧ 3 ≤ incid F e)

/-- C03 is FALSE of the code: for the two triangles `[0,1,2],[1,0,3]` the only interior edge is row 4 of `E`,
but `edges(F, return_interior_indices=True)` returns `[0]`, the index of a boundary edge. -/
theorem C03_violated : ∃ F out, edges F = some out ∧ OrientedManifold F ∧ ¬ IndicesAddressRows F out := by
  refine ⟨[⟨0, 1, 2⟩, ⟨1, 0, 3⟩], ⟨[⟨2, 0⟩, ⟨0, 3⟩, ⟨1, 2⟩, ⟨3, 1⟩, ⟨0, 1⟩], [0, 1, 2, 3], [0], []⟩,
    by decide +kernel, by decide +kernel, ?_⟩
  intro h
  have h0 := (h 0).2.1.mp (by decide)
  obtain ⟨e, he, h2⟩ := h0
  have : e = ⟨2, 0⟩ := by simpa using he.symm
  subst this
  exact absurd h2 (by decide)

/-- C03, what is true for every mesh: the *boundary* indices are right. -/
theorem C03_boundary_indices_partial (F : List Tri) (hF : F ≠ []) :
    ∃ out, edges F = some out ∧
      ∀ i : ℕ, i ∈ out.boundaryIndices ↔ ∃ e, out.E[i]? = some e ∧ incid F e = 1 := by
  refine ⟨_, edges_eq hF, fun i => ?_⟩
  simp only [List.mem_range]
  constructor
  · intro hi
    refine ⟨(bdryL F)[i], ?_, ?_⟩
    · rw [List.getElem?_append_left hi, List.getElem?_eq_getElem hi]
    · exact (mem_bdryL.mp (List.getElem_mem hi)).2
  · rintro ⟨e, he, h1⟩
    by_contra hi
    rw [List.getElem?_append_right (by omega)] at he
    have := (mem_intL.mp (List.mem_of_getElem? he)).2
    omega

/-- C03, what is true of the interior and non-manifold indices: they are right whenever no edge is a boundary edge.
(Missing: meshes with boundary, where `C03_violated` shows the claim fails.) -/
theorem C03_closed_mesh_partial (F : List Tri) (hF : F ≠ []) (hclosed : ∀ e, incid F e ≠ 1) :
    ∃ out, edges F = some out ∧ IndicesAddressRows F out := by
  obtain ⟨out, h1, h2⟩ := C03_boundary_indices_partial F hF
  refine ⟨out, h1, fun i => ⟨h2 i, ?_⟩⟩
  rw [edges_eq hF] at h1
  have h1 := (Option.some.inj h1).symm
  subst h1
  have hb : bdryL F = [] := by
    rw [List.eq_nil_iff_forall_not_mem]
    intro e he; exact hclosed e (mem_bdryL.mp he).2
  have hE : intL F = Np.npUnique (sortedL F) := by
    unfold intL
    rw [List.filter_eq_self]
    intro x hx
    have h0 := count_pos_of_mem_uniq hx
    have hs : x.sort = x := by
      have := mem_sortedL hx
      unfold sortedL at this; rw [List.mem_map] at this
      obtain ⟨a, _, rfl⟩ := this; exact Edge.sort_sort a
    have := hclosed x
    rw [incid_eq_count, hs] at this
    simp; omega
  have key : ∀ k, (i ∈ Np.npWhere ((Np.npUnique (sortedL F)).map (fun x => decide ((sortedL F).count x > k))) ↔
      ∃ e, (bdryL F ++ intL F)[i]? = some e ∧ k + 1 ≤ incid F e) := by
    intro k
    rw [mem_npWhere_map, hb, List.nil_append, hE]
    constructor
    · rintro ⟨x, hx, hk⟩
      refine ⟨x, hx, ?_⟩
      have hs : x.sort = x := by
        have := mem_sortedL (List.mem_of_getElem? hx)
        unfold sortedL at this; rw [List.mem_map] at this
        obtain ⟨a, _, rfl⟩ := this; exact Edge.sort_sort a
      rw [incid_eq_count, hs]; simp at hk; omega
    · rintro ⟨x, hx, hk⟩
      refine ⟨x, hx, ?_⟩
      have hs : x.sort = x := by
        have := mem_sortedL (List.mem_of_getElem? hx)
        unfold sortedL at this; rw [List.mem_map] at this
        obtain ⟨a, _, rfl⟩ := this; exact Edge.sort_sort a
      rw [incid_eq_count, hs] at hk; simp; omega
  exact ⟨key 1, key 2⟩

/-- a closed mesh (tetrahedron surface) meets the hypothesis of `C03_closed_mesh_partial` -/
example : ∀ e, incid [⟨0, 2, 1⟩, ⟨0, 1, 3⟩, ⟨1, 2, 3⟩, ⟨2, 0, 3⟩] e ≠ 1 := by
  intro e h
  have hp : 0 < incid [⟨0, 2, 1⟩, ⟨0, 1, 3⟩, ⟨1, 2, 3⟩, ⟨2, 0, 3⟩] e := by omega
  obtain ⟨s, hs, hu⟩ := (incid_pos_iff _ e).mp hp
  have hi : incid [⟨0, 2, 1⟩, ⟨0, 1, 3⟩, ⟨1, 2, 3⟩, ⟨2, 0, 3⟩] s = 1 := by
    rw [incid_eq_count, Edge.sort_eq_iff.mpr hu, ← incid_eq_count, h]
  have hall : ∀ s ∈ sides [⟨0, 2, 1⟩, ⟨0, 1, 3⟩, ⟨1, 2, 3⟩, ⟨2, 0, 3⟩],
      incid [⟨0, 2, 1⟩, ⟨0, 1, 3⟩, ⟨1, 2, 3⟩, ⟨2, 0, 3⟩] s ≠ 1 := by decide +kernel
  exact hall s hs hi

/-! ## C04 -/

/-- C04a: `boundary_edges(F)` lists, without repetition, exactly the triangle sides whose undirected edge has incidence one. -/
theorem C04_boundary_edges (F : List Tri) (hF : F ≠ []) :
    ∃ B, boundaryEdges F = some B ∧ B.Nodup ∧ ∀ e, e ∈ B ↔ e ∈ sides F ∧ incid F e = 1 := by
  refine ⟨_, boundaryEdges_eq hF, ?_, fun _ => mem_bdryL⟩
  exact List.Nodup.of_map _ ((bdryL_sorted F).imp (fun h => ne_of_lt h))

/-- C04b: `boundary_vertices(F)` is the strictly increasing list of end points of boundary edges. -/
theorem C04_boundary_vertices (F : List Tri) (hF : F ≠ []) :
    ∃ L, boundaryVertices F = some L ∧ L.Pairwise (· < ·) ∧
      ∀ v, v ∈ L ↔ ∃ e ∈ sides F, incid F e = 1 ∧ (v = e.s ∨ v = e.t) := by
  refine ⟨_, by unfold boundaryVertices; rw [boundaryEdges_eq hF]; rfl, Np.npUnique_pairwise_lt _, fun v => ?_⟩
  rw [Np.mem_npUnique, List.mem_flatMap]
  constructor
  · rintro ⟨e, he, hv⟩
    obtain ⟨h1, h2⟩ := mem_bdryL.mp he
    exact ⟨e, h1, h2, by simpa using hv⟩
  · rintro ⟨e, h1, h2, hv⟩
    exact ⟨e, mem_bdryL.mpr ⟨h1, h2⟩, by simpa using hv⟩

/-- C04c: `non_manifold_edges(F)` is the strictly increasing list of undirected edges `(min,max)` of incidence ≥ 3. -/
theorem C04_non_manifold_edges (F : List Tri) (hF : F ≠ []) :
    ∃ N, nonManifoldEdges F = some N ∧
      N.Pairwise (fun e e' => e.s < e'.s ∨ (e.s = e'.s ∧ e.t < e'.t)) ∧
      ∀ e, e ∈ N ↔ e.s ≤ e.t ∧ 3 ≤ incid F e := by
  refine ⟨_, nonManifoldEdges_eq hF, (Np.npUnique_pairwise_lt _).filter _, fun e => ?_⟩
  rw [List.mem_filter, Np.mem_npUnique]
  constructor
  · rintro ⟨h1, h2⟩
    have hs : e.sort = e := by
      unfold sortedL at h1; rw [List.mem_map] at h1
      obtain ⟨a, _, rfl⟩ := h1; exact Edge.sort_sort a
    refine ⟨Edge.sort_eq_self_iff.mp hs, ?_⟩
    rw [incid_eq_count, hs]; simp at h2; omega
  · rintro ⟨h1, h2⟩
    have hs := Edge.sort_eq_self_iff.mpr h1
    rw [incid_eq_count, hs] at h2
    exact ⟨List.count_pos_iff.mp (by omega), by simp; omega⟩

example : boundaryEdges [⟨0, 1, 2⟩, ⟨2, 1, 3⟩, ⟨1, 2, 4⟩] = some [⟨0, 1⟩, ⟨2, 0⟩, ⟨1, 3⟩, ⟨4, 1⟩, ⟨3, 2⟩, ⟨2, 4⟩] ∧
    boundaryVertices [⟨0, 1, 2⟩, ⟨2, 1, 3⟩, ⟨1, 2, 4⟩] = some [0, 1, 2, 3, 4] ∧
    nonManifoldEdges [⟨0, 1, 2⟩, ⟨2, 1, 3⟩, ⟨1, 2, 4⟩] = some [⟨1, 2⟩] := by decide +kernel

end Gpy
