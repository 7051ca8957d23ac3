import Verif.Proofs.BoundaryLoops

/-! C14: `boundary_loops`. -/

set_option autoImplicit false
namespace Gpy
open Np

theorem walks_sort {allow : Bool} {es ps : List Edge} (h : List.Forall₂ (Walks allow) es ps) : ps.map Edge.sort = es.map Edge.sort := by
  induction h with
  | nil => rfl
  | @cons e p _ _ h _ ih =>
    rw [List.map_cons, List.map_cons, ih]
    congr 1
    rw [Edge.sort_eq_iff]
    rcases h with rfl | ⟨-, rfl⟩
    · exact Or.inl rfl
    · exact Or.inr rfl

theorem walks_strict {es ps : List Edge} (h : List.Forall₂ (Walks false) es ps) : ps = es := by
  induction h with
  | nil => rfl
  | @cons e p _ _ h _ ih =>
    rcases h with rfl | ⟨h, -⟩
    · rw [ih]
    · simp at h

theorem walks_deg {allow : Bool} {es ps : List Edge} (h : List.Forall₂ (Walks allow) es ps) (v : ℕ) :
    outDeg ps v + inDeg ps v = outDeg es v + inDeg es v := by
  induction h with
  | nil => rfl
  | @cons e p es ps h _ ih =>
    obtain ⟨a, b⟩ := deg_cons_perm (List.Perm.refl (e :: es)) v
    obtain ⟨c, d⟩ := deg_cons_perm (List.Perm.refl (p :: ps)) v
    rw [a, b, c, d]
    rcases h with rfl | ⟨-, rfl⟩
    · omega
    · rw [Edge.flip_s, Edge.flip_t]; clear a b c d; omega

theorem deg_perm {L L' : List Edge} (h : L.Perm L') (v : ℕ) : outDeg L v = outDeg L' v ∧ inDeg L v = inDeg L' v := by
  unfold outDeg inDeg
  exact ⟨(h.filter _).length_eq, (h.filter _).length_eq⟩

theorem cyclic_map (l : List ℕ) : (cyclicEdges l).map (·.s) = l ∧ (cyclicEdges l).map (·.t) = l.rotate 1 := by
  unfold cyclicEdges
  have hl : (l.rotate 1).length = l.length := List.length_rotate l 1
  generalize l.rotate 1 = r at hl
  induction l generalizing r with
  | nil => cases r <;> simp_all
  | cons a t ih =>
    cases r with
    | nil => simp at hl
    | cons b r =>
      obtain ⟨h1, h2⟩ := ih r (by simpa using hl)
      simp [h1, h2]

theorem outDeg_count (E : List Edge) (v : ℕ) : outDeg E v = (E.map (·.s)).count v ∧ inDeg E v = (E.map (·.t)).count v := by
  unfold outDeg inDeg
  rw [List.count_eq_countP, List.count_eq_countP, List.countP_map, List.countP_map, List.countP_eq_length_filter, List.countP_eq_length_filter]
  constructor <;> (congr 1)

theorem loops_deg (loops : List (List ℕ)) (v : ℕ) :
    outDeg (loops.flatMap cyclicEdges) v = loops.flatten.count v ∧ inDeg (loops.flatMap cyclicEdges) v = loops.flatten.count v := by
  rw [(outDeg_count _ v).1, (outDeg_count _ v).2]
  induction loops with
  | nil => simp
  | cons l t ih =>
    rw [List.flatMap_cons, List.map_append, List.map_append, List.count_append, List.count_append, ih.1, ih.2, List.flatten_cons,
      List.count_append, (cyclic_map l).1, (cyclic_map l).2]
    exact ⟨rfl, by rw [(List.rotate_perm l 1).count_eq]⟩

theorem incid_undir {F : List Tri} {e e' : Edge} (h : Undir e e') : incid F e' = incid F e := by
  rw [← incid_sort F e', ← incid_sort F e, Edge.sort_eq_iff.mpr h]

/-- what a successful call went through -/
theorem boundaryLoops_inv {fuel : ℕ} {F : List Tri} {allow : Bool} {loops : List (List ℕ)} (h : boundaryLoopsFuel fuel F allow = some loops) :
    F ≠ [] ∧ (∀ l ∈ loops, l ≠ []) ∧ ∃ es, (bdryL F).Perm es ∧ List.Forall₂ (Walks allow) es (loops.flatMap cyclicEdges) := by
  unfold boundaryLoopsFuel at h
  have hF : F ≠ [] := by rintro rfl; simp at h
  rw [if_neg (by simpa using hF), nonManifoldEdges_eq hF, Option.bind_eq_bind, Option.bind_some] at h
  split_ifs at h
  rw [boundaryEdges_eq hF, Option.bind_eq_bind, Option.bind_some] at h
  cases hb : blLoops (bdryL F) allow fuel fuel (List.replicate (bdryL F).length true) [] with
  | none => rw [hb] at h; simp at h
  | some out =>
    rw [hb, Option.bind_some] at h
    split_ifs at h
    obtain rfl := Option.some.inj h
    obtain ⟨new, es, n1, n2, n3, n4⟩ := blLoops_spec _ _ _ _ hb
    rw [List.nil_append] at n1
    subst n1
    rw [rem_replicate] at n3
    exact ⟨hF, n2, es, n3, n4⟩

/-- C14.  Whenever `boundary_loops` returns, the cyclically consecutive vertices of the returned loops are the boundary edges of the mesh
(the edges with exactly one incident triangle), each of them once; without `allow_wrong_orientations` they are also traversed in
the direction of their triangle. -/
theorem C14_loops_are_the_boundary_edges (F : List Tri) (allow : Bool) (loops : List (List ℕ)) (h : boundaryLoops F allow = some loops) :
    (∀ l ∈ loops, l ≠ []) ∧
    (loops.flatMap cyclicEdges).Pairwise (fun e e' => ¬ Undir e e') ∧
    (∀ e, incid F e = 1 ↔ ∃ p ∈ loops.flatMap cyclicEdges, Undir p e) ∧
    (allow = false → ∀ p ∈ loops.flatMap cyclicEdges, p ∈ sides F) := by
  obtain ⟨hF, h0, es, h1, h2⟩ := boundaryLoops_inv h
  have hs := walks_sort h2
  have hperm : (bdryL F |>.map Edge.sort).Perm ((loops.flatMap cyclicEdges).map Edge.sort) := by rw [hs]; exact h1.map _
  have hnd : ((loops.flatMap cyclicEdges).map Edge.sort).Nodup :=
    hperm.nodup_iff.mp ((bdryL_sorted F).imp (fun h => ne_of_lt h))
  refine ⟨h0, ?_, ?_, ?_⟩
  · rw [List.Nodup, List.pairwise_map] at hnd
    exact hnd.imp (fun h h' => h (Edge.sort_eq_iff.mpr h').symm)
  · intro e
    constructor
    · intro he
      obtain ⟨x, hx, hu⟩ := (incid_pos_iff F e).mp (by omega)
      have hb : x ∈ bdryL F := mem_bdryL.mpr ⟨hx, by rw [incid_undir hu]; exact he⟩
      have := hperm.subset (List.mem_map.mpr ⟨x, hb, rfl⟩)
      obtain ⟨p, hp, hps⟩ := List.mem_map.mp this
      refine ⟨p, hp, ?_⟩
      rw [← Edge.sort_eq_iff, hps]
      exact (Edge.sort_eq_iff.mpr hu).symm
    · rintro ⟨p, hp, hu⟩
      have := hperm.symm.subset (List.mem_map.mpr ⟨p, hp, rfl⟩)
      obtain ⟨x, hx, hxs⟩ := List.mem_map.mp this
      rw [incid_undir hu, ← incid_sort, ← hxs, incid_sort]
      exact (mem_bdryL.mp hx).2
  · rintro rfl p hp
    rw [walks_strict h2] at hp
    exact (mem_bdryL.mp (h1.symm.subset hp)).1

/-- C14, vertices.  If moreover no vertex is on more than two boundary edges, the loops list every boundary vertex exactly once. -/
theorem C14_each_boundary_vertex_once (F : List Tri) (allow : Bool) (loops : List (List ℕ)) (h : boundaryLoops F allow = some loops)
    (bE : List Edge) (hb : boundaryEdges F = some bE) (h2 : ∀ v, outDeg bE v + inDeg bE v ≤ 2) :
    loops.flatten.Nodup ∧ ∀ v, v ∈ loops.flatten ↔ ∃ w, incid F ⟨v, w⟩ = 1 := by
  obtain ⟨hF, h0, es, p1, p2⟩ := boundaryLoops_inv h
  rw [boundaryEdges_eq hF] at hb
  obtain rfl := Option.some.inj hb
  have hcount : ∀ v, 2 * loops.flatten.count v = outDeg (bdryL F) v + inDeg (bdryL F) v := by
    intro v
    have := walks_deg p2 v
    rw [(loops_deg loops v).1, (loops_deg loops v).2] at this
    rw [(deg_perm p1 v).1, (deg_perm p1 v).2]
    omega
  refine ⟨?_, ?_⟩
  · rw [List.nodup_iff_count_le_one]
    intro v
    have := hcount v
    have := h2 v
    omega
  · intro v
    rw [← List.count_pos_iff]
    constructor
    · intro hv
      have h3 : 0 < outDeg (bdryL F) v ∨ 0 < inDeg (bdryL F) v := by have := hcount v; omega
      rcases h3 with h3 | h3
      · unfold outDeg at h3
        obtain ⟨e, he⟩ := List.exists_mem_of_length_pos h3
        simp only [List.mem_filter, decide_eq_true_eq] at he
        refine ⟨e.t, ?_⟩
        rw [← he.2]; exact (mem_bdryL.mp he.1).2
      · unfold inDeg at h3
        obtain ⟨e, he⟩ := List.exists_mem_of_length_pos h3
        simp only [List.mem_filter, decide_eq_true_eq] at he
        refine ⟨e.s, ?_⟩
        rw [← he.2, ← (mem_bdryL.mp he.1).2]
        exact incid_undir (Or.inr rfl)
    · rintro ⟨w, hw⟩
      obtain ⟨x, hx, hu⟩ := (incid_pos_iff F ⟨v, w⟩).mp (by omega)
      have hb : x ∈ bdryL F := mem_bdryL.mpr ⟨hx, by rw [incid_undir hu]; exact hw⟩
      have h3 : 0 < outDeg (bdryL F) v ∨ 0 < inDeg (bdryL F) v := by
        rcases hu with rfl | rfl
        · exact Or.inl (List.length_pos_of_mem (List.mem_filter.mpr ⟨hb, by simp⟩))
        · exact Or.inr (List.length_pos_of_mem (List.mem_filter.mpr ⟨hb, by simp⟩))
      have := hcount v
      omega

/-- C14, success.  On an edge-manifold mesh whose boundary vertices are all on exactly two boundary edges (resp., without
`allow_wrong_orientations`, are the start of one boundary edge and the end of one), `boundary_loops` returns. -/
theorem C14_returns (F : List Tri) (hF : F ≠ []) (allow : Bool) (hm : ∀ e, incid F e ≤ 2) (bE : List Edge) (hb : boundaryEdges F = some bE)
    (hdeg : if allow then ∀ v, outDeg bE v + inDeg bE v = 0 ∨ outDeg bE v + inDeg bE v = 2 else ∀ v, outDeg bE v = inDeg bE v ∧ outDeg bE v ≤ 1) :
    ∃ loops, boundaryLoops F allow = some loops := by
  rw [boundaryEdges_eq hF] at hb
  obtain rfl := Option.some.inj hb
  have hlen : (bdryL F).length ≤ 3 * F.length := by
    have h1 : ((bdryL F).map Edge.sort).length ≤ (npUnique (sortedL F)).length := by
      have := length_split F
      rw [List.length_append] at this
      simp; omega
    have h2 := npUnique_length_le (sortedL F)
    have h3 : (sortedL F).length = 3 * F.length := by rw [sortedL, List.length_map, length_flatL]
    simp at h1; omega
  have hI : InvB allow (rem (bdryL F) (List.replicate (bdryL F).length true)) 0 0 := by
    rw [rem_replicate]
    cases allow
    · intro v
      obtain ⟨a, b⟩ := hdeg v
      exact ⟨b, by omega, by omega⟩
    · intro v
      rcases hdeg v with h | h
      · exact ⟨by omega, ⟨if 0 = v then 1 else 0, by omega⟩⟩
      · exact ⟨by omega, ⟨1 + (if 0 = v then 1 else 0), by omega⟩⟩
  obtain ⟨out, ho⟩ := blLoops_ok (inner := 3 * F.length + 1) (3 * F.length + 1) (List.replicate (bdryL F).length true) []
    (by simp) (by rw [rem_replicate]; omega) (by rw [rem_replicate]; omega) hI
  refine ⟨out, ?_⟩
  unfold boundaryLoops boundaryLoopsFuel
  obtain ⟨new, es, n1, n2, n3, n4⟩ := blLoops_spec _ _ _ _ ho
  rw [List.nil_append] at n1
  subst n1
  rw [if_neg (by simpa using hF), nonManifoldEdges_eq hF, Option.bind_eq_bind, Option.bind_some, if_neg, boundaryEdges_eq hF,
    Option.bind_eq_bind, Option.bind_some, ho, Option.bind_some, if_neg]
  · push Not
    rw [rem_replicate] at n3
    rw [n3.length_eq, n4.length_eq, List.length_flatMap]
    congr 1
    apply List.map_congr_left
    intro l _
    have := congrArg List.length (cyclic_map l).1
    simpa using this.symm
  · push Not
    rw [List.length_eq_zero_iff, List.filter_eq_nil_iff]
    intro e he
    have := hm e
    rw [incid_eq_count] at this
    have he' : e.sort = e := by
      have := mem_npUnique.mp he
      rw [sortedL, List.mem_map] at this
      obtain ⟨x, -, rfl⟩ := this
      exact Edge.sort_sort x
    rw [he'] at this
    simp; omega

/-- C14, termination: the bound on the number of rounds in the model is never the reason for a result. -/
theorem C14_fuel (F : List Tri) (allow : Bool) (fuel : ℕ) (h : 3 * F.length + 1 ≤ fuel) :
    boundaryLoopsFuel fuel F allow = boundaryLoops F allow := by
  unfold boundaryLoops boundaryLoopsFuel
  by_cases hF : F = []
  · subst hF; rfl
  · have hlen : (bdryL F).length ≤ 3 * F.length := by
      have := length_split F
      rw [List.length_append] at this
      have h2 := npUnique_length_le (sortedL F)
      have h3 : (sortedL F).length = 3 * F.length := by rw [sortedL, List.length_map, length_flatL]
      omega
    rw [boundaryEdges_eq hF, Option.bind_eq_bind, Option.bind_some, Option.bind_eq_bind, Option.bind_some,
      blLoops_fuel (3 * F.length + 1) fuel (3 * F.length + 1) fuel _ _ (by rw [rem_replicate]; omega) h (by rw [rem_replicate]; omega) h]

/-- a strip of two triangles has one loop of four vertices -/
example : boundaryLoops [⟨0, 1, 2⟩, ⟨2, 1, 3⟩] true = some [[0, 1, 3, 2]] := by decide +kernel

/-- two triangles that touch in vertex 0: the loops are returned, with vertex 0 in both (so the degree condition is needed) -/
example : boundaryLoops [⟨0, 1, 2⟩, ⟨0, 3, 4⟩] true = some [[0, 1, 2], [0, 3, 4]] := by decide +kernel

end Gpy
