import Verif.Proofs.Faces
import Mathlib.Algebra.BigOperators.Group.Finset.Basic
import Mathlib.Algebra.BigOperators.Group.List.Basic
import Mathlib.Tactic.Ring
import Mathlib.Tactic.LinearCombination
import Mathlib.Tactic.FieldSimp
import Mathlib.Algebra.Order.Field.Rat

/-! C62 – C64: `faces`, `boundary_faces`, `halffaces`, `volume`. -/

set_option autoImplicit false
namespace Gpy
open Np

/-! ## C62 -/

/-- C62: for a nonempty list of tetrahedra `faces` succeeds; its result is the list of boundary faces (faces of exactly one tetrahedron), oriented as
in their tetrahedron, followed by the faces with two or more tetrahedra as increasing triples in lexicographic order; no face is listed twice, and
every face of a tetrahedron is listed.  `boundary_faces` returns the first part. -/
theorem C62_faces_lists_each_face_once (T : List Tet) (hT : T ≠ []) :
    ∃ out B I, faces T = some out ∧ boundaryFaces T = some B ∧ out.F = B ++ I ∧ out.boundaryIndices = List.range B.length ∧
      (∀ f, f ∈ B ↔ f ∈ tetFaces T ∧ faceIncid T f = 1) ∧
      (∀ f, f ∈ I ↔ (f.a ≤ f.b ∧ f.b ≤ f.c) ∧ 2 ≤ faceIncid T f) ∧
      I.Pairwise (fun f g => f.a < g.a ∨ (f.a = g.a ∧ (f.b < g.b ∨ (f.b = g.b ∧ f.c < g.c)))) ∧
      out.F.Pairwise (fun f g => ¬ SameTri f g) ∧
      (∀ f, (∃ g ∈ out.F, SameTri f g) ↔ ∃ g ∈ tetFaces T, SameTri f g) := by
  have hB : ∀ f, f ∈ gBdry (flatT T) Tri.sort ↔ f ∈ tetFaces T ∧ faceIncid T f = 1 := by
    intro f; rw [mem_gBdry, mem_flatT, faceIncid_eq]
  have hI : ∀ f, f ∈ gInt (flatT T) Tri.sort ↔ (f.a ≤ f.b ∧ f.b ≤ f.c) ∧ 2 ≤ faceIncid T f := by
    intro f; rw [mem_gInt tri_sort_sort, tri_sort_self_iff, faceIncid_eq]
  refine ⟨_, _, gInt (flatT T) Tri.sort, faces_eq hT, boundaryFaces_eq hT, rfl, rfl, hB, hI, gInt_sorted, ?_, ?_⟩
  · refine (gE_pairwise tri_sort_sort).imp ?_
    intro f g h h'
    exact h (tri_sort_eq_iff.mpr h').symm
  · intro f
    have hpos : (∃ g ∈ tetFaces T, SameTri f g) ↔ 0 < faceIncid T f := by
      unfold faceIncid
      rw [List.length_pos_iff_exists_mem]
      constructor
      · rintro ⟨g, hg, h⟩; exact ⟨g, List.mem_filter.mpr ⟨hg, by simpa using h⟩⟩
      · rintro ⟨g, hg⟩; rw [List.mem_filter] at hg; exact ⟨g, hg.1, by simpa using hg.2⟩
    have hinc : ∀ g, SameTri f g → faceIncid T g = faceIncid T f := by
      intro g h
      rw [faceIncid_eq, faceIncid_eq, tri_sort_eq_iff.mpr h]
    rw [hpos]
    constructor
    · rintro ⟨g, hg, h⟩
      have := hinc g h
      rcases List.mem_append.mp hg with h1 | h1
      · have := ((hB g).mp h1).2; omega
      · have := ((hI g).mp h1).2; omega
    · intro h0
      by_cases h1 : faceIncid T f = 1
      · obtain ⟨g, hg, h⟩ := hpos.mpr h0
        exact ⟨g, List.mem_append.mpr (Or.inl ((hB g).mpr ⟨hg, by rw [hinc g h, h1]⟩)), h⟩
      · have hs : SameTri f f.sort := tri_sort_eq_iff.mp (tri_sort_sort f)
        refine ⟨f.sort, List.mem_append.mpr (Or.inr ((hI _).mpr ⟨tri_sort_self_iff.mp (tri_sort_sort f), ?_⟩)), hs⟩
        rw [hinc _ hs]; omega

/-- the empty list is rejected (assert) -/
theorem C62_faces_empty_rejected : faces [] = none := rfl

/-- two tetrahedra sharing the face `1 2 3` -/
example : faces [⟨0, 1, 2, 3⟩, ⟨1, 2, 3, 4⟩] =
    some ⟨[⟨1, 0, 2⟩, ⟨3, 0, 1⟩, ⟨3, 2, 0⟩, ⟨4, 1, 2⟩, ⟨4, 3, 1⟩, ⟨2, 3, 4⟩, ⟨1, 2, 3⟩], [0, 1, 2, 3, 4, 5], [3], []⟩ := by decide +kernel

/-! ## C63 -/

/-- The returned index arrays address exactly the boundary / interior / non-manifold rows of the returned `F`. -/
def FaceIndicesAddressRows (T : List Tet) (out : FacesOut) : Prop :=
  ∀ (i : ℕ),
    (i ∈ out.boundaryIndices ↔ ∃ f, out.F[i]? = some f ∧ faceIncid T f = 1) ∧
    (i ∈ out.interiorIndices ↔ ∃ f, out.F[i]? = some f ∧ 2 ≤ faceIncid T f) ∧
    (i ∈ out.nonmanifoldIndices ↔ ∃ f, out.F[i]? = some f ∧ 3 ≤ faceIncid T f)

/-- C63 is FALSE of the code: for the two tetrahedra `[0,1,2,3],[1,2,3,4]` the only interior face is row 6 of `F`, but
`faces(T, return_interior_indices=True)` returns `[3]`, the index of a boundary face. -/
theorem C63_violated : ∃ T out, faces T = some out ∧ OrientedTets T ∧ ¬ FaceIndicesAddressRows T out := by
  refine ⟨[⟨0, 1, 2, 3⟩, ⟨1, 2, 3, 4⟩], _, rfl, by decide +kernel, ?_⟩
  intro h
  obtain ⟨f, hf, h2⟩ := (h 3).2.1.mp (by decide +kernel)
  have h4 : (some f : Option Tri) = some ⟨4, 1, 2⟩ := by rw [← hf]; decide +kernel
  rw [Option.some.injEq] at h4
  subst h4
  exact absurd h2 (by decide +kernel)

/-- C63, what is true of every mesh: the boundary indices are right; the other two index arrays address the rows of the strictly increasing list of all
faces as sorted triples, a list that `faces` does not return.  In particular their lengths are the numbers of interior and non-manifold faces. -/
theorem C63_indices_partial (T : List Tet) (hT : T ≠ []) : ∃ (out : FacesOut) (U : List Tri), faces T = some out ∧
    (∀ (i : ℕ), i ∈ out.boundaryIndices ↔ ∃ f, out.F[i]? = some f ∧ faceIncid T f = 1) ∧
    U.Pairwise (fun f g => f.a < g.a ∨ (f.a = g.a ∧ (f.b < g.b ∨ (f.b = g.b ∧ f.c < g.c)))) ∧
    (∀ f, f ∈ U ↔ (f.a ≤ f.b ∧ f.b ≤ f.c) ∧ 1 ≤ faceIncid T f) ∧
    (∀ (i : ℕ), i ∈ out.interiorIndices ↔ ∃ f, U[i]? = some f ∧ 2 ≤ faceIncid T f) ∧
    (∀ (i : ℕ), i ∈ out.nonmanifoldIndices ↔ ∃ f, U[i]? = some f ∧ 3 ≤ faceIncid T f) := by
  have hsort : ∀ f, f ∈ npUnique ((flatT T).map Tri.sort) → f.sort = f := by
    intro f hf
    rw [mem_npUnique, List.mem_map] at hf
    obtain ⟨g, _, rfl⟩ := hf
    exact tri_sort_sort g
  have key : ∀ (k i : ℕ), i ∈ npWhere ((npUnique ((flatT T).map Tri.sort)).map (fun x => decide (((flatT T).map Tri.sort).count x > k))) ↔
      ∃ f, (npUnique ((flatT T).map Tri.sort))[i]? = some f ∧ k + 1 ≤ faceIncid T f := by
    intro k i
    rw [mem_npWhere_map]
    constructor
    · rintro ⟨x, hx, hk⟩
      refine ⟨x, hx, ?_⟩
      rw [faceIncid_eq, hsort x (List.mem_of_getElem? hx)]
      simp at hk; omega
    · rintro ⟨x, hx, hk⟩
      refine ⟨x, hx, ?_⟩
      rw [faceIncid_eq, hsort x (List.mem_of_getElem? hx)] at hk
      simp; omega
  refine ⟨_, npUnique ((flatT T).map Tri.sort), faces_eq hT, ?_, npUnique_pairwise_lt _, ?_, key 1, key 2⟩
  · intro i
    simp only [List.mem_range]
    constructor
    · intro hi
      refine ⟨(gBdry (flatT T) Tri.sort)[i], ?_, ?_⟩
      · rw [List.getElem?_append_left hi, List.getElem?_eq_getElem hi]
      · rw [faceIncid_eq]; exact (mem_gBdry.mp (List.getElem_mem hi)).2
    · rintro ⟨e, he, h1⟩
      by_contra hi
      rw [List.getElem?_append_right (by omega)] at he
      have := ((mem_gInt tri_sort_sort).mp (List.mem_of_getElem? he)).2
      rw [faceIncid_eq] at h1
      omega
  · intro f
    rw [mem_npUnique, ← tri_sort_self_iff, faceIncid_eq, Nat.one_le_iff_ne_zero, ← Nat.pos_iff_ne_zero, List.count_pos_iff]
    constructor
    · intro h
      have hs := hsort f (mem_npUnique.mpr h)
      exact ⟨hs, by rw [hs]; exact h⟩
    · rintro ⟨hs, h⟩
      rw [hs] at h; exact h

/-! ## C64 -/

theorem sameOr_refl (f : Tri) : SameOr f f := Or.inl rfl

theorem sameOr_symm {f g : Tri} (h : SameOr f g) : SameOr g f := by
  rcases h with rfl | rfl | rfl
  · exact Or.inl rfl
  · exact Or.inr (Or.inr rfl)
  · exact Or.inr (Or.inl rfl)

theorem sameOr_trans {f g h : Tri} (h1 : SameOr f g) (h2 : SameOr g h) : SameOr f h := by
  rcases h1 with rfl | rfl | rfl <;> rcases h2 with rfl | rfl | rfl <;> simp [SameOr]

/-- same corners, distinct: same or opposite orientation -/
theorem sameTri_cases {f g : Tri} (hd : f.a ≠ f.b ∧ f.b ≠ f.c ∧ f.c ≠ f.a) (h : SameTri f g) : SameOr f g ∨ SameOr f.rev g := by
  unfold SameTri at h
  have hn : [g.a, g.b, g.c].Nodup := h.nodup_iff.mpr (by simp; exact ⟨⟨hd.1, hd.2.2.symm⟩, hd.2.1⟩)
  have ma : g.a ∈ [f.a, f.b, f.c] := h.mem_iff.mp (by simp)
  have mb : g.b ∈ [f.a, f.b, f.c] := h.mem_iff.mp (by simp)
  have mc : g.c ∈ [f.a, f.b, f.c] := h.mem_iff.mp (by simp)
  obtain ⟨g0, g1, g2⟩ := g
  obtain ⟨f0, f1, f2⟩ := f
  simp only [List.mem_cons, List.not_mem_nil, or_false, List.nodup_cons, not_or] at ma mb mc hn
  obtain ⟨⟨n1, n2⟩, n3, -⟩ := hn
  unfold SameOr Tri.rev
  rcases ma with rfl | rfl | rfl <;> rcases mb with rfl | rfl | rfl <;> rcases mc with rfl | rfl | rfl <;> first | exact absurd rfl n1 | exact absurd rfl n2 | exact absurd rfl n3 | simp

/-- A quantity attached to oriented faces: the same for rotations, opposite for the other orientation. -/
def Alternating {M : Type} [AddCommGroup M] (w : Tri → M) : Prop := (∀ f, w ⟨f.b, f.c, f.a⟩ = w f) ∧ ∀ f, w f.rev = -w f

theorem tetFaces_distinct {T : List Tet} (hT : OrientedTets T) {f : Tri} (hf : f ∈ tetFaces T) : f.a ≠ f.b ∧ f.b ≠ f.c ∧ f.c ≠ f.a := by
  obtain ⟨t, ht, hf⟩ := List.mem_flatMap.mp hf
  have := hT.1 t ht
  simp only [Tet.tris, List.mem_cons, List.not_mem_nil, or_false] at hf
  rcases hf with rfl | rfl | rfl | rfl <;> simp <;> omega

/-- The sum over all faces of tetrahedra reduces to the boundary faces. -/
theorem sum_boundary {M : Type} [AddCommGroup M] {w : Tri → M} (hw : Alternating w) {T : List Tet} (hT : OrientedTets T) :
    ((tetFaces T).map w).sum = ((gBdry (flatT T) Tri.sort).map w).sum := by
  classical
  have wrot : ∀ f g, SameOr f g → w g = w f := by
    rintro f g (rfl | rfl | rfl)
    · rfl
    · exact hw.1 f
    · rw [← hw.1 ⟨f.c, f.a, f.b⟩]
  have hnd : (tetFaces T).Nodup := hT.2.imp (fun h h' => h (by rw [h']; exact sameOr_refl _))
  have hpw : ∀ f ∈ tetFaces T, ∀ g ∈ tetFaces T, SameOr f g → f = g := by
    intro f hf g hg h
    by_contra hne
    obtain ⟨i, hi, rfl⟩ := List.getElem_of_mem hf
    obtain ⟨j, hj, rfl⟩ := List.getElem_of_mem hg
    have hij : i ≠ j := fun h => hne (by subst h; rfl)
    have hp := List.pairwise_iff_getElem.mp hT.2
    rcases lt_or_gt_of_ne hij with h' | h'
    · exact hp i j hi hj h' h
    · exact hp j i hj hi h' (sameOr_symm h)
  have e1 : ((tetFaces T).map w).sum = ∑ f ∈ (tetFaces T).toFinset, w f := (List.sum_toFinset w hnd).symm
  have e2 : ((gBdry (flatT T) Tri.sort).map w).sum = ∑ f ∈ (gBdry (flatT T) Tri.sort).toFinset, w f := (List.sum_toFinset w gBdry_nodup).symm
  rw [e1, e2]
  have hsub : (gBdry (flatT T) Tri.sort).toFinset ⊆ (tetFaces T).toFinset := by
    intro f hf
    rw [List.mem_toFinset] at hf ⊢
    exact mem_flatT.mp (mem_gBdry.mp hf).1
  rw [← Finset.sum_sdiff hsub]
  suffices h : ∑ f ∈ (tetFaces T).toFinset \ (gBdry (flatT T) Tri.sort).toFinset, w f = 0 by rw [h, zero_add]
  -- the partner of an interior face
  have hpart : ∀ f ∈ (tetFaces T).toFinset \ (gBdry (flatT T) Tri.sort).toFinset, ∃ g ∈ tetFaces T, SameTri f g ∧ g ≠ f := by
    intro f hf
    rw [Finset.mem_sdiff, List.mem_toFinset, List.mem_toFinset, mem_gBdry, mem_flatT, not_and, ← faceIncid_eq] at hf
    by_contra hno
    push Not at hno
    apply hf.2 hf.1
    unfold faceIncid
    have : (tetFaces T).filter (fun g => SameTri f g) = (tetFaces T).filter (fun g => g == f) := by
      apply List.filter_congr
      intro g hg
      rw [Bool.eq_iff_iff]
      simp only [decide_eq_true_eq, beq_iff_eq]
      exact ⟨fun h => hno g hg h, fun h => by rw [h]; exact List.Perm.refl _⟩
    rw [this, ← List.countP_eq_length_filter]
    exact List.count_eq_one_of_mem hnd hf.1
  have hrev : ∀ f ∈ tetFaces T, ∀ g ∈ tetFaces T, SameTri f g → g ≠ f → SameOr f.rev g := by
    intro f hf g hg hs hne
    rcases sameTri_cases (tetFaces_distinct hT hf) hs with h | h
    · exact absurd (hpw f hf g hg h).symm hne
    · exact h
  have huniq : ∀ f ∈ tetFaces T, ∀ g ∈ tetFaces T, ∀ g' ∈ tetFaces T, SameTri f g → g ≠ f → SameTri f g' → g' ≠ f → g = g' := by
    intro f hf g hg g' hg' h1 h2 h3 h4
    exact hpw g hg g' hg' (sameOr_trans (sameOr_symm (hrev f hf g hg h1 h2)) (hrev f hf g' hg' h3 h4))
  have hin : ∀ f ∈ (tetFaces T).toFinset \ (gBdry (flatT T) Tri.sort).toFinset, f ∈ tetFaces T := by
    intro f hf
    rw [Finset.mem_sdiff, List.mem_toFinset] at hf; exact hf.1
  have hsymm : ∀ f g, SameTri f g → SameTri g f := fun f g h => List.Perm.symm h
  have hstay : ∀ f, f ∈ tetFaces T → ∀ g ∈ tetFaces T, SameTri f g → g ≠ f → g ∈ (tetFaces T).toFinset \ (gBdry (flatT T) Tri.sort).toFinset := by
    intro f hf g hg h hne
    rw [Finset.mem_sdiff, List.mem_toFinset, List.mem_toFinset]
    refine ⟨hg, fun hb => ?_⟩
    exact hne (gCount_one (mem_flatT.mpr hg) (mem_flatT.mpr hf) (tri_sort_eq_iff.mpr h) (mem_gBdry.mp hb).2)
  refine Finset.sum_involution (fun f hf => Classical.choose (hpart f hf)) ?_ ?_ ?_ ?_
  · intro f hf
    obtain ⟨h1, h2, h3⟩ := Classical.choose_spec (hpart f hf)
    rw [wrot _ _ (hrev f (hin f hf) _ h1 h2 h3), hw.2, add_neg_cancel]
  · intro f hf _
    exact (Classical.choose_spec (hpart f hf)).2.2
  · intro f hf
    obtain ⟨h1, h2, h3⟩ := Classical.choose_spec (hpart f hf)
    exact hstay f (hin f hf) _ h1 h2 h3
  · intro f hf
    obtain ⟨h1, h2, h3⟩ := Classical.choose_spec (hpart f hf)
    have hm := hstay f (hin f hf) _ h1 h2 h3
    obtain ⟨k1, k2, k3⟩ := Classical.choose_spec (hpart _ hm)
    exact huniq _ h1 _ k1 _ (hin f hf) k2 k3 (hsymm _ _ h2) h3.symm

theorem sum_tetFaces {M : Type} [AddCommMonoid M] (w : Tri → M) (T : List Tet) :
    ((tetFaces T).map w).sum = (T.map (fun t => w ⟨t.b, t.c, t.d⟩ + w ⟨t.d, t.c, t.a⟩ + w ⟨t.d, t.a, t.b⟩ + w ⟨t.b, t.a, t.c⟩)).sum := by
  unfold tetFaces
  induction T with
  | nil => rfl
  | cons t T ih =>
    rw [List.flatMap_cons, List.map_append, List.sum_append, ih, List.map_cons, List.sum_cons]
    simp only [Tet.tris, List.map_cons, List.map_nil, List.sum_cons, List.sum_nil, add_zero, add_assoc]

/-- number of times the directed edge is a side of the triangle -/
def sideCount (e : Edge) (f : Tri) : ℤ := (if e = f.side 0 then 1 else 0) + (if e = f.side 1 then 1 else 0) + (if e = f.side 2 then 1 else 0)

theorem dirIncid_eq (F : List Tri) (e : Edge) : (dirIncid F e : ℤ) = (F.map (sideCount e)).sum := by
  unfold dirIncid sides
  induction F with
  | nil => rfl
  | cons f F ih =>
    rw [List.flatMap_cons, List.filter_append, List.length_append, Nat.cast_add, ih, List.map_cons, List.sum_cons]
    congr 1
    unfold sideCount
    simp only [List.filter_cons, List.filter_nil]
    by_cases h0 : e = f.side 0 <;> by_cases h1 : e = f.side 1 <;> by_cases h2 : e = f.side 2 <;>
      simp [h0, h1, h2, eq_comm] <;> simp_all [eq_comm]

/-- C64a: the boundary of a consistently oriented tetrahedral mesh is a closed surface: every directed edge is traversed by the faces that
`boundary_faces` returns exactly as often as its reverse. -/
theorem C64_boundary_is_closed (T : List Tet) (hT : T ≠ []) (ho : OrientedTets T) :
    ∃ B, boundaryFaces T = some B ∧ ∀ e, dirIncid B e = dirIncid B e.flip := by
  refine ⟨_, boundaryFaces_eq hT, fun e => ?_⟩
  have hw : Alternating (fun f => sideCount e f - sideCount e.flip f) := by
    constructor
    · intro f
      show sideCount e ⟨f.b, f.c, f.a⟩ - sideCount e.flip ⟨f.b, f.c, f.a⟩ = _
      unfold sideCount Tri.side
      simp only
      ring
    · intro f
      show sideCount e f.rev - sideCount e.flip f.rev = -(sideCount e f - sideCount e.flip f)
      have hf : ∀ x y : ℕ, (e.flip = ⟨x, y⟩) ↔ e = ⟨y, x⟩ := by
        intro x y
        cases e
        simp [Edge.flip, and_comm]
      unfold sideCount Tri.side Tri.rev
      simp only [hf]
      ring
  have h := sum_boundary hw ho
  rw [sum_tetFaces] at h
  have hz : ∀ t : Tet, (sideCount e ⟨t.b, t.c, t.d⟩ - sideCount e.flip ⟨t.b, t.c, t.d⟩) + (sideCount e ⟨t.d, t.c, t.a⟩ - sideCount e.flip ⟨t.d, t.c, t.a⟩) +
      (sideCount e ⟨t.d, t.a, t.b⟩ - sideCount e.flip ⟨t.d, t.a, t.b⟩) + (sideCount e ⟨t.b, t.a, t.c⟩ - sideCount e.flip ⟨t.b, t.a, t.c⟩) = 0 := by
    intro t
    have hf : ∀ x y : ℕ, (e.flip = ⟨x, y⟩) ↔ e = ⟨y, x⟩ := by
      intro x y
      cases e
      simp [Edge.flip, and_comm]
    unfold sideCount Tri.side
    simp only [hf]
    ring
  simp only [hz] at h
  have hsub : ∀ L : List Tri, (L.map (fun f => sideCount e f - sideCount e.flip f)).sum = (L.map (sideCount e)).sum - (L.map (sideCount e.flip)).sum := by
    intro L
    induction L with
    | nil => rfl
    | cons f L ih => simp only [List.map_cons, List.sum_cons, ih]; ring
  rw [hsub] at h
  rw [← dirIncid_eq, ← dirIncid_eq] at h
  simp at h
  omega

/-- `x · (y × z)` of three rows -/
def det3 {K : Type} [Field K] (x y z : V3 K) : K := V3.dot x (V3.cross y z)

/-- C64b: `volume(V,T)` is the signed volume of each tetrahedron, and (discrete divergence theorem) for a consistently oriented mesh the total volume is
the volume enclosed by the surface returned by `boundary_faces`, i.e. the sum of the signed volumes of the cones from the origin over its faces. -/
theorem C64_volume {K : Type} [Field K] [CharZero K] (V : List (V3 K)) (T : List Tet) (hr : TetInRange V.length T) :
    ∃ vols, volume V T = some vols ∧ vols.length = T.length ∧
      (∀ (i : ℕ) (t : Tet) (a b c d : V3 K), T[i]? = some t → V[t.a]? = some a → V[t.b]? = some b → V[t.c]? = some c → V[t.d]? = some d →
        vols[i]? = some (sixVol a b c d / 6)) ∧
      ∀ B, boundaryFaces T = some B → OrientedTets T →
        vols.sum = (B.map (fun f => det3 (V.getD f.a 0) (V.getD f.b 0) (V.getD f.c 0) / 6)).sum := by
  let g := fun t : Tet => tetVolume (V.getD t.a 0) (V.getD t.b 0) (V.getD t.c 0) (V.getD t.d 0)
  have hv : volume V T = some (T.map g) := by
    unfold volume
    apply mapM_eq_some_map
    intro t ht
    obtain ⟨ha, hb, hc, hd⟩ := hr t ht
    simp only [List.getElem?_eq_getElem ha, List.getElem?_eq_getElem hb, List.getElem?_eq_getElem hc, List.getElem?_eq_getElem hd, Option.bind_eq_bind,
      Option.bind_some]
    simp only [g, List.getD_eq_getElem?_getD, List.getElem?_eq_getElem ha, List.getElem?_eq_getElem hb, List.getElem?_eq_getElem hc,
      List.getElem?_eq_getElem hd, Option.getD_some]
  refine ⟨_, hv, List.length_map _, ?_, ?_⟩
  · intro i t a b c d ht ha hb hc hd
    rw [List.getElem?_map, ht, Option.map_some, Option.some.injEq]
    simp only [g, List.getD_eq_getElem?_getD, ha, hb, hc, hd, Option.getD_some]
    unfold tetVolume sixVol V3.dot V3.cross
    simp only [V3.sub_x, V3.sub_y, V3.sub_z]
    ring
  · intro B hB ho
    by_cases hT : T = []
    · subst hT; simp [boundaryFaces, faces, halffaces] at hB
    rw [boundaryFaces_eq hT, Option.some.injEq] at hB
    subst hB
    have hw : Alternating (fun f : Tri => det3 (V.getD f.a 0) (V.getD f.b 0) (V.getD f.c 0) / 6) := by
      constructor
      · intro f
        simp only [det3, V3.dot, V3.cross]
        ring
      · intro f
        simp only [det3, V3.dot, V3.cross, Tri.rev]
        ring
    rw [← sum_boundary hw ho, sum_tetFaces]
    congr 1
    apply List.map_congr_left
    intro t _
    simp only [g, tetVolume, det3, V3.dot, V3.cross, V3.sub_x, V3.sub_y, V3.sub_z]
    ring

/-- the hypotheses of C64 on a cube cut into five tetrahedra -/
example : OrientedTets [⟨4, 2, 1, 0⟩, ⟨2, 1, 7, 4⟩, ⟨2, 3, 7, 1⟩, ⟨2, 7, 6, 4⟩, ⟨1, 5, 7, 4⟩] ∧
    TetInRange 8 [⟨4, 2, 1, 0⟩, ⟨2, 1, 7, 4⟩, ⟨2, 3, 7, 1⟩, ⟨2, 7, 6, 4⟩, ⟨1, 5, 7, 4⟩] ∧
    (boundaryFaces [⟨4, 2, 1, 0⟩, ⟨2, 1, 7, 4⟩, ⟨2, 3, 7, 1⟩, ⟨2, 7, 6, 4⟩, ⟨1, 5, 7, 4⟩]).map List.length = some 12 := by
  refine ⟨by decide +kernel, ?_, by decide +kernel⟩
  unfold TetInRange
  decide +kernel

end Gpy
