import Verif.Proofs.Adjacency
import Verif.Props.Edges
import Mathlib.Tactic.FinCases

/-! C65, C66: `adjacency_matrix`, `connected_components`. -/

set_option autoImplicit false
namespace Gpy
open Np

theorem foldl_max_ge (l : List ℕ) (a : ℕ) : a ≤ l.foldl max a ∧ (∀ x ∈ l, x ≤ l.foldl max a) ∧
    (l.foldl max a = a ∨ l.foldl max a ∈ l) := by
  induction l generalizing a with
  | nil => simp
  | cons b t ih =>
    obtain ⟨h1, h2, h3⟩ := ih (max a b)
    rw [List.foldl_cons]
    refine ⟨le_trans (le_max_left _ _) h1, ?_, ?_⟩
    · intro x hx
      rcases List.mem_cons.mp hx with rfl | hx
      · exact le_trans (le_max_right _ _) h1
      · exact h2 x hx
    · rcases h3 with h | h
      · rcases max_choice a b with h' | h'
        · left; rw [h, h']
        · right; rw [h, h']; simp
      · right; exact List.mem_cons_of_mem _ h

theorem lt_vertexCount {E : List Edge} {e : Edge} (h : e ∈ E) : e.s < vertexCount E ∧ e.t < vertexCount E := by
  have := (foldl_max_ge (E.map (fun e => max e.s e.t)) 0).2.1 _ (List.mem_map_of_mem h)
  unfold vertexCount
  constructor
  · exact Nat.lt_succ_of_le (le_trans (le_max_left _ _) this)
  · exact Nat.lt_succ_of_le (le_trans (le_max_right _ _) this)

theorem vertexCount_tight {E : List Edge} (h : E ≠ []) : ∃ e ∈ E, max e.s e.t + 1 = vertexCount E := by
  rcases (foldl_max_ge (E.map (fun e => max e.s e.t)) 0).2.2 with h1 | h1
  · cases E with
    | nil => exact absurd rfl h
    | cons a t =>
      refine ⟨a, by simp, ?_⟩
      have := (foldl_max_ge (List.map (fun e => max e.s e.t) (a :: t)) 0).2.1 (max a.s a.t) (by simp)
      unfold vertexCount
      omega
  · rw [List.mem_map] at h1
    obtain ⟨e, he, h2⟩ := h1
    exact ⟨e, he, by unfold vertexCount; omega⟩

theorem adjacencyOfEdges_eq (E : List Edge) : adjacencyOfEdges E = some ⟨vertexCount E, vertexCount E,
    E.map (fun e => (e.s, e.t, (1 : ℤ))) ++ E.map (fun e => (e.t, e.s, (1 : ℤ)))⟩ := by
  unfold adjacencyOfEdges csrMatrix
  have hrep : List.replicate (2 * E.length) (1 : ℤ) = E.map (fun _ => (1 : ℤ)) ++ E.map (fun _ => (1 : ℤ)) := by
    rw [List.map_const', ← List.replicate_add]; congr 1; omega
  rw [if_pos]
  · rw [hrep, zip3_append (by simp) (by simp), zip3_map, zip3_map]
  · refine ⟨by simp; omega, by simp; omega, ?_, ?_⟩
    · intro i hi
      rw [List.mem_append, List.mem_map, List.mem_map] at hi
      rcases hi with ⟨e, he, rfl⟩ | ⟨e, he, rfl⟩
      · exact (lt_vertexCount he).1
      · exact (lt_vertexCount he).2
    · intro i hi
      rw [List.mem_append, List.mem_map, List.mem_map] at hi
      rcases hi with ⟨e, he, rfl⟩ | ⟨e, he, rfl⟩
      · exact (lt_vertexCount he).2
      · exact (lt_vertexCount he).1

theorem sum_ite_count (E : List Edge) (i j : ℕ) :
    (E.map (fun e => if e.s = i ∧ e.t = j then (1 : ℤ) else 0)).sum = (E.count ⟨i, j⟩ : ℤ) := by
  induction E with
  | nil => rfl
  | cons e t ih =>
    rw [List.map_cons, List.sum_cons, ih, List.count_cons]
    by_cases h : e.s = i ∧ e.t = j
    · have : e = ⟨i, j⟩ := Edge.ext' h.1 h.2
      rw [if_pos h, this]; simp; ring
    · have : ¬ e = ⟨i, j⟩ := fun hc => h (by rw [hc]; exact ⟨rfl, rfl⟩)
      rw [if_neg h]
      simp [this]

theorem adjacency_get (E : List Edge) (n : ℕ) (i j : ℕ) :
    (⟨n, n, E.map (fun e => (e.s, e.t, (1 : ℤ))) ++ E.map (fun e => (e.t, e.s, (1 : ℤ)))⟩ : Csr ℤ).get i j
      = (E.count ⟨i, j⟩ : ℤ) + (E.count ⟨j, i⟩ : ℤ) := by
  unfold Csr.get
  rw [List.map_append, List.sum_append, List.map_map, List.map_map, ← sum_ite_count, ← sum_ite_count]
  congr 2
  apply List.map_congr_left
  intro e _
  simp only [Function.comp]
  by_cases h1 : e.t = i <;> by_cases h2 : e.s = j <;> simp [h1, h2]

/-- C65, polylines: for a nonempty edge list the adjacency matrix is square with as many rows as the largest vertex index
requires, and its entry `(i,j)` counts the rows of the edge list that join `i` and `j` (a repeated edge is counted as often as
it is listed, a self-loop twice). -/
theorem C65_polyline (E : List Edge) (hE : E ≠ []) :
    ∃ A, adjacencyMatrixPoly E = some A ∧ A.nrows = A.ncols ∧
      (∀ e ∈ E, e.s < A.nrows ∧ e.t < A.nrows) ∧ (∃ e ∈ E, max e.s e.t + 1 = A.nrows) ∧
      ∀ i j, A.get i j = (E.count ⟨i, j⟩ : ℤ) + (E.count ⟨j, i⟩ : ℤ) := by
  refine ⟨⟨vertexCount E, vertexCount E, E.map (fun e => (e.s, e.t, (1 : ℤ))) ++ E.map (fun e => (e.t, e.s, (1 : ℤ)))⟩,
    ?_, rfl, fun e he => lt_vertexCount he, vertexCount_tight hE, adjacency_get E _⟩
  unfold adjacencyMatrixPoly
  rw [if_neg (by simpa using hE), adjacencyOfEdges_eq]

/-- C65, error branch: an empty array raises. -/
theorem C65_empty_rejected : adjacencyMatrixPoly [] = none ∧ adjacencyMatrixTri [] = none := ⟨rfl, rfl⟩

/-- `i` and `j` are the two ends of a side of a triangle -/
def JoinedBySide (F : List Tri) (i j : ℕ) : Prop := (⟨i, j⟩ : Edge) ∈ sides F ∨ (⟨j, i⟩ : Edge) ∈ sides F

instance (F : List Tri) (i j : ℕ) : Decidable (JoinedBySide F i j) := by unfold JoinedBySide; infer_instance

theorem undir_pair {i j : ℕ} {e : Edge} : Undir ⟨i, j⟩ e ↔ e = ⟨i, j⟩ ∨ e = ⟨j, i⟩ := Iff.rfl

theorem joined_iff (F : List Tri) (i j : ℕ) : JoinedBySide F i j ↔ ∃ h ∈ sides F, Undir ⟨i, j⟩ h := by
  constructor
  · rintro (h | h)
    · exact ⟨_, h, Or.inl rfl⟩
    · exact ⟨_, h, Or.inr rfl⟩
  · rintro ⟨h, hh, hu | hu⟩
    · rw [hu] at hh; exact Or.inl hh
    · rw [hu] at hh; exact Or.inr hh

theorem count_le_one_of_pairwise {E : List Edge} (h : E.Pairwise (fun e e' => ¬ Undir e e')) (i j : ℕ) (hij : i ≠ j) :
    E.count ⟨i, j⟩ + E.count ⟨j, i⟩ ≤ 1 := by
  induction E with
  | nil => simp
  | cons e t ih =>
    obtain ⟨h1, h2⟩ := List.pairwise_cons.mp h
    have hne : (⟨i, j⟩ : Edge) ≠ ⟨j, i⟩ := by intro hc; rw [Edge.mk.injEq] at hc; exact hij hc.1
    rw [List.count_cons, List.count_cons]
    by_cases ha : Undir ⟨i, j⟩ e
    · have hz : ∀ x, Undir ⟨i, j⟩ x → t.count x = 0 := by
        intro x hx
        rw [List.count_eq_zero]
        intro hxt
        refine h1 x hxt ?_
        rcases ha with rfl | rfl <;> rcases hx with rfl | rfl
        · exact Or.inl rfl
        · exact Or.inr rfl
        · exact Or.inr rfl
        · exact Or.inl rfl
      rw [hz _ (Or.inl rfl), hz ⟨j, i⟩ (Or.inr rfl)]
      rcases ha with rfl | rfl
      · simp [hne]
      · simp only [Edge.flip]; simp [hne, hne.symm]
    · have e1 : ¬ e = ⟨i, j⟩ := fun hc => ha (Or.inl hc)
      have e2 : ¬ e = ⟨j, i⟩ := fun hc => ha (Or.inr hc)
      simp [e1, e2]
      exact ih h2

theorem count_loop_le {E : List Edge} (h : E.Pairwise (fun e e' => ¬ Undir e e')) (e : Edge) : E.count e ≤ 1 := by
  refine List.nodup_iff_count_le_one.mp ?_ e
  refine h.imp ?_
  rintro a b hab rfl
  exact hab (Or.inl rfl)

theorem adjacencyMatrixTri_spec (F : List Tri) (hF : F ≠ []) :
    ∃ E : List Edge, E ≠ [] ∧ (∀ e, (∃ e' ∈ E, Undir e e') ↔ ∃ h ∈ sides F, Undir e h) ∧
      E.Pairwise (fun e e' => ¬ Undir e e') ∧
      adjacencyMatrixTri F = some ⟨vertexCount E, vertexCount E,
        E.map (fun e => (e.s, e.t, (1 : ℤ))) ++ E.map (fun e => (e.t, e.s, (1 : ℤ)))⟩ := by
  obtain ⟨out, _, _, h1, _, _, _, _, _, h7, h8⟩ := C02_edges_lists_each_edge_once F hF
  refine ⟨out.E, ?_, h8, h7, ?_⟩
  · intro hc
    cases F with
    | nil => exact hF rfl
    | cons t _ =>
      have := (h8 (t.side 0)).mpr ⟨_, by simp [sides], Or.inl rfl⟩
      rw [hc] at this
      simp at this
  · unfold adjacencyMatrixTri
    rw [if_neg (by simpa using hF), h1]
    simp only [Option.bind_eq_bind, Option.bind_some, adjacencyOfEdges_eq]

/-- C65, triangle meshes: for a nonempty triangle list the adjacency matrix is square and has one row for each vertex index up
to the largest one in use; two different vertices have entry 1 if they are the ends of a triangle side (however many triangles
share it) and 0 otherwise; a diagonal entry is 0 unless a triangle repeats a corner, in which case it is 2. -/
theorem C65_triangle_mesh (F : List Tri) (hF : F ≠ []) :
    ∃ A, adjacencyMatrixTri F = some A ∧ A.nrows = A.ncols ∧
      (∀ e ∈ sides F, e.s < A.nrows ∧ e.t < A.nrows) ∧ (∃ e ∈ sides F, max e.s e.t + 1 = A.nrows) ∧
      ∀ i j, A.get i j = if JoinedBySide F i j then (if i = j then 2 else 1) else 0 := by
  obtain ⟨E, h0, h1, h2, h3⟩ := adjacencyMatrixTri_spec F hF
  have hm : ∀ i j, JoinedBySide F i j ↔ (⟨i, j⟩ : Edge) ∈ E ∨ (⟨j, i⟩ : Edge) ∈ E := by
    intro i j
    rw [joined_iff, ← h1]
    constructor
    · rintro ⟨e, he, hu | hu⟩
      · rw [hu] at he; exact Or.inl he
      · rw [hu] at he; exact Or.inr he
    · rintro (h | h)
      · exact ⟨_, h, Or.inl rfl⟩
      · exact ⟨_, h, Or.inr rfl⟩
  refine ⟨_, h3, rfl, ?_, ?_, ?_⟩
  · intro e he
    obtain ⟨e', he', hu⟩ := (h1 e).mpr ⟨e, he, Or.inl rfl⟩
    have := lt_vertexCount he'
    rcases hu with rfl | rfl
    · exact this
    · exact ⟨this.2, this.1⟩
  · obtain ⟨e, he, hv⟩ := vertexCount_tight h0
    obtain ⟨h, hh, hu⟩ := (h1 e).mp ⟨e, he, Or.inl rfl⟩
    refine ⟨h, hh, ?_⟩
    rw [← hv]
    rcases hu with rfl | rfl
    · rfl
    · simp [max_comm]
  · intro i j
    rw [adjacency_get]
    by_cases hij : i = j
    · subst hij
      have := count_loop_le h2 ⟨i, i⟩
      by_cases hc : JoinedBySide F i i
      · have hmem : (⟨i, i⟩ : Edge) ∈ E := by rcases (hm i i).mp hc with h | h <;> exact h
        have := List.count_pos_iff.mpr hmem
        rw [if_pos hc, if_pos rfl]; omega
      · have hmem : ¬ (⟨i, i⟩ : Edge) ∈ E := fun h => hc ((hm i i).mpr (Or.inl h))
        have := List.count_eq_zero.mpr hmem
        rw [if_neg hc]; omega
    · have hle := count_le_one_of_pairwise h2 i j hij
      by_cases hc : JoinedBySide F i j
      · rw [if_pos hc, if_neg hij]
        rcases (hm i j).mp hc with h | h
        · have := List.count_pos_iff.mpr h; omega
        · have := List.count_pos_iff.mpr h; omega
      · have hn := (hm i j).not.mp hc
        push Not at hn
        have a1 := List.count_eq_zero.mpr hn.1
        have a2 := List.count_eq_zero.mpr hn.2
        rw [if_neg hc]; omega

/-- two triangles sharing an edge, and an isolated vertex index (4) that is skipped -/
example : ((adjacencyMatrixTri [⟨0, 1, 2⟩, ⟨2, 1, 3⟩, ⟨5, 6, 7⟩]).map (fun A =>
    (A.nrows, [A.get 0 1, A.get 1 2, A.get 2 1, A.get 0 3, A.get 4 4, A.get 7 5]))) = some (8, [1, 1, 1, 0, 0, 1]) := by
  decide +kernel
example : ((adjacencyMatrixPoly [⟨0, 1⟩, ⟨1, 0⟩, ⟨2, 2⟩]).map (fun A => (A.nrows, A.get 0 1, A.get 2 2))) = some (3, 2, 2) := by
  decide +kernel

/-! ## C66 -/

/-- `v` is a corner of `t` -/
def Tri.HasCorner (t : Tri) (v : ℕ) : Prop := v = t.a ∨ v = t.b ∨ v = t.c

/-- `x` and `y` are joined by a chain of triangles: consecutive vertices of the chain are corners of a common triangle. -/
def ChainOfTriangles (F : List Tri) : ℕ → ℕ → Prop :=
  Relation.ReflTransGen (fun v w => ∃ t ∈ F, t.HasCorner v ∧ t.HasCorner w)

theorem side_of_corners {t : Tri} {v w : ℕ} (hv : t.HasCorner v) (hw : t.HasCorner w) (hne : v ≠ w) :
    ∃ h ∈ [t.side 0, t.side 1, t.side 2], Undir ⟨v, w⟩ h := by
  obtain ⟨a, b, c⟩ := t
  simp only [Tri.HasCorner] at hv hw
  simp only [Tri.side, List.mem_cons, List.not_mem_nil, or_false]
  rcases hv with rfl | rfl | rfl <;> rcases hw with rfl | rfl | rfl
  · exact absurd rfl hne
  · exact ⟨_, Or.inr (Or.inr rfl), Or.inl rfl⟩
  · exact ⟨_, Or.inr (Or.inl rfl), Or.inr rfl⟩
  · exact ⟨_, Or.inr (Or.inr rfl), Or.inr rfl⟩
  · exact absurd rfl hne
  · exact ⟨_, Or.inl rfl, Or.inl rfl⟩
  · exact ⟨_, Or.inr (Or.inl rfl), Or.inl rfl⟩
  · exact ⟨_, Or.inl rfl, Or.inr rfl⟩
  · exact absurd rfl hne

theorem corners_of_side {F : List Tri} {v w : ℕ} (h : ∃ h ∈ sides F, Undir ⟨v, w⟩ h) :
    ∃ t ∈ F, t.HasCorner v ∧ t.HasCorner w := by
  obtain ⟨e, he, hu⟩ := h
  unfold sides at he
  rw [List.mem_flatMap] at he
  obtain ⟨t, ht, he⟩ := he
  refine ⟨t, ht, ?_⟩
  simp only [Tri.side, List.mem_cons, List.not_mem_nil, or_false] at he
  unfold Tri.HasCorner
  rcases hu with rfl | rfl <;> simp only [Edge.flip, Edge.mk.injEq] at he <;>
    rcases he with ⟨h1, h2⟩ | ⟨h1, h2⟩ | ⟨h1, h2⟩ <;> simp [h1, h2]

/-- C66: `connected_components` never fails on a triangle list.  It returns one label per vertex index up to the largest one
in use; the labels are `0, …, k-1`, each of them is used, and two vertices carry the same label exactly if they are joined by
a chain of triangles.  The face labels `CF` agree with the labels of all three corners. -/
theorem C66_connected_components (F : List Tri) (hF : F ≠ []) :
    ∃ C CF k, connectedComponents F = some (C, CF) ∧
      (∀ t ∈ F, ∀ v, t.HasCorner v → v < C.length) ∧ (∃ t ∈ F, ∃ v, t.HasCorner v ∧ v + 1 = C.length) ∧
      (∀ a ∈ C, a < k) ∧ (∀ a < k, a ∈ C) ∧
      (∀ (x y a b : ℕ), C[x]? = some a → C[y]? = some b → (a = b ↔ ChainOfTriangles F x y)) ∧
      CF.length = F.length ∧
      ∀ (i : ℕ) (t : Tri), F[i]? = some t → ∀ v, t.HasCorner v → CF[i]? = C[v]? := by
  obtain ⟨E, h0, h1, h2, h3⟩ := adjacencyMatrixTri_spec F hF
  obtain ⟨A, g1, g2, g3, ⟨em, hem, gmax⟩, _⟩ := C65_triangle_mesh F hF
  rw [h3] at g1
  have hAeq := (Option.some.inj g1)
  have hWF : A.WF := by
    rw [← hAeq]
    intro t ht
    rw [List.mem_append, List.mem_map, List.mem_map] at ht
    rcases ht with ⟨e, he, rfl⟩ | ⟨e, he, rfl⟩
    · exact lt_vertexCount he
    · exact ⟨(lt_vertexCount he).2, (lt_vertexCount he).1⟩
  obtain ⟨k, C, c1, c2, c3, c4, c5⟩ := csgraph_spec A hWF g2
  have htrip : ∀ v w, ((∃ k, (v, w, k) ∈ A.trip) ∨ ∃ k, (w, v, k) ∈ A.trip) ↔ ∃ h ∈ sides F, Undir ⟨v, w⟩ h := by
    intro v w
    rw [← h1, ← hAeq]
    simp only [List.mem_append, List.mem_map, Prod.mk.injEq]
    constructor
    · rintro (⟨k, ⟨e, he, rfl, rfl, _⟩ | ⟨e, he, rfl, rfl, _⟩⟩ | ⟨k, ⟨e, he, rfl, rfl, _⟩ | ⟨e, he, rfl, rfl, _⟩⟩)
      · exact ⟨e, he, Or.inl rfl⟩
      · exact ⟨e, he, Or.inr rfl⟩
      · exact ⟨e, he, Or.inr rfl⟩
      · exact ⟨e, he, Or.inl rfl⟩
    · rintro ⟨e, he, rfl | rfl⟩
      · exact Or.inl ⟨1, Or.inl ⟨_, he, rfl, rfl, rfl⟩⟩
      · exact Or.inl ⟨1, Or.inr ⟨_, he, rfl, rfl, rfl⟩⟩
  have hchain : ∀ x y, Relation.ReflTransGen (fun v w => (∃ k, (v, w, k) ∈ A.trip) ∨ ∃ k, (w, v, k) ∈ A.trip) x y ↔
      ChainOfTriangles F x y := by
    intro x y
    unfold ChainOfTriangles
    constructor
    · intro h
      induction h with
      | refl => exact Relation.ReflTransGen.refl
      | tail _ h ih => exact ih.tail (corners_of_side ((htrip _ _).mp h))
    · intro h
      induction h with
      | refl => exact Relation.ReflTransGen.refl
      | @tail b c _ h ih =>
        by_cases hbc : b = c
        · rw [← hbc]; exact ih
        · obtain ⟨t, ht, hb, hc⟩ := h
          obtain ⟨s, hs, hu⟩ := side_of_corners hb hc hbc
          exact ih.tail ((htrip _ _).mpr ⟨s, by unfold sides; rw [List.mem_flatMap]; exact ⟨t, ht, hs⟩, hu⟩)
  have hcor : ∀ t ∈ F, ∀ v, t.HasCorner v → v < C.length := by
    intro t ht v hv
    rw [c2]
    have hs : ∀ i, t.side i ∈ sides F := by
      intro i; unfold sides; rw [List.mem_flatMap]; refine ⟨t, ht, ?_⟩; fin_cases i <;> simp
    rcases hv with rfl | rfl | rfl
    · exact (g3 _ (hs 1)).2
    · exact (g3 _ (hs 0)).1
    · exact (g3 _ (hs 0)).2
  have hsame : ∀ t ∈ F, ∀ v w, t.HasCorner v → t.HasCorner w → C[v]? = C[w]? := by
    intro t ht v w hv hw
    have l1 := List.getElem?_eq_getElem (hcor t ht v hv)
    have l2 := List.getElem?_eq_getElem (hcor t ht w hw)
    rw [l1, l2]
    congr 1
    rw [c5 v w _ _ l1 l2, hchain]
    exact Relation.ReflTransGen.single ⟨t, ht, hv, hw⟩
  have htake : npTakeN C (F.map (·.a)) = some (F.map (fun t => (C[t.a]?).getD 0)) := by
    unfold npTakeN
    have := mapM_eq_some_map (f := fun i => C[i]?) (g := fun i => (C[i]?).getD 0) (l := F.map (·.a)) (by
      intro i hi
      rw [List.mem_map] at hi
      obtain ⟨t, ht, rfl⟩ := hi
      rw [List.getElem?_eq_getElem (hcor t ht _ (Or.inl rfl))]; rfl)
    rw [this, List.map_map]; rfl
  refine ⟨C, F.map (fun t => (C[t.a]?).getD 0), k, ?_, hcor, ?_, c3, c4, ?_, by simp, ?_⟩
  · unfold connectedComponents
    rw [if_neg (by simpa using hF), h3, hAeq]
    simp only [Option.bind_eq_bind, Option.bind_some, c1, htake]
    rfl
  · obtain ⟨t, ht, hs, ht'⟩ := corners_of_side (F := F) (v := em.s) (w := em.t) ⟨em, hem, Or.inl rfl⟩
    rw [c2, ← gmax]
    rcases le_total em.s em.t with h | h
    · exact ⟨t, ht, em.t, ht', by rw [max_eq_right h]⟩
    · exact ⟨t, ht, em.s, hs, by rw [max_eq_left h]⟩
  · intro x y a b ha hb
    rw [c5 x y a b ha hb, hchain]
  · intro i t hi v hv
    have ht := List.mem_of_getElem? hi
    rw [hsame t ht v t.a hv (Or.inl rfl), List.getElem?_map, hi, Option.map_some,
      List.getElem?_eq_getElem (hcor t ht _ (Or.inl rfl))]
    rfl

/-- C66, empty input: both outputs are empty. -/
theorem C66_connected_components_empty : connectedComponents [] = some ([], []) := rfl

/-- three components: two triangles sharing an edge, the unreferenced vertex 4, and a separate triangle -/
example : connectedComponents [⟨0, 1, 2⟩, ⟨2, 1, 3⟩, ⟨5, 6, 7⟩] = some ([0, 0, 0, 0, 1, 2, 2, 2], [0, 0, 2]) := by
  decide +kernel

end Gpy
