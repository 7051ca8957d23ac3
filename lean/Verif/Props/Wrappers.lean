import Verif.Model.Wrappers
import Verif.Spec.Convex
import Mathlib.Data.Fin.VecNotation

/-! C133: `mesh_boolean`, `decimate`, `in_element_aabb` over libigl. -/

set_option autoImplicit false
namespace Gpy

/-- Contract of `igl::copyleft::cgal::mesh_boolean`, for any notion `solid` of the set of points inside a mesh: the three set operations, on the meshes it accepts. -/
def BooleanOk (solid : RawMesh → Set (Pt 3)) (valid : RawMesh → Prop) (igl : IglBool → RawMesh → RawMesh → RawMesh) : Prop :=
  ∀ A B, valid A → valid B → (∀ op, valid (igl op A B)) ∧ solid (igl .union A B) = solid A ∪ solid B ∧ solid (igl .intersect A B) = solid A ∩ solid B ∧
    solid (igl .minus A B) = solid A \ solid B

/-- **C133** `mesh_boolean` is the operation it is asked for, first mesh first; `'minus'` is `'difference'`; any other name raises. -/
theorem C133_boolean {solid : RawMesh → Set (Pt 3)} {valid : RawMesh → Prop} {igl : IglBool → RawMesh → RawMesh → RawMesh} (h : BooleanOk solid valid igl) (A B : RawMesh)
    (hA : valid A) (hB : valid B) :
    (∃ M, meshBoolean igl A B "union" = some M ∧ valid M ∧ solid M = solid A ∪ solid B) ∧
    (∃ M, meshBoolean igl A B "intersection" = some M ∧ valid M ∧ solid M = solid A ∩ solid B) ∧
    (∃ M, meshBoolean igl A B "difference" = some M ∧ valid M ∧ solid M = solid A \ solid B) ∧
    meshBoolean igl A B "minus" = meshBoolean igl A B "difference" ∧
    ∀ name, name ∉ ["union", "intersection", "difference", "minus"] → meshBoolean igl A B name = none := by
  obtain ⟨h0, h1, h2, h3⟩ := h A B hA hB
  refine ⟨⟨_, by simp [meshBoolean, booleanCode], h0 _, h1⟩, ⟨_, by simp [meshBoolean, booleanCode], h0 _, h2⟩, ⟨_, by simp [meshBoolean, booleanCode], h0 _, h3⟩,
    by simp [meshBoolean, booleanCode], ?_⟩
  intro name hn
  simp only [List.mem_cons, List.not_mem_nil, or_false, not_or] at hn
  simp [meshBoolean, booleanCode, hn.1, hn.2.1, hn.2.2.1, hn.2.2.2]

/-- the result of one call can be used in the next: the symmetric difference -/
theorem C133_boolean_chain {solid : RawMesh → Set (Pt 3)} {valid : RawMesh → Prop} {igl : IglBool → RawMesh → RawMesh → RawMesh} (h : BooleanOk solid valid igl) (A B : RawMesh)
    (hA : valid A) (hB : valid B) : ∃ C D M, meshBoolean igl A B "difference" = some C ∧ meshBoolean igl B A "difference" = some D ∧ meshBoolean igl C D "union" = some M ∧
      solid M = symmDiff (solid A) (solid B) := by
  obtain ⟨-, -, ⟨C, c1, c2, c3⟩, -⟩ := C133_boolean h A B hA hB
  obtain ⟨-, -, ⟨D, d1, d2, d3⟩, -⟩ := C133_boolean h B A hB hA
  obtain ⟨⟨M, m1, -, m3⟩, -⟩ := C133_boolean h C D c2 d2
  exact ⟨C, D, M, c1, d1, m1, by rw [m3, c3, d3]; rfl⟩

/-- Contract of `igl::decimate` and `igl::qslim`: valid triangles, each of one of the old triangles and each vertex of one of the old vertices; at most the old number of triangles; when
the routine does not get stuck (`full`) there are at most `max n 0` triangles, or the old ones if that is more. -/
def DecimateOk (full : RawMesh → ℤ → Prop) (dec : RawMesh → ℤ → Decimated) : Prop := ∀ M n,
  (dec M n).I.length = (dec M n).G.length ∧ (dec M n).J.length = (dec M n).U.length ∧ (∀ i ∈ (dec M n).I, i < M.2.length) ∧ (∀ j ∈ (dec M n).J, j < M.1.length) ∧
    (∀ f ∈ (dec M n).G, ∀ v ∈ f, v < (dec M n).U.length) ∧ (dec M n).G.length ≤ M.2.length ∧ (full M n → ((dec M n).G.length : ℤ) ≤ max n 0)

/-- **C133** `decimate`: `num_faces`, if given, decides and `face_ratio` is not looked at; otherwise at most the fraction `face_ratio` of the triangles is left (where the library does
not get stuck); the maps have one entry per triangle and vertex and are in range; other method names raise. -/
theorem C133_decimate {full full' : RawMesh → ℤ → Prop} {dec qslim : RawMesh → ℤ → Decimated} (h : DecimateOk full dec) (h' : DecimateOk full' qslim) (M : RawMesh) (ratio : ℝ)
    (numFaces : Option ℤ) :
    (∀ method ∈ ["shortest_edge", "qslim"], ∃ D, decimate dec qslim M ratio numFaces method = some D ∧
      D.I.length = D.G.length ∧ D.J.length = D.U.length ∧ (∀ i ∈ D.I, i < M.2.length) ∧ (∀ j ∈ D.J, j < M.1.length) ∧ (∀ f ∈ D.G, ∀ v ∈ f, v < D.U.length) ∧ D.G.length ≤ M.2.length ∧
      ((∀ n, full M n ∧ full' M n) → (∀ n : ℕ, numFaces = some (n : ℤ) → D.G.length ≤ n) ∧ (numFaces = none → 0 ≤ ratio → (D.G.length : ℝ) ≤ ratio * M.2.length))) ∧
    (∀ n ratio', ∀ method, decimate dec qslim M ratio (some n) method = decimate dec qslim M ratio' (some n) method) ∧
    (∀ method, method ∉ ["shortest_edge", "qslim"] → decimate dec qslim M ratio numFaces method = none) := by
  have key : ∀ (g : RawMesh → ℤ → Decimated) (fl : RawMesh → ℤ → Prop), DecimateOk fl g → fl M (numFaces.getD ⌊ratio * M.2.length⌋) →
      (∀ n : ℕ, numFaces = some (n : ℤ) → (g M (numFaces.getD ⌊ratio * M.2.length⌋)).G.length ≤ n) ∧
      (numFaces = none → 0 ≤ ratio → ((g M (numFaces.getD ⌊ratio * M.2.length⌋)).G.length : ℝ) ≤ ratio * M.2.length) := by
    intro g fl hg hf
    obtain ⟨-, -, -, -, -, -, hn⟩ := hg M (numFaces.getD ⌊ratio * M.2.length⌋)
    have hn := hn hf
    constructor
    · rintro n rfl
      simp only [Option.getD_some] at hn ⊢
      omega
    · rintro rfl hr
      simp only [Option.getD_none] at hn ⊢
      have h0 : 0 ≤ ratio * M.2.length := by positivity
      rw [max_eq_left (Int.floor_nonneg.mpr h0)] at hn
      calc ((g M ⌊ratio * M.2.length⌋).G.length : ℝ) ≤ (⌊ratio * M.2.length⌋ : ℝ) := by exact_mod_cast hn
        _ ≤ _ := Int.floor_le _
  refine ⟨?_, fun n r m => rfl, ?_⟩
  · intro method hm
    simp only [List.mem_cons, List.not_mem_nil, or_false] at hm
    rcases hm with rfl | rfl
    · obtain ⟨a1, a2, a3, a4, a5, a6, -⟩ := h M (numFaces.getD ⌊ratio * M.2.length⌋)
      exact ⟨_, rfl, a1, a2, a3, a4, a5, a6, fun hf => key dec full h (hf _).1⟩
    · obtain ⟨a1, a2, a3, a4, a5, a6, -⟩ := h' M (numFaces.getD ⌊ratio * M.2.length⌋)
      exact ⟨_, by simp [decimate], a1, a2, a3, a4, a5, a6, fun hf => key qslim full' h' (hf _).2⟩
  · intro method hm
    simp only [List.mem_cons, List.not_mem_nil, or_false, not_or] at hm
    simp [decimate, hm.1, hm.2]

/-- Specification: `p` is in the element with these vertices. -/
def InElement {d : ℕ} (V : List (Pt d)) (f : List ℕ) (p : Pt d) : Prop := ∃ X w, f.mapM (fun i => V[i]?) = some X ∧ IsWeights w X.length ∧ p = comb w X

/-- Contract of `igl::in_element`, for meshes of simplices of the dimension of the space: for every query an element that contains it, or `-1` if there is none. -/
def InElementOk (igl : (d : ℕ) → List (Pt d) → List (Pt d) → List (List ℕ) → List ℤ) : Prop := ∀ d queries V F, (d = 2 ∨ d = 3) →
  (∀ f ∈ F, f.length = d + 1 ∧ ∀ i ∈ f, i < V.length) →
  List.Forall₂ (fun p (e : ℤ) => (e = -1 ∧ ∀ f ∈ F, ¬ InElement V f p) ∨ ∃ (n : ℕ) (f : List ℕ), e = n ∧ F[n]? = some f ∧ InElement V f p) queries (igl d queries V F)

/-- **C133** `in_element_aabb` in the plane and in space: for every query the index of an element that contains it, or `-1` if none does. -/
theorem C133_in_element {igl : (d : ℕ) → List (Pt d) → List (Pt d) → List (List ℕ) → List ℤ} (h : InElementOk igl) (d : ℕ) (hd : d = 2 ∨ d = 3) (queries V : List (Pt d))
    (F : List (List ℕ)) (hF : ∀ f ∈ F, f.length = d + 1 ∧ ∀ i ∈ f, i < V.length) :
    List.Forall₂ (fun p (e : ℤ) => (e = -1 ∧ ∀ f ∈ F, ¬ InElement V f p) ∨ ∃ (n : ℕ) (f : List ℕ), e = n ∧ F[n]? = some f ∧ InElement V f p) queries (inElementAabb igl d queries V F) := by
  have := h d queries V F hd hF
  rcases hd with rfl | rfl
  · simpa [inElementAabb] using this
  · simpa [inElementAabb] using this

/-- **C133 violated** in any other dimension: the answer is empty, whatever the number of queries, and nothing is raised. -/
theorem C133_in_element_violated (igl : (d : ℕ) → List (Pt d) → List (Pt d) → List (List ℕ) → List ℤ) (d : ℕ) (h2 : d ≠ 2) (h3 : d ≠ 3) (queries V : List (Pt d)) (F : List (List ℕ)) :
    inElementAabb igl d queries V F = [] := by
  simp [inElementAabb, h2, h3]

/-- the contract of `igl::in_element` can be met -/
theorem inElement_exists : ∃ igl, InElementOk igl := by
  classical
  have one : ∀ (d : ℕ) (V : List (Pt d)) (F : List (List ℕ)) (p : Pt d), ∃ e : ℤ, (e = -1 ∧ ∀ f ∈ F, ¬ InElement V f p) ∨ ∃ (n : ℕ) (f : List ℕ), e = n ∧ F[n]? = some f ∧ InElement V f p := by
    intro d V F p
    by_cases h : ∃ f ∈ F, InElement V f p
    · obtain ⟨f, hf, hp⟩ := h
      obtain ⟨n, hn⟩ := List.getElem?_of_mem hf
      exact ⟨n, Or.inr ⟨n, f, rfl, hn, hp⟩⟩
    · push Not at h
      exact ⟨-1, Or.inl ⟨rfl, h⟩⟩
  choose g hg using one
  refine ⟨fun d Q V F => Q.map (g d V F), fun d Q V F _ _ => ?_⟩
  rw [List.forall₂_map_right_iff, List.forall₂_same]
  exact fun p _ => hg d V F p

/-- the contract of the decimation can be met by a routine that always ends: nothing for a target below the number of triangles, else no change -/
theorem decimate_exists : ∃ dec, DecimateOk (fun _ _ => True) dec := by
  refine ⟨fun M n => if (M.2.length : ℤ) ≤ n ∧ ∀ f ∈ M.2, ∀ v ∈ f, v < M.1.length then ⟨M.1, M.2, List.range M.2.length, List.range M.1.length⟩ else ⟨[], [], [], []⟩, fun M n => ?_⟩
  dsimp only
  split_ifs with h
  · exact ⟨by simp, by simp, by simp, by simp, h.2, le_refl _, fun _ => le_max_of_le_left h.1⟩
  · simp

/-- the contract of the boolean operations can be met on the two meshes without and with a triangle, one empty and one not -/
example : ∃ (solid : RawMesh → Set (Pt 3)) (valid : RawMesh → Prop) (igl : IglBool → RawMesh → RawMesh → RawMesh), BooleanOk solid valid igl ∧
    ∃ A B, valid A ∧ valid B ∧ (solid A).Nonempty ∧ solid B = ∅ := by
  classical
  refine ⟨fun M => if M.2 = [] then ∅ else Set.univ, fun _ => True, fun op A B => ([], if (match op with
    | .union => A.2 = [] ∧ B.2 = []
    | .intersect => A.2 = [] ∨ B.2 = []
    | .minus => A.2 = [] ∨ B.2 ≠ []) then [] else [[]]), ?_, ([], [[]]), ([], []), trivial, trivial, by simp, by simp⟩
  intro A B _ _
  refine ⟨fun _ => trivial, ?_, ?_, ?_⟩ <;> by_cases ha : A.2 = [] <;> by_cases hb : B.2 = [] <;> simp [ha, hb]

end Gpy
