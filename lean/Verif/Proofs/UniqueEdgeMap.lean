import Verif.Proofs.EdgeMapBuild

/-! An edge data structure for any list of triangles. -/

set_option autoImplicit false
namespace Gpy

/-- the edge with the smaller vertex first -/
def Edge.sorted (e : Edge) : Edge := if e.s ≤ e.t then e else e.flip

theorem sorted_undir (e : Edge) : Undir e e.sorted := by unfold Edge.sorted Undir; split_ifs <;> simp

theorem sorted_eq_of_undir {e e' : Edge} (h : Undir e e') : e.sorted = e'.sorted := by
  obtain ⟨a, b⟩ := e
  obtain ⟨c, d⟩ := e'
  rw [undir_iff] at h
  unfold Edge.sorted Edge.flip
  rcases h with ⟨rfl, rfl⟩ | ⟨rfl, rfl⟩
  · rfl
  · simp only
    split_ifs with h1 h2 h2
    · simp; omega
    · rfl
    · rfl
    · omega

/-- every undirected edge of the triangles once -/
def edgeList (F : List Tri) : List Edge := ((sides F).map Edge.sorted).dedup

/-- matrices with the rows of a list -/
def triMat (F : List Tri) : IMat := ⟨F.length, 3, fun f c => if c = 0 then (F.getD f ⟨0, 0, 0⟩).a else if c = 1 then (F.getD f ⟨0, 0, 0⟩).b else (F.getD f ⟨0, 0, 0⟩).c⟩
def edgeMat (E : List Edge) : IMat := ⟨E.length, 2, fun f c => if c = 0 then (E.getD f ⟨0, 0⟩).s else (E.getD f ⟨0, 0⟩).t⟩

theorem triList_triMat (F : List Tri) : triList (triMat F) = F := by
  unfold triList triMat
  apply List.ext_getElem
  · simp
  · intro i h1 h2
    simp [List.getD_eq_getElem?_getD, List.getElem?_eq_getElem h2]

theorem edgeRow_edgeMat (E : List Edge) {i : ℕ} (h : i < E.length) : edgeRow (edgeMat E) i = E[i] := by
  unfold edgeRow edgeMat
  simp [List.getD_eq_getElem?_getD, List.getElem?_eq_getElem h]

/-- The arrays of a mesh: `igl::unique_edge_map(F,E,uE,EMAP,uE2E)`. -/
def uniqueEdgeMap (V : Arr (V3 ℝ)) (high low : Arr ℝ) (F : List Tri) : SplitState :=
  buildMap ⟨V, triMat F, ⟨0, 2, fun _ _ => 0⟩, ⟨0, 2, fun _ _ => 0⟩, ⟨0, fun _ => 0⟩, ⟨0, fun _ => []⟩, high, low⟩ (triMat F) (edgeMat (edgeList F))

theorem uniqueEdgeMap_F (V : Arr (V3 ℝ)) (high low : Arr ℝ) (F : List Tri) : triList (uniqueEdgeMap V high low F).F = F := triList_triMat F

theorem uniqueEdgeMap_isEdgeMap (V : Arr (V3 ℝ)) (high low : Arr ℝ) (F : List Tri) : IsEdgeMap (uniqueEdgeMap V high low F) := by
  have hmem : ∀ e, e ∈ edgeList F ↔ ∃ e' ∈ sides F, e'.sorted = e := by intro e; unfold edgeList; rw [List.mem_dedup, List.mem_map]
  have hs : ∀ e ∈ edgeList F, e.sorted = e := by
    intro e he
    obtain ⟨e', _, rfl⟩ := (hmem e).mp he
    exact (sorted_eq_of_undir (sorted_undir e')).symm
  apply buildMap_isEdgeMap _ _ _ rfl rfl
  · intro u hu u' hu' h
    have hu1 : u < (edgeList F).length := hu
    have hu2 : u' < (edgeList F).length := hu'
    rw [edgeRow_edgeMat _ hu1, edgeRow_edgeMat _ hu2] at h
    have h1 := sorted_eq_of_undir h
    rw [hs _ (List.getElem_mem _), hs _ (List.getElem_mem _)] at h1
    exact (List.Nodup.getElem_inj_iff (List.nodup_dedup _)).mp h1
  · intro e he
    rw [triList_triMat] at he
    obtain ⟨i, hi, h⟩ := List.getElem_of_mem ((hmem _).mpr ⟨e, he, rfl⟩)
    exact ⟨i, hi, by rw [edgeRow_edgeMat _ hi, h]; exact sorted_undir e⟩
  · intro u hu
    rw [triList_triMat]
    have hu1 : u < (edgeList F).length := hu
    obtain ⟨e, he, h⟩ := (hmem _).mp (List.getElem_mem hu1)
    exact ⟨e, he, by rw [edgeRow_edgeMat _ hu1, ← h]; exact sorted_undir e⟩

end Gpy
