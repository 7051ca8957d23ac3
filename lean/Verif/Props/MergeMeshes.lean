import Verif.Spec.MergeMeshes
import Verif.Props.RemoveDuplicate
import Verif.Props.Edges

/-!
# C112: merging the remeshed part with the rest
-/

set_option autoImplicit false
namespace Gpy.Merge
open Np

variable {K : Type} [Field K] [LinearOrder K] [IsStrictOrderedRing K] [FloorRing K]

theorem take_spec {β : Type} (l : List β) (idx : List ℕ) (h : ∀ i ∈ idx, i < l.length) :
    ∃ r, npTake l (idx.map (fun k : ℕ => (k : Int))) = some r ∧ r.length = idx.length ∧ ∀ k i : ℕ, idx[k]? = some i → r[k]? = l[i]? := by
  induction idx with
  | nil => exact ⟨[], rfl, rfl, by simp⟩
  | cons a t ih =>
    obtain ⟨r, h1, h2, h3⟩ := ih (fun i hi => h i (by simp [hi]))
    have ha := h a (by simp)
    refine ⟨l[a] :: r, ?_, by simp [h2], ?_⟩
    · unfold npTake at h1 ⊢
      rw [List.map_cons, List.mapM_cons, h1, npGet?_natCast, List.getElem?_eq_getElem ha]
      rfl
    · intro k i hk
      cases k with
      | zero =>
        simp only [List.getElem?_cons_zero, Option.some.injEq] at hk ⊢
        rw [← hk, List.getElem?_eq_getElem ha]
      | succ k => exact h3 k i (by simpa using hk)

theorem bd_range (F : List Tri) (hF : F ≠ []) (b : ℕ) (hb : ∀ v, OnBoundary F v ↔ v < b) : boundaryVertices F = some (List.range b) := by
  obtain ⟨L, h1, h2, h3⟩ := C04_boundary_vertices F hF
  have : L = List.range b := by
    refine List.Perm.eq_of_pairwise (le := (· < ·)) ?_ h2 List.pairwise_lt_range ?_
    · intro x y _ _ hx hy; omega
    · rw [List.perm_ext_iff_of_nodup (h2.imp (fun h => ne_of_lt h)) List.nodup_range]
      intro v
      rw [h3, List.mem_range]
      exact hb v
  rw [h1, this]

/-- Triangles: when the boundary vertices of the active part come first (as `remesh_botsch` returns them), merging keeps all faces in place; interior vertices of the active part are not
merged with anything, all others exactly when they are in the same cell of the grid. -/
theorem C112_triangles (ε : K) (hε : ε ≠ 0) (Va : List (List K)) (Fa : List Tri) (Vi : List (List K)) (Fi : List Tri) (hFa : Fa ≠ []) (b : ℕ) (hbl : b ≤ Va.length) (hb : ∀ v, OnBoundary Fa v ↔ v < b)
    (ha : ∀ v ∈ flat3 Fa, v < Va.length) (hi : ∀ v ∈ flat3 Fi, v < Vi.length) :
    ∃ V F σ, merge3 ε Va Fa Vi Fi = some (V, F) ∧
      Merged ε (fun w => Vi.length + b ≤ w) (Vi ++ Va) (flat3 Fi ++ (flat3 Fa).map (fun v => v + Vi.length)) V F σ := by
  unfold merge3
  rw [bd_range Fa hFa b hb, Option.bind_some]
  dsimp only
  have hint : (List.range Va.length).filter (fun v => decide (v ∉ List.range b)) = List.range' b (Va.length - b) := by
    have e : List.range Va.length = List.range b ++ List.range' b (Va.length - b) := by
      have h := List.range'_append_1 (s := 0) (m := b) (n := Va.length - b)
      rw [Nat.zero_add, Nat.add_sub_cancel' hbl] at h
      rw [List.range_eq_range', List.range_eq_range', h]
    rw [e, List.filter_append, List.filter_eq_nil_iff.mpr (fun x hx => by simpa using hx), List.filter_eq_self.mpr (fun x hx => by
      rw [List.mem_range'_1] at hx
      simp; omega)]
    rfl
  rw [hint]
  obtain ⟨Vbd, t1, t2, t3⟩ := take_spec Va (List.range b) (fun i h => by rw [List.mem_range] at h; omega)
  rw [t1, Option.bind_some]
  have hVbd : Vbd = Va.take b := by
    apply List.ext_getElem?
    intro k
    by_cases hk : k < b
    · rw [t3 k k (by rw [List.getElem?_eq_getElem (by simpa using hk), List.getElem_range]), List.getElem?_take_of_lt hk]
    · rw [List.getElem?_eq_none (by rw [t2, List.length_range]; omega), List.getElem?_eq_none (by rw [List.length_take]; omega)]
  subst hVbd
  have hWget : ∀ w, w < Vi.length + b → (Vi ++ Va.take b)[w]? = (Vi ++ Va)[w]? := by
    intro w hw
    by_cases h : w < Vi.length
    · rw [List.getElem?_append_left h, List.getElem?_append_left h]
    · rw [List.getElem?_append_right (by omega), List.getElem?_append_right (by omega), List.getElem?_take_of_lt (by omega)]
  obtain ⟨SV, SVI, SVJ, c1, c2, c3, c4, c5, c6, c7⟩ := C17_rounded (Vi ++ Va.take b) ε hε
  set R := (Vi ++ Va.take b).map (fun x => x.map (fun t => npRound (t / ε))) with hR
  have hWl : (Vi ++ Va.take b).length = Vi.length + b := by rw [List.length_append, List.length_take]; omega
  obtain ⟨rfl, rfl⟩ : SVI = npUniqueIndex R ∧ SVJ = npUniqueInverse R := by
    unfold removeDuplicateVertices at c1
    rw [if_neg hε] at c1
    simp only [Option.map_eq_some_iff, Prod.mk.injEq] at c1
    obtain ⟨_, -, -, h1, h2⟩ := c1
    exact ⟨h1.symm, h2.symm⟩
  generalize npUniqueIndex R = SVI at *
  generalize npUniqueInverse R = SVJ at *
  rw [hWl] at c3 c6
  have hSVI : ∀ k i : ℕ, SVI[k]? = some i → i < Vi.length + b := by
    intro k i h
    obtain ⟨x, -, hx⟩ := c4 k i h
    have := (List.getElem?_eq_some_iff.mp hx).1
    omega
  have hSVJ : ∀ w k : ℕ, SVJ[w]? = some k → k < SVI.length := by
    intro w k h
    have hw := (List.getElem?_eq_some_iff.mp h).1
    obtain ⟨k', y, h1, h2, -⟩ := c7 w _ (List.getElem?_eq_getElem (by omega))
    rw [h] at h1
    rw [Option.some.inj h1, c2]
    exact (List.getElem?_eq_some_iff.mp h2).1
  set inv := SVJ ++ (List.range (List.range' b (Va.length - b)).length).map (fun v => v + SVI.length) with hinv
  have hinvl : inv.length = (Vi ++ Va).length := by
    rw [hinv]
    simp only [List.length_append, List.length_map, List.length_range, List.length_range', c3]
    omega
  have hinv1 : ∀ w, w < Vi.length + b → inv[w]? = SVJ[w]? := fun w hw => by rw [hinv, List.getElem?_append_left (by omega)]
  have hinv2 : ∀ w, Vi.length + b ≤ w → w < (Vi ++ Va).length → inv[w]? = some (w - (Vi.length + b) + SVI.length) := by
    intro w h1 h2
    rw [List.length_append] at h2
    rw [hinv, List.getElem?_append_right (by omega), List.getElem?_map, List.getElem?_eq_getElem (by simp; omega), List.getElem_range, c3]
    rfl
  obtain ⟨F, f1, f2, f3⟩ := take_spec inv (flat3 Fi ++ (flat3 Fa).map (fun v => v + Vi.length)) (fun v hv => by
    rw [hinvl, List.length_append]
    rcases List.mem_append.mp hv with h | h
    · have := hi v h; omega
    · obtain ⟨u, hu, rfl⟩ := List.mem_map.mp h
      have := ha u hu; omega)
  obtain ⟨V, v1, v2, v3⟩ := take_spec (Vi ++ Va) (SVI ++ (List.range' b (Va.length - b)).map (fun v => v + Vi.length)) (fun v hv => by
    rw [List.length_append]
    rcases List.mem_append.mp hv with h | h
    · obtain ⟨k, hk⟩ := List.mem_iff_getElem?.mp h
      have := hSVI k v hk; omega
    · obtain ⟨u, hu, rfl⟩ := List.mem_map.mp h
      rw [List.mem_range'_1] at hu; omega)
  have hσ : ∀ w, w < (Vi ++ Va).length → inv[w]? = some (inv.getD w 0) := by
    intro w hw
    rw [List.getD_eq_getElem?_getD, List.getElem?_eq_getElem (by omega)]; rfl
  have hV1 : ∀ k, k < SVI.length → V[k]? = SV[k]? := by
    intro k hk
    have e := v3 k SVI[k] (by rw [List.getElem?_append_left hk, List.getElem?_eq_getElem hk])
    obtain ⟨x, hx1, hx2⟩ := c4 k SVI[k] (List.getElem?_eq_getElem hk)
    rw [e, hx1, ← hx2, hWget _ (hSVI k _ (List.getElem?_eq_getElem hk))]
  have hV2 : ∀ w, Vi.length + b ≤ w → w < (Vi ++ Va).length → V[w - (Vi.length + b) + SVI.length]? = (Vi ++ Va)[w]? := by
    intro w h1 h2
    refine v3 _ w ?_
    rw [List.length_append] at h2
    rw [List.getElem?_append_right (by omega), List.getElem?_map, List.getElem?_eq_getElem (by simp; omega), List.getElem_range']
    simp only [Option.map_some, Option.some.injEq]
    omega
  refine ⟨V, F, fun w => inv.getD w 0, ?_, ⟨?_, ?_, ?_, ?_⟩⟩
  · rw [f1, Option.bind_some, v1]; rfl
  · apply List.ext_getElem?
    intro k
    rw [List.getElem?_map]
    cases hk : (flat3 Fi ++ (flat3 Fa).map (fun v => v + Vi.length))[k]? with
    | none =>
      rw [List.getElem?_eq_none_iff] at hk
      rw [List.getElem?_eq_none (by omega)]; rfl
    | some w =>
      rw [f3 k w hk]
      have hw : w < (Vi ++ Va).length := by
        rw [List.length_append]
        rcases List.mem_append.mp (List.mem_of_getElem? hk) with h | h
        · have := hi w h; omega
        · obtain ⟨u, hu, rfl⟩ := List.mem_map.mp h
          have := ha u hu; omega
      rw [hσ w hw]; rfl
  · intro w x hx
    have hw := (List.getElem?_eq_some_iff.mp hx).1
    have hs := hσ w hw
    by_cases h : w < Vi.length + b
    · rw [hinv1 w h] at hs
      obtain ⟨k, y, h1, h2, h3, h4⟩ := c7 w x (by rw [hWget w h]; exact hx)
      rw [h1] at hs
      refine ⟨y, ?_, h3, h4⟩
      rw [← Option.some.inj hs, hV1 k (hSVJ w k h1), h2]
    · rw [hinv2 w (by omega) hw] at hs
      refine ⟨x, ?_, rfl, fun c s t h1 h2 => ?_⟩
      · rw [← Option.some.inj hs, hV2 w (by omega) hw, hx]
      · rw [h1] at h2
        rw [Option.some.inj h2, sub_self, abs_zero]
        exact abs_nonneg _
  · intro w hw hf
    have hs := hσ w hw
    rw [hinv2 w hf hw] at hs
    rw [← Option.some.inj hs, hV2 w hf hw]
  · intro w w' x x' hx hx'
    have hw := (List.getElem?_eq_some_iff.mp hx).1
    have hw' := (List.getElem?_eq_some_iff.mp hx').1
    have hs := hσ w hw
    have hs' := hσ w' hw'
    have hiff : inv.getD w 0 = inv.getD w' 0 ↔ inv[w]? = inv[w']? := by rw [hs, hs', Option.some.injEq]
    rw [hiff]
    by_cases h : w < Vi.length + b <;> by_cases h' : w' < Vi.length + b
    · rw [hinv1 w h, hinv1 w' h', c6 w w' h h', hWget w h, hWget w' h', hx, hx']
      simp only [Option.map_some, Option.some.injEq]
      constructor
      · intro e
        exact Or.inr ⟨by omega, by omega, e⟩
      · rintro (rfl | ⟨-, -, e⟩)
        · rw [hx] at hx'
          rw [Option.some.inj hx']
        · exact e
    · constructor
      · intro e
        exfalso
        rw [hinv1 w h, hinv2 w' (by omega) hw'] at e
        have := hSVJ w _ e
        omega
      · rintro (rfl | ⟨-, h2, -⟩) <;> omega
    · constructor
      · intro e
        exfalso
        rw [hinv1 w' h', hinv2 w (by omega) hw] at e
        have := hSVJ w' _ e.symm
        omega
      · rintro (rfl | ⟨h2, -, -⟩) <;> omega
    · rw [hinv2 w (by omega) hw, hinv2 w' (by omega) hw', Option.some.injEq]
      constructor
      · intro e; left; omega
      · rintro (rfl | ⟨h2, -, -⟩)
        · rfl
        · omega

/-- Segments: merging keeps all edges in place; vertices are merged exactly when they are in the same cell of the grid (also interior ones). -/
theorem C112_segments (ε : K) (hε : ε ≠ 0) (Va : List (List K)) (Fa : List ℕ) (Vi : List (List K)) (Fi : List ℕ) (ha : ∀ v ∈ Fa, v < Va.length) (hi : ∀ v ∈ Fi, v < Vi.length) :
    ∃ V F σ, merge2 ε Va Fa Vi Fi = some (V, F) ∧ Merged ε (fun _ => False) (Vi ++ Va) (Fi ++ Fa.map (fun v => v + Vi.length)) V F σ := by
  have hlt : ∀ v ∈ Fi ++ Fa.map (fun v => v + Vi.length), v < (Vi ++ Va).length := by
    intro v hv
    rw [List.length_append]
    rcases List.mem_append.mp hv with h | h
    · have := hi v h; omega
    · obtain ⟨u, hu, rfl⟩ := List.mem_map.mp h
      have := ha u hu; omega
  obtain ⟨SV, SVI, SVJ, SF, g1, g2, g3, g4, -⟩ := C17_faces (Vi ++ Va) ε _ hlt
  obtain ⟨SV', SVI', SVJ', c1, c2, c3, c4, c5, c6, c7⟩ := C17_rounded (Vi ++ Va) ε hε
  rw [g1] at c1
  obtain ⟨rfl, rfl, rfl⟩ : SV = SV' ∧ SVI = SVI' ∧ SVJ = SVJ' := by simpa using c1
  have hσ : ∀ w, w < (Vi ++ Va).length → SVJ[w]? = some (SVJ.getD w 0) := by
    intro w hw
    rw [List.getD_eq_getElem?_getD, List.getElem?_eq_getElem (by omega)]; rfl
  refine ⟨SV, SF, fun w => SVJ.getD w 0, by unfold merge2; rw [g2]; rfl, ⟨?_, ?_, fun _ _ h => absurd h id, ?_⟩⟩
  · apply List.ext_getElem?
    intro k
    rw [List.getElem?_map]
    cases hk : (Fi ++ Fa.map (fun v => v + Vi.length))[k]? with
    | none =>
      rw [List.getElem?_eq_none_iff] at hk
      rw [List.getElem?_eq_none (by omega)]; rfl
    | some w =>
      obtain ⟨j, h1, h2⟩ := g4 k w hk
      rw [h1, Option.map_some]
      rw [hσ w (hlt w (List.mem_of_getElem? hk))] at h2
      rw [← Option.some.inj h2]
  · intro w x hx
    obtain ⟨k, y, h1, h2, h3, h4⟩ := c7 w x hx
    rw [hσ w (List.getElem?_eq_some_iff.mp hx).1] at h1
    exact ⟨y, by rw [Option.some.inj h1]; exact h2, h3, h4⟩
  · intro w w' x x' hx hx'
    have hw := (List.getElem?_eq_some_iff.mp hx).1
    have hw' := (List.getElem?_eq_some_iff.mp hx').1
    have := c6 w w' hw hw'
    rw [hσ w hw, hσ w' hw', hx, hx'] at this
    simp only [Option.map_some, Option.some.injEq] at this
    rw [this]
    constructor
    · intro e; exact Or.inr ⟨id, id, e⟩
    · rintro (rfl | ⟨-, -, e⟩)
      · rw [hx] at hx'
        rw [Option.some.inj hx']
      · exact e

omit [IsStrictOrderedRing K] in
/-- A boundary vertex of the active part at exactly the place of a vertex of the inactive part becomes the same vertex: the seam is closed. -/
theorem C112_seam (ε : K) (free : ℕ → Prop) (W : List (List K)) (G : List ℕ) (V : List (List K)) (F : List ℕ) (σ : ℕ → ℕ) (h : Merged ε free W G V F σ) (w w' : ℕ) (x : List K) (hw : W[w]? = some x) (hw' : W[w']? = some x)
    (hf : ¬ free w) (hf' : ¬ free w') : σ w = σ w' := (h.merged w w' x x hw hw').mpr (Or.inr ⟨hf, hf', rfl⟩)

/-- a square with its centre: centre last (in order), and centre first -/
def exVa : List (List ℚ) := [[0, 0, 0], [2, 0, 0], [2, 2, 0], [0, 2, 0], [1, 1, 1]]
def exFa : List Tri := [⟨0, 1, 4⟩, ⟨1, 2, 4⟩, ⟨2, 3, 4⟩, ⟨3, 0, 4⟩]
def exVa' : List (List ℚ) := [[1, 1, 1], [0, 0, 0], [2, 0, 0], [2, 2, 0], [0, 2, 0]]
def exFa' : List Tri := [⟨1, 2, 0⟩, ⟨2, 3, 0⟩, ⟨3, 4, 0⟩, ⟨4, 1, 0⟩]
/-- a triangle beside it -/
def exVi : List (List ℚ) := [[2, 0, 0], [4, 1, 0], [2, 2, 0]]
def exFi : List Tri := [⟨0, 1, 2⟩]

example : exFa ≠ [] ∧ 4 ≤ exVa.length ∧ (∀ v, OnBoundary exFa v ↔ v < 4) ∧ (∀ v ∈ flat3 exFa, v < exVa.length) ∧ (∀ v ∈ flat3 exFi, v < exVi.length) := by
  refine ⟨by decide, by decide, fun v => ?_, by decide, by decide⟩
  obtain ⟨L, h1, -, h3⟩ := C04_boundary_vertices exFa (by decide)
  have h4 : boundaryVertices exFa = some [0, 1, 2, 3] := by decide +kernel
  rw [h4] at h1
  have := h3 v
  rw [← Option.some.inj h1] at this
  unfold OnBoundary
  rw [← this]
  simp
  omega

/-- When an interior vertex of the active part comes before a boundary vertex, the merged mesh is wrong: the same two meshes, with the centre of the square as first vertex, give a mesh in which the
first corner of the first active triangle has moved from the corner `(0,0,0)` of the square to `(2,0,0)`. -/
theorem C112_order_violated :
    ((merge3 (1 / 67108864) exVa' exFa' exVi exFi).bind (fun r => r.2[3]?.bind (fun k => r.1[k]?))) = some [2, 0, 0] ∧ (exFa'[0]?.bind (fun f => exVa'[f.a]?)) = some [0, 0, 0] := by
  constructor
  · decide +kernel
  · decide +kernel

end Gpy.Merge
