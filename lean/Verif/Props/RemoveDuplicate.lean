import Verif.Model.RemoveDuplicate
import Mathlib.Tactic.FieldSimp
import Mathlib.Tactic.NormNum

/-! C17: `remove_duplicate_vertices`. -/

set_option autoImplicit false
namespace Gpy
open Np

section unique
variable {α β : Type} [LinearOrder α]

/-- the contract of `np.unique` in terms of positions -/
theorem unique_positions (l : List α) :
    (npUniqueIndex l).length = (npUnique l).length ∧ (npUniqueInverse l).length = l.length ∧
    (∀ k i : ℕ, (npUniqueIndex l)[k]? = some i → ∃ x, (npUnique l)[k]? = some x ∧ l[i]? = some x) ∧
    (∀ i k : ℕ, (npUniqueInverse l)[i]? = some k → ∃ x, l[i]? = some x ∧ (npUnique l)[k]? = some x) ∧
    (∀ k i : ℕ, (npUniqueIndex l)[k]? = some i → (npUniqueInverse l)[i]? = some k) := by
  refine ⟨by simp [npUniqueIndex], by simp [npUniqueInverse], ?_, ?_, ?_⟩
  · intro k i h
    rw [npUniqueIndex, List.getElem?_map, Option.map_eq_some_iff] at h
    obtain ⟨x, hx, rfl⟩ := h
    exact ⟨x, hx, List.getElem?_idxOf (mem_npUnique.mp (List.mem_of_getElem? hx))⟩
  · intro i k h
    rw [npUniqueInverse, List.getElem?_map, Option.map_eq_some_iff] at h
    obtain ⟨x, hx, rfl⟩ := h
    exact ⟨x, hx, List.getElem?_idxOf (mem_npUnique.mpr (List.mem_of_getElem? hx))⟩
  · intro k i h
    rw [npUniqueIndex, List.getElem?_map, Option.map_eq_some_iff] at h
    obtain ⟨x, hx, rfl⟩ := h
    rw [npUniqueInverse, List.getElem?_map, List.getElem?_idxOf (mem_npUnique.mp (List.mem_of_getElem? hx)), Option.map_some]
    obtain ⟨hk, rfl⟩ := List.getElem?_eq_some_iff.mp hx
    rw [(nodup_npUnique l).idxOf_getElem]

theorem inverse_eq_iff (l : List α) (i j : ℕ) (hi : i < l.length) (hj : j < l.length) :
    (npUniqueInverse l)[i]? = (npUniqueInverse l)[j]? ↔ l[i]? = l[j]? := by
  rw [npUniqueInverse, List.getElem?_map, List.getElem?_map, List.getElem?_eq_getElem hi, List.getElem?_eq_getElem hj]
  simp only [Option.map_some, Option.some.injEq]
  constructor
  · intro h
    exact (List.idxOf_inj (mem_npUnique.mpr (List.getElem_mem hi))).mp h
  · intro h; rw [h]

end unique

variable {K : Type} [Field K] [LinearOrder K] [IsStrictOrderedRing K] [FloorRing K]

/-- rounding moves a number by at most one half -/
theorem npRound_err (x : K) : |npRound x - x| ≤ 1/2 := by
  have h1 := Int.floor_le x
  have h2 := Int.lt_floor_add_one x
  unfold npRound
  dsimp only
  split_ifs with h h' h'' <;> rw [abs_le] <;> constructor <;> linarith

/-- C17, the rounding used for `epsilon≠0`: the value is an integer at distance at most one half, and an even one when two integers are
equally near.  This determines it. -/
theorem C17_round_rule (x : K) :
    ∃ m : ℤ, npRound x = (m : K) ∧ |x - m| ≤ 1/2 ∧ (|x - m| = 1/2 → Even m) := by
  have h1 := Int.floor_le x
  have h2 := Int.lt_floor_add_one x
  unfold npRound
  dsimp only
  split_ifs with h h' h''
  · refine ⟨⌊x⌋, rfl, ?_, fun e => ?_⟩
    · rw [abs_of_nonneg (by linarith)]; exact h.le
    · rw [abs_of_nonneg (by linarith)] at e; linarith
  · refine ⟨⌊x⌋ + 1, by push_cast; ring, ?_, fun e => ?_⟩
    · push_cast; rw [abs_of_nonpos (by linarith)]; linarith
    · push_cast at e; rw [abs_of_nonpos (by linarith)] at e; linarith
  · exact ⟨⌊x⌋, rfl, by rw [abs_of_nonneg (by linarith)]; linarith, fun _ => h''⟩
  · refine ⟨⌊x⌋ + 1, by push_cast; ring, ?_, fun e => ?_⟩
    · push_cast; rw [abs_of_nonpos (by linarith)]; linarith
    · rw [Int.even_add_one]; exact h''

/-- C17, `epsilon=0`.  `SV` has no repeated row, `SV[k]` is row `SVI[k]` of `V`, row `i` of `V` is row `SVJ[i]` of `SV`, and two rows
are merged exactly when they are equal. -/
theorem C17_exact (V : List (List K)) :
    ∃ SV SVI SVJ, removeDuplicateVertices V 0 = some (SV, SVI, SVJ) ∧ SV.Nodup ∧ SVI.length = SV.length ∧ SVJ.length = V.length ∧
      (∀ k i : ℕ, SVI[k]? = some i → ∃ x, SV[k]? = some x ∧ V[i]? = some x) ∧
      (∀ i k : ℕ, SVJ[i]? = some k → ∃ x, V[i]? = some x ∧ SV[k]? = some x) ∧
      (∀ k i : ℕ, SVI[k]? = some i → SVJ[i]? = some k) ∧
      ∀ i j : ℕ, i < V.length → j < V.length → (SVJ[i]? = SVJ[j]? ↔ V[i]? = V[j]?) := by
  obtain ⟨h1, h2, h3, h4, h5⟩ := unique_positions V
  exact ⟨_, _, _, by rw [removeDuplicateVertices, if_pos rfl], nodup_npUnique V, h1, h2, h3, h4, h5, inverse_eq_iff V⟩

/-- C17, `epsilon≠0`.  `SV[k]` is row `SVI[k]` of `V`; two rows are merged exactly when they agree after rounding to the grid of size
`epsilon`; therefore row `i` and the row `SV[SVJ[i]]` that replaces it differ by at most `|epsilon|` in every coordinate. -/
theorem C17_rounded (V : List (List K)) (ε : K) (hε : ε ≠ 0) :
    ∃ SV SVI SVJ, removeDuplicateVertices V ε = some (SV, SVI, SVJ) ∧ SVI.length = SV.length ∧ SVJ.length = V.length ∧
      (∀ k i : ℕ, SVI[k]? = some i → ∃ x, SV[k]? = some x ∧ V[i]? = some x) ∧
      (∀ k i : ℕ, SVI[k]? = some i → SVJ[i]? = some k) ∧
      (∀ i j : ℕ, i < V.length → j < V.length →
        (SVJ[i]? = SVJ[j]? ↔ (V[i]?.map (List.map fun t => npRound (t / ε))) = V[j]?.map (List.map fun t => npRound (t / ε)))) ∧
      ∀ (i : ℕ) (x : List K), V[i]? = some x → ∃ (k : ℕ) (y : List K), SVJ[i]? = some k ∧ SV[k]? = some y ∧ y.length = x.length ∧
        ∀ (c : ℕ) (s t : K), x[c]? = some s → y[c]? = some t → |s - t| ≤ |ε| := by
  obtain ⟨R, hR⟩ : ∃ R, R = V.map (fun x => x.map (fun t => npRound (t / ε))) := ⟨_, rfl⟩
  obtain ⟨h1, h2, h3, h4, h5⟩ := unique_positions R
  have hRl : R.length = V.length := by rw [hR]; simp
  have hlt : ∀ i ∈ npUniqueIndex R, i < V.length := by
    intro i hi
    obtain ⟨k, hk⟩ := List.mem_iff_getElem?.mp hi
    obtain ⟨x, -, hx⟩ := h3 k i hk
    rw [← hRl]; exact (List.getElem?_eq_some_iff.mp hx).1
  have htake : npTake V ((npUniqueIndex R).map (fun k : ℕ => (k : Int))) =
      some ((npUniqueIndex R).pmap (fun j (h : j < V.length) => V[j]) hlt) := by
    generalize npUniqueIndex R = Jn at hlt
    induction Jn with
    | nil => rfl
    | cons a t ih =>
      have := ih (fun j hj => hlt j (by simp [hj]))
      unfold npTake at this ⊢
      rw [List.map_cons, List.mapM_cons, this, npGet?_natCast, List.getElem?_eq_getElem (hlt a (by simp))]
      rfl
  have hSV : ∀ k i : ℕ, (npUniqueIndex R)[k]? = some i → ∃ x, ((npUniqueIndex R).pmap (fun j (h : j < V.length) => V[j]) hlt)[k]? = some x ∧
      V[i]? = some x := by
    intro k i hk
    obtain ⟨hk1, hk2⟩ := List.getElem?_eq_some_iff.mp hk
    have hi := hlt i (List.mem_of_getElem? hk)
    refine ⟨V[i], ?_, List.getElem?_eq_getElem hi⟩
    subst hk2
    simp [List.getElem?_pmap, List.getElem?_eq_getElem hk1]
  refine ⟨_, _, _, by rw [removeDuplicateVertices, if_neg hε]; dsimp only; rw [← hR, htake, Option.map_some], ?_, ?_, hSV, h5, ?_, ?_⟩
  · simp
  · rw [h2, hRl]
  · intro i j hi hj
    rw [inverse_eq_iff R i j (by omega) (by omega), hR, List.getElem?_map, List.getElem?_map]
  · intro i x hx
    have hi : i < V.length := (List.getElem?_eq_some_iff.mp hx).1
    obtain ⟨k, hk⟩ : ∃ k, (npUniqueInverse R)[i]? = some k := ⟨_, List.getElem?_eq_getElem (by omega)⟩
    obtain ⟨z, hz1, hz2⟩ := h4 i k hk
    have hkl := (List.getElem?_eq_some_iff.mp hz2).1
    obtain ⟨m, hm⟩ : ∃ m, (npUniqueIndex R)[k]? = some m := ⟨_, List.getElem?_eq_getElem (by omega)⟩
    obtain ⟨y, hy1, hy2⟩ := hSV k m hm
    obtain ⟨z', hz'1, hz'2⟩ := h3 k m hm
    rw [hz2] at hz'1
    obtain rfl := Option.some.inj hz'1
    rw [hR, List.getElem?_map, hx, Option.map_some] at hz1
    rw [hR, List.getElem?_map, hy2, Option.map_some] at hz'2
    have hxy := (Option.some.inj hz1).trans (Option.some.inj hz'2).symm
    refine ⟨k, y, hk, hy1, ?_, ?_⟩
    · have := congrArg List.length hxy
      simpa using this.symm
    · intro c s t hs ht
      have h6 : (x.map (fun t => npRound (t / ε)))[c]? = (y.map (fun t => npRound (t / ε)))[c]? := by rw [hxy]
      rw [List.getElem?_map, List.getElem?_map, hs, ht, Option.map_some, Option.map_some] at h6
      have h7 := Option.some.inj h6
      have e1 := npRound_err (s / ε)
      have e2 := npRound_err (t / ε)
      rw [h7] at e1
      have e3 : |s / ε - t / ε| ≤ 1 := by
        rw [abs_le] at e1 e2 ⊢
        constructor <;> linarith [e1.1, e1.2, e2.1, e2.2]
      rw [← sub_div, abs_div, div_le_one (abs_pos.mpr hε)] at e3
      exact e3

/-- C17, faces: an entry of the returned face list addresses in `SV` the row that replaces the vertex of the original face; with
`epsilon=0` this is the same row. -/
theorem C17_faces (V : List (List K)) (ε : K) (faces : List ℕ) (hf : ∀ v ∈ faces, v < V.length) :
    ∃ SV SVI SVJ SF, removeDuplicateVertices V ε = some (SV, SVI, SVJ) ∧
      removeDuplicateVerticesFaces V ε (faces.map (fun k : ℕ => (k : Int))) = some (SV, SVI, SVJ, SF) ∧ SF.length = faces.length ∧
      (∀ p v : ℕ, faces[p]? = some v → ∃ k, SF[p]? = some k ∧ SVJ[v]? = some k) ∧
      (ε = 0 → ∀ p v : ℕ, faces[p]? = some v → ∃ k x, SF[p]? = some k ∧ SV[k]? = some x ∧ V[v]? = some x) := by
  obtain ⟨SV, SVI, SVJ, h1, h2, h3⟩ : ∃ SV SVI SVJ, removeDuplicateVertices V ε = some (SV, SVI, SVJ) ∧ SVJ.length = V.length ∧
      (ε = 0 → ∀ i k : ℕ, SVJ[i]? = some k → ∃ x, V[i]? = some x ∧ SV[k]? = some x) := by
    by_cases h : ε = 0
    · subst h
      obtain ⟨SV, SVI, SVJ, h1, _, _, h2, _, h3, _⟩ := C17_exact V
      exact ⟨SV, SVI, SVJ, h1, h2, fun _ => h3⟩
    · obtain ⟨SV, SVI, SVJ, h1, _, h2, _⟩ := C17_rounded V ε h
      exact ⟨SV, SVI, SVJ, h1, h2, fun h' => absurd h' h⟩
  have hlt : ∀ v ∈ faces, v < SVJ.length := fun v hv => by rw [h2]; exact hf v hv
  have htake : npTake SVJ (faces.map (fun k : ℕ => (k : Int))) = some (faces.pmap (fun j (h : j < SVJ.length) => SVJ[j]) hlt) := by
    clear hf
    induction faces with
    | nil => rfl
    | cons a t ih =>
      have := ih (fun j hj => hlt j (by simp [hj]))
      unfold npTake at this ⊢
      rw [List.map_cons, List.mapM_cons, this, npGet?_natCast, List.getElem?_eq_getElem (hlt a (by simp))]
      rfl
  have hget : ∀ p v : ℕ, faces[p]? = some v → ∃ k, (faces.pmap (fun j (h : j < SVJ.length) => SVJ[j]) hlt)[p]? = some k ∧ SVJ[v]? = some k := by
    intro p v hp
    have hv := hlt v (List.mem_of_getElem? hp)
    obtain ⟨hk1, hk2⟩ := List.getElem?_eq_some_iff.mp hp
    refine ⟨SVJ[v], ?_, List.getElem?_eq_getElem hv⟩
    subst hk2
    simp [List.getElem?_pmap, List.getElem?_eq_getElem hk1]
  refine ⟨SV, SVI, SVJ, _, h1, ?_, ?_, hget, ?_⟩
  · rw [removeDuplicateVerticesFaces, h1, Option.bind_some]
    dsimp only
    rw [htake, Option.map_some]
  · simp
  · intro h p v hp
    obtain ⟨k, hk1, hk2⟩ := hget p v hp
    obtain ⟨x, hx1, hx2⟩ := h3 h v k hk2
    exact ⟨k, x, hk1, hx2, hx1⟩

/-- a concrete use: two vertices closer than the grid are merged, faces are renumbered -/
example : removeDuplicateVerticesFaces ([[1, 0], [0, 0], [1, 1/10], [0, 1]] : List (List ℚ)) 1 [0, 1, 2, 3, 0] =
    some ([[0, 0], [0, 1], [1, 0]], [1, 3, 0], [2, 0, 2, 1], [2, 0, 2, 1, 2]) := by decide +kernel

end Gpy
