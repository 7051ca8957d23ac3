import Verif.Proofs.GridNeighbors2

/-! C36: `grid_neighbors`. -/

set_option autoImplicit false
namespace Gpy
open Np Finset Gpy.Spec

theorem out_perm {rows rows' : List GRow} (h : rows.Perm rows') (c : ℕ) :
    ((rows.map (fun r c => if r.oob c then -1 else (r.nb c : ℤ))).map (fun f => f c)).Perm
      ((rows'.map (fun r c => if r.oob c then -1 else (r.nb c : ℤ))).map (fun f => f c)) := (h.map _).map _

theorem Rel_perm {rows rows' : List GRow} (h : rows.Perm rows') (c d : ℕ) : Rel rows c d ↔ Rel rows' c d := by
  unfold Rel; simp only [h.mem_iff]

/-- **C36** order one: if duplicates are not removed, or the grid has at least three cells in every direction, column `c` lists exactly the
neighbours of cell `c`, each once, and `-1` for every offset leaving the grid. -/
theorem C36_order_one (gs : List ℕ) (hg : gs.length = 2 ∨ gs.length = 3) (diag self uniq : Bool) (hu : uniq = false ∨ ∀ g ∈ gs, 3 ≤ g) :
    ∃ N, gridNeighbors gs 1 diag self uniq = some N ∧
      N.length = (if self then 1 else 0) + (if diag then 3 ^ gs.length - 1 else 2 * gs.length) ∧
      ∀ c, c < gs.prod → (∀ d : ℕ, (d : ℤ) ∈ N.map (fun f => f c) ↔ IsNbr gs diag self c d) ∧
        ((N.map (fun f => f c)).filter (fun v => decide (0 ≤ v))).Nodup ∧ ∀ v ∈ N.map (fun f => f c), v = -1 ∨ 0 ≤ v := by
  set rows := (gnOffs gs diag self).map (gnRow gs) with hrows
  have hsm := gnOffs_small hg diag self
  obtain ⟨sel, hsel, hperm⟩ : ∃ sel : List GRow, (gridNeighbors gs 1 diag self uniq = some (sel.map (fun r c => if r.oob c then -1 else (r.nb c : ℤ)))) ∧
      sel.Perm rows := by
    rw [gridNeighbors_eq hg]
    cases uniq with
    | false => exact ⟨rows, rfl, List.Perm.refl _⟩
    | true =>
      have hg3 : ∀ g ∈ gs, 3 ≤ g := by rcases hu with h | h <;> [cases h; exact h]
      refine ⟨_, rfl, select_perm rows ?_⟩
      rw [hrows, List.map_map]
      refine (gnOffs_nodup gs diag self).map_on ?_
      intro o ho o' ho' he
      simp only [Function.comp_apply] at he
      rw [row_nb_zero (hsm o ho).1, row_nb_zero (hsm o' ho').1] at he
      exact ravel_inj (B := 1) gs (fun g hg' => by have := hg3 g hg'; omega) o o' (hsm o ho).1 (hsm o' ho').1 (hsm o ho).2 (hsm o' ho').2 he
  refine ⟨_, hsel, ?_, ?_⟩
  · rw [List.length_map, hperm.length_eq, hrows, List.length_map]
    unfold gnOffs
    rcases hg with h | h
    · rw [if_pos h, h]; cases diag <;> cases self <;> rfl
    · rw [if_neg (by omega), h]; cases diag <;> cases self <;> rfl
  · intro c hc
    refine ⟨?_, ?_, ?_⟩
    · intro d
      rw [mem_out, Rel_perm hperm, hrows, Rel_nbr hg hc]
    · rw [((out_perm hperm c).filter _).nodup_iff, hrows, List.map_map, List.map_map, List.filter_map]
      refine ((gnOffs_nodup gs diag self).filter _).map_on ?_
      intro o ho o' ho' he
      obtain ⟨m1, f1⟩ := List.mem_filter.mp ho
      obtain ⟨m2, f2⟩ := List.mem_filter.mp ho'
      simp only [Function.comp_apply, decide_eq_true_eq] at he f1 f2
      have o1 : (gnRow gs o).oob c = false := by
        by_contra h; rw [Bool.not_eq_false] at h; rw [if_pos h] at f1; omega
      have o2 : (gnRow gs o').oob c = false := by
        by_contra h; rw [Bool.not_eq_false] at h; rw [if_pos h] at f2; omega
      rw [o1, o2] at he
      simp only [Bool.false_eq_true, if_false, Nat.cast_inj] at he
      obtain ⟨_, e1⟩ := (gnRow_spec (hsm o m1).1 c _).mp ⟨o1, rfl⟩
      obtain ⟨_, e2⟩ := (gnRow_spec (hsm o' m2).1 c _).mp ⟨o2, he.symm⟩
      have hl : (unrZ gs c).length = gs.length := by simp [unrZ, unr_length]
      exact zipWith_add_inj (by rw [(hsm o m1).1, hl]) (by rw [(hsm o' m2).1, hl]) (e1.symm.trans e2)
    · intro v hv
      rw [List.map_map, List.mem_map] at hv
      obtain ⟨r, _, rfl⟩ := hv
      simp only [Function.comp_apply]
      split
      · exact Or.inl rfl
      · exact Or.inr (Int.natCast_nonneg _)

/-- the listed neighbours of the middle cell of a `3 × 3` grid, and of a corner -/
example : (gridNeighbors [3, 3] 1 false false true).map (fun N => (N.map (fun f => f 4), N.map (fun f => f 0))) =
    some ([5, 3, 7, 1], [1, -1, 3, -1]) := by decide +kernel

/-- **C36** higher order, duplicates kept: column `c` lists exactly the cells reached from `c` by a walk of between one and `2^(order-1)`
steps. -/
theorem C36_walks (gs : List ℕ) (hg : gs.length = 2 ∨ gs.length = 3) (order : ℕ) (diag self : Bool) :
    ∃ N, gridNeighbors gs order diag self false = some N ∧
      ∀ c, c < gs.prod → ∀ d : ℕ, (d : ℤ) ∈ N.map (fun f => f c) ↔ ∃ k, 1 ≤ k ∧ k ≤ 2 ^ (order - 1) ∧ Walk (IsNbr gs diag self) k c d := by
  refine ⟨_, gridNeighbors_eq hg order diag self false, ?_⟩
  intro c hc d
  rw [mem_out]
  simp only [Bool.false_eq_true, if_false]
  rw [Rel_loop]
  have := walk_congr (P := fun c => c < gs.prod) (fun c d hc => Rel_nbr (d := d) (diag := diag) (self := self) hg hc) (fun c d _ h => Rel_lt hg h)
  constructor
  · rintro ⟨k, k1, k2, h⟩; exact ⟨k, k1, k2, (this k c d hc).mp h⟩
  · rintro ⟨k, k1, k2, h⟩; exact ⟨k, k1, k2, (this k c d hc).mpr h⟩

/-- **C36** for `order = 2` these are exactly the cells within two steps, as wanted. -/
theorem C36_order_two (gs : List ℕ) (hg : gs.length = 2 ∨ gs.length = 3) (diag self : Bool) :
    ∃ N, gridNeighbors gs 2 diag self false = some N ∧
      ∀ c, c < gs.prod → ∀ d : ℕ, (d : ℤ) ∈ N.map (fun f => f c) ↔
        IsNbr gs diag self c d ∨ ∃ e, IsNbr gs diag self c e ∧ IsNbr gs diag self e d := by
  obtain ⟨N, hN, h⟩ := C36_walks gs hg 2 diag self
  refine ⟨N, hN, fun c hc d => ?_⟩
  rw [h c hc d]
  constructor
  · rintro ⟨k, k1, k2, hw⟩
    norm_num at k2
    interval_cases k
    · obtain ⟨e, he, rfl⟩ := hw; exact Or.inl he
    · obtain ⟨e, he, f, hf, rfl⟩ := hw; exact Or.inr ⟨e, he, hf⟩
  · rintro (h | ⟨e, h1, h2⟩)
    · exact ⟨1, le_refl _, by norm_num, d, h, rfl⟩
    · exact ⟨2, by norm_num, by norm_num, e, h1, d, h2, rfl⟩

/-- **C36** with duplicates removed (and any order) every listed cell is still reached by such a walk. -/
theorem C36_unique_sound (gs : List ℕ) (hg : gs.length = 2 ∨ gs.length = 3) (order : ℕ) (diag self : Bool) :
    ∃ N, gridNeighbors gs order diag self true = some N ∧
      ∀ c, c < gs.prod → ∀ d : ℕ, (d : ℤ) ∈ N.map (fun f => f c) → ∃ k, 1 ≤ k ∧ k ≤ 2 ^ (order - 1) ∧ Walk (IsNbr gs diag self) k c d := by
  refine ⟨_, gridNeighbors_eq hg order diag self true, ?_⟩
  intro c hc d hd
  rw [mem_out] at hd
  simp only [if_true] at hd
  have hd' : Rel (gnLoop (order - 1) ((gnOffs gs diag self).map (gnRow gs))) c d := by
    obtain ⟨r, hr, h⟩ := hd
    obtain ⟨k, _, hk⟩ := List.mem_filterMap.mp hr
    exact ⟨r, List.mem_of_getElem? hk, h⟩
  rw [Rel_loop] at hd'
  have := walk_congr (P := fun c => c < gs.prod) (fun c d hc => Rel_nbr (d := d) (diag := diag) (self := self) hg hc) (fun c d _ h => Rel_lt hg h)
  obtain ⟨k, k1, k2, h⟩ := hd'
  exact ⟨k, k1, k2, (this k c d hc).mp h⟩

theorem walk_coord {gs : List ℕ} {diag self : Bool} {i : ℕ} (hi : i < gs.length) : ∀ k c d, Walk (IsNbr gs diag self) k c d →
    |cellCoord gs i d - cellCoord gs i c| ≤ (k : ℤ) := by
  intro k
  induction k with
  | zero => rintro c d rfl; simp
  | succ k ih =>
    rintro c d ⟨e, he, h⟩
    have h1 := abs_le.mp (ih e d h)
    have h2 := abs_le.mp (he.2.1 i hi)
    rw [abs_le]; push_cast
    exact ⟨by linarith [h1.1, h2.1], by linarith [h1.2, h2.2]⟩

/-- **C36 is violated** for `order = 3`: the result contains cells four steps away (the loop composes the current neighbourhood with itself, so
its reach doubles). -/
theorem C36_order3_violated : ∃ N, gridNeighbors [9, 9] 3 false false false = some N ∧ (4 : ℤ) ∈ N.map (fun f => f 0) ∧
    ¬ ∃ k, k ≤ 3 ∧ Walk (IsNbr [9, 9] false false) k 0 4 := by
  refine ⟨_, gridNeighbors_eq (Or.inl rfl) 3 false false false, by decide +kernel, ?_⟩
  rintro ⟨k, hk, hw⟩
  have := walk_coord (i := 0) (by simp) k 0 4 hw
  simp [cellCoord] at this
  omega

/-- **C36 is violated** with `output_unique=True` (the default) on a grid with two cells in a direction: cell 1 is a neighbour of cell 0 but is
not listed, because its row is taken for a duplicate of a row that is out of bounds at cell 0. -/
theorem C36_small_grid_violated : ∃ N, gridNeighbors [2, 3] 1 false false true = some N ∧ IsNbr [2, 3] false false 0 1 ∧
    (1 : ℤ) ∉ N.map (fun f => f 0) := by
  refine ⟨_, gridNeighbors_eq (Or.inl rfl) 1 false false true, ?_, by decide +kernel⟩
  refine ⟨by decide, ?_, ?_, by simp⟩
  · intro i hi
    have : i < 2 := hi
    interval_cases i <;> decide
  · right; decide

/-- **C36 is violated** for `order = 2` with `output_unique=True`: cell 12 of a `5 × 5` grid is reached from itself in two steps and is listed in
its column; cell 0 is reached from itself in two steps but is not listed in its column. -/
theorem C36_order2_unique_violated : ∃ N, gridNeighbors [5, 5] 2 false false true = some N ∧
    (12 : ℤ) ∈ N.map (fun f => f 12) ∧ (0 : ℤ) ∉ N.map (fun f => f 0) ∧ Walk (IsNbr [5, 5] false false) 2 0 0 := by
  refine ⟨_, gridNeighbors_eq (Or.inl rfl) 2 false false true, by decide +kernel, by decide +kernel, ?_⟩
  refine ⟨1, ?_, 0, ?_, rfl⟩ <;>
  · refine ⟨by decide, ?_, ?_, by simp⟩
    · intro i hi
      have : i < 2 := hi
      interval_cases i <;> decide
    · right; decide

/-- **C36** order two with duplicates removed, on a grid with at least five cells in every direction, in 2D or without diagonals: column `c` lists
exactly the other cells within two steps.  (Whether `c` itself is listed differs from cell to cell, `C36_order2_unique_violated`.) -/
theorem C36_order2_unique (gs : List ℕ) (diag self : Bool) (hg : gs.length = 2 ∨ gs.length = 3 ∧ diag = false) (h5 : ∀ g ∈ gs, 5 ≤ g) :
    ∃ N, gridNeighbors gs 2 diag self true = some N ∧
      ∀ c, c < gs.prod → ∀ d : ℕ, d ≠ c → ((d : ℤ) ∈ N.map (fun f => f c) ↔
        IsNbr gs diag self c d ∨ ∃ e, IsNbr gs diag self c e ∧ IsNbr gs diag self e d) := by
  have hg' : gs.length = 2 ∨ gs.length = 3 := hg.imp id And.left
  obtain ⟨N, hN, hs⟩ := C36_unique_sound gs hg' 2 diag self
  refine ⟨N, hN, fun c hc d hne => ?_⟩
  constructor
  · intro hd
    obtain ⟨k, k1, k2, hw⟩ := hs c hc d hd
    norm_num at k2
    interval_cases k
    · obtain ⟨e, he, rfl⟩ := hw; exact Or.inl he
    · obtain ⟨e, he, f, hf, rfl⟩ := hw; exact Or.inr ⟨e, he, hf⟩
  · intro h
    rw [gridNeighbors_eq hg'] at hN
    obtain rfl := Option.some.inj hN
    rw [mem_out]
    simp only [if_true, show 2 - 1 = 1 from rfl, gnLoop, gnStep_paths]
    refine select_complete h5 _ (gpaths_wf (gnOffs_small hg' diag self)) ?_ hc hne ?_
    · unfold gnOffs
      rcases hg with h | ⟨h, rfl⟩
      · rw [if_pos h]; exact firstOk2 diag self
      · rw [if_neg (by omega)]; exact firstOk3 self
    · rw [← gnStep_paths, Rel_step]
      rcases h with h | ⟨e, h1, h2⟩
      · exact Or.inl ((Rel_nbr hg' hc).mpr h)
      · exact Or.inr ⟨e, (Rel_nbr hg' hc).mpr h1, (Rel_nbr hg' h1.1).mpr h2⟩

/-- the hypotheses are met by a `5 × 5` grid: the cells within two steps of cell 7 (and itself) -/
example : (gridNeighbors [5, 5] 2 false false true).map (fun N => N.map (fun f => f 7)) =
    some [7, 8, 9, 5, 6, 12, 13, 11, 17, -1, 2, 3, 1] := by decide +kernel

/-- **C36 is violated** in 3D with diagonals for `order = 2`, `output_unique=True`: cell 60, at offset `(0,2,2)` from cell 0, is within two steps
but not listed — the row kept for this offset goes through the offset `(-1,1,1)`, which is out of bounds at cell 0. -/
theorem C36_order2_diagonal_violated : ∃ N, gridNeighbors [5, 5, 5] 2 true false true = some N ∧
    (60 : ℤ) ∉ N.map (fun f => f 0) ∧ IsNbr [5, 5, 5] true false 0 30 ∧ IsNbr [5, 5, 5] true false 30 60 := by
  refine ⟨_, gridNeighbors_eq (Or.inr rfl) 2 true false true, by decide +kernel, ?_, ?_⟩ <;>
  · refine ⟨by decide, ?_, by simp, by simp⟩
    intro i hi
    have : i < 3 := hi
    interval_cases i <;> decide

end Gpy
