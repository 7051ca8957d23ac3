import Verif.Model.Elasticity

/-! Products of block matrices with vectors. -/

set_option autoImplicit false
namespace Gpy
open Np Finset

theorem hstack2_eq {A B : Csr ℝ} (h : B.nrows = A.nrows) :
    hstackCsr [A, B] = some ⟨A.nrows, A.ncols + B.ncols, A.trip ++ B.trip.map (fun t => (t.1, A.ncols + t.2.1, t.2.2))⟩ := by
  simp [hstackCsr, h]

theorem vstack2_eq {A B : Csr ℝ} (h : B.ncols = A.ncols) :
    vstackCsr [A, B] = some ⟨A.nrows + B.nrows, A.ncols, A.trip ++ B.trip.map (fun t => (A.nrows + t.1, t.2.1, t.2.2))⟩ := by
  simp [vstackCsr, h]

theorem hstack2 {A B : Csr ℝ} (hA : A.WF) (hB : B.WF) (h : B.nrows = A.nrows) :
    ∃ M, hstackCsr [A, B] = some M ∧ M.WF ∧ M.nrows = A.nrows ∧ M.ncols = A.ncols + B.ncols ∧ ∀ u i, M.mulVec u i = A.mulVec u i + B.mulVec (fun j => u (A.ncols + j)) i := by
  have hw : (⟨A.nrows, A.ncols + B.ncols, A.trip ++ B.trip.map (fun t => (t.1, A.ncols + t.2.1, t.2.2))⟩ : Csr ℝ).WF := by
    intro t ht
    rcases List.mem_append.mp ht with ht | ht
    · obtain ⟨h1, h2⟩ := hA t ht; exact ⟨h1, by simp only; omega⟩
    · obtain ⟨s, hs, rfl⟩ := List.mem_map.mp ht
      obtain ⟨h1, h2⟩ := hB s hs; exact ⟨by simp only; omega, by simp only; omega⟩
  refine ⟨_, hstack2_eq h, hw, rfl, rfl, fun u i => ?_⟩
  rw [mulVec_eq _ hw, mulVec_eq _ hA, mulVec_eq _ hB]
  simp [List.map_map, Function.comp_def]

theorem vstack2 {A B : Csr ℝ} (hA : A.WF) (hB : B.WF) (h : B.ncols = A.ncols) :
    ∃ M, vstackCsr [A, B] = some M ∧ M.WF ∧ M.nrows = A.nrows + B.nrows ∧ M.ncols = A.ncols ∧
      (∀ u i, i < A.nrows → M.mulVec u i = A.mulVec u i) ∧ ∀ u i, M.mulVec u (A.nrows + i) = B.mulVec u i := by
  have hw : (⟨A.nrows + B.nrows, A.ncols, A.trip ++ B.trip.map (fun t => (A.nrows + t.1, t.2.1, t.2.2))⟩ : Csr ℝ).WF := by
    intro t ht
    rcases List.mem_append.mp ht with ht | ht
    · obtain ⟨h1, h2⟩ := hA t ht; exact ⟨by simp only; omega, h2⟩
    · obtain ⟨s, hs, rfl⟩ := List.mem_map.mp ht
      obtain ⟨h1, h2⟩ := hB s hs; exact ⟨by simp only; omega, by simp only; omega⟩
  refine ⟨_, vstack2_eq h, hw, rfl, rfl, fun u i hi => ?_, fun u i => ?_⟩
  · rw [mulVec_eq _ hw, mulVec_eq _ hA]
    simp only [List.map_append, List.sum_append, List.map_map, Function.comp_def]
    have : (B.trip.map (fun t => if A.nrows + t.1 = i then t.2.2 * u t.2.1 else 0)).sum = 0 := by
      apply List.sum_eq_zero
      intro x hx
      obtain ⟨t, _, rfl⟩ := List.mem_map.mp hx
      exact if_neg (by omega)
    rw [this, add_zero]
  · rw [mulVec_eq _ hw, mulVec_eq _ hB]
    simp only [List.map_append, List.sum_append, List.map_map, Function.comp_def, Nat.add_left_cancel_iff]
    have : (A.trip.map (fun t => if t.1 = A.nrows + i then t.2.2 * u t.2.1 else 0)).sum = 0 := by
      apply List.sum_eq_zero
      intro x hx
      obtain ⟨t, ht, rfl⟩ := List.mem_map.mp hx
      have := (hA t ht).1
      exact if_neg (by omega)
    rw [this, zero_add]

theorem hstack3 {A B C : Csr ℝ} (hA : A.WF) (hB : B.WF) (hC : C.WF) (h : B.nrows = A.nrows) (h' : C.nrows = A.nrows) :
    ∃ M, hstackCsr [A, B, C] = some M ∧ M.WF ∧ M.nrows = A.nrows ∧ M.ncols = A.ncols + B.ncols + C.ncols ∧
      ∀ u i, M.mulVec u i = A.mulVec u i + B.mulVec (fun j => u (A.ncols + j)) i + C.mulVec (fun j => u (A.ncols + B.ncols + j)) i := by
  obtain ⟨M, e, w, r, c, hm⟩ := hstack2 hA hB h
  obtain ⟨N, e', w', r', c', hn⟩ := hstack2 w hC (h'.trans r.symm)
  have e3 : hstackCsr [A, B, C] = hstackCsr [M, C] := by
    rw [hstack2_eq h] at e
    obtain rfl := Option.some.inj e
    simp [hstackCsr, h]
  refine ⟨N, e3.trans e', w', r'.trans r, by rw [c', c], fun u i => ?_⟩
  rw [hn, hm, c]

theorem vstack3 {A B C : Csr ℝ} (hA : A.WF) (hB : B.WF) (hC : C.WF) (h : B.ncols = A.ncols) (h' : C.ncols = A.ncols) :
    ∃ M, vstackCsr [A, B, C] = some M ∧ M.WF ∧ M.nrows = A.nrows + B.nrows + C.nrows ∧ M.ncols = A.ncols ∧
      (∀ u i, i < A.nrows → M.mulVec u i = A.mulVec u i) ∧ (∀ u i, i < B.nrows → M.mulVec u (A.nrows + i) = B.mulVec u i) ∧
      ∀ u i, M.mulVec u (A.nrows + B.nrows + i) = C.mulVec u i := by
  obtain ⟨M, e, w, r, c, h1, h2⟩ := vstack2 hA hB h
  obtain ⟨N, e', w', r', c', h1', h2'⟩ := vstack2 w hC (h'.trans c.symm)
  have e3 : vstackCsr [A, B, C] = vstackCsr [M, C] := by
    rw [vstack2_eq h] at e
    obtain rfl := Option.some.inj e
    simp [vstackCsr, h]
  refine ⟨N, e3.trans e', w', by rw [r', r], c'.trans c, fun u i hi => ?_, fun u i hi => ?_, fun u i => ?_⟩
  · rw [h1' u i (by omega), h1 u i hi]
  · rw [h1' u _ (by omega), h2 u i]
  · rw [← r, h2']

theorem csrRows_spec {G : Csr ℝ} (hG : G.WF) {a b : ℕ} (hb : b ≤ G.nrows) :
    (csrRows G a b).WF ∧ (csrRows G a b).nrows = b - a ∧ (csrRows G a b).ncols = G.ncols ∧ ∀ u i, a + i < b → (csrRows G a b).mulVec u i = G.mulVec u (a + i) := by
  have hw : (csrRows G a b).WF := by
    intro t ht
    obtain ⟨s, hs, rfl⟩ := List.mem_map.mp ht
    rw [List.mem_filter, decide_eq_true_eq] at hs
    obtain ⟨h1, h2⟩ := hG s hs.1
    exact ⟨by simp only [csrRows]; omega, h2⟩
  refine ⟨hw, by simp [csrRows, hb], rfl, fun u i hi => ?_⟩
  rw [mulVec_eq _ hw, mulVec_eq _ hG]
  simp only [csrRows, List.map_map]
  have : ∀ l : List (ℕ × ℕ × ℝ), ((l.filter (fun t => decide (a ≤ t.1 ∧ t.1 < b))).map ((fun t : ℕ × ℕ × ℝ => if t.1 = i then t.2.2 * u t.2.1 else 0) ∘ fun t => (t.1 - a, t.2.1, t.2.2))).sum =
      (l.map (fun t => if t.1 = a + i then t.2.2 * u t.2.1 else 0)).sum := by
    intro l
    induction l with
    | nil => rfl
    | cons t l ih =>
      rw [List.map_cons, List.sum_cons, ← ih]
      by_cases h : a ≤ t.1 ∧ t.1 < b
      · rw [List.filter_cons_of_pos (by simpa using h), List.map_cons, List.sum_cons]
        congr 1
        simp only [Function.comp]
        exact if_congr (by omega) rfl rfl
      · rw [List.filter_cons_of_neg (by simpa using h), if_neg (by omega), zero_add]
  exact this G.trip

theorem csrCols_all {G : Csr ℝ} (hG : G.WF) {b : ℕ} (hb : G.ncols ≤ b) : csrCols G b = G := by
  unfold csrCols
  rw [List.filter_eq_self.mpr (fun t ht => by have := (hG t ht).2; simp only [decide_eq_true_eq]; omega), min_eq_right hb]

theorem csrEye_spec (s : ℝ) (m : ℕ) : (csrEye s m).WF ∧ ∀ u i, i < m → (csrEye s m).mulVec u i = s * u i := by
  have hw : (csrEye s m).WF := by
    intro t ht
    obtain ⟨i, hi, rfl⟩ := List.mem_map.mp ht
    exact ⟨List.mem_range.mp hi, List.mem_range.mp hi⟩
  refine ⟨hw, fun u i hi => ?_⟩
  rw [mulVec_eq _ hw]
  simp only [csrEye, List.map_map, Function.comp_def]
  have e : (List.map (fun x => if x = i then s * u x else 0) (List.range m)).sum = ∑ x ∈ range m, (if x = i then s * u x else 0) := rfl
  rw [e, Finset.sum_ite_eq' (range m) i, if_pos (Finset.mem_range.mpr hi)]

theorem diags_mulVec (d : List ℝ) (u : ℕ → ℝ) {i : ℕ} (hi : i < d.length) : (Csr.diags d).mulVec u i = d.getD i 0 * u i := by
  unfold Csr.mulVec
  rw [Finset.sum_eq_single i]
  · rw [getElem?_diags_get, if_pos rfl, List.getD_eq_getElem?_getD]
  · intro j _ hj
    rw [getElem?_diags_get, if_neg (fun h => hj h.symm), zero_mul]
  · intro h
    exact absurd (Finset.mem_range.mpr hi) h

theorem blockDiag2_spec {A B : Csr ℝ} (hA : A.WF) (hB : B.WF) :
    (blockDiag2 A B).WF ∧ (blockDiag2 A B).nrows = A.nrows + B.nrows ∧ (blockDiag2 A B).ncols = A.ncols + B.ncols ∧
      (∀ u i, i < A.nrows → (blockDiag2 A B).mulVec u i = A.mulVec u i) ∧ ∀ u i, (blockDiag2 A B).mulVec u (A.nrows + i) = B.mulVec (fun j => u (A.ncols + j)) i := by
  have hw : (blockDiag2 A B).WF := by
    intro t ht
    rcases List.mem_append.mp ht with ht | ht
    · obtain ⟨h1, h2⟩ := hA t ht; exact ⟨by simp only [blockDiag2]; omega, by simp only [blockDiag2]; omega⟩
    · obtain ⟨s, hs, rfl⟩ := List.mem_map.mp ht
      obtain ⟨h1, h2⟩ := hB s hs; exact ⟨by simp only [blockDiag2]; omega, by simp only [blockDiag2]; omega⟩
  refine ⟨hw, rfl, rfl, fun u i hi => ?_, fun u i => ?_⟩
  · rw [mulVec_eq _ hw, mulVec_eq _ hA]
    simp only [blockDiag2, List.map_append, List.sum_append, List.map_map, Function.comp_def]
    have : (B.trip.map (fun t => if A.nrows + t.1 = i then t.2.2 * u (A.ncols + t.2.1) else 0)).sum = 0 := by
      apply List.sum_eq_zero
      intro x hx
      obtain ⟨t, _, rfl⟩ := List.mem_map.mp hx
      exact if_neg (by omega)
    rw [this, add_zero]
  · rw [mulVec_eq _ hw, mulVec_eq _ hB]
    simp only [blockDiag2, List.map_append, List.sum_append, List.map_map, Function.comp_def, Nat.add_left_cancel_iff]
    have : (A.trip.map (fun t => if t.1 = A.nrows + i then t.2.2 * u t.2.1 else 0)).sum = 0 := by
      apply List.sum_eq_zero
      intro x hx
      obtain ⟨t, ht, rfl⟩ := List.mem_map.mp hx
      have := (hA t ht).1
      exact if_neg (by omega)
    rw [this, zero_add]

end Gpy
