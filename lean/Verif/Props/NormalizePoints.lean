import Verif.Model.NormalizePoints
import Verif.Proofs.Aabb

/-! C47: `normalize_points`. -/

set_option autoImplicit false
namespace Gpy

variable {d : ℕ}

theorem foldl_max_mem : ∀ (xs : List ℝ) (x : ℝ), (∀ y ∈ x :: xs, y ≤ xs.foldl max x) ∧ xs.foldl max x ∈ x :: xs
  | [], x => by simp
  | a :: xs, x => by
    obtain ⟨h1, h2⟩ := foldl_max_mem xs (max x a)
    rw [List.foldl_cons]
    constructor
    · intro y hy
      rw [List.mem_cons, List.mem_cons] at hy
      have hm := h1 (max x a) (by simp)
      rcases hy with rfl | rfl | hy
      · exact le_trans (le_max_left _ _) hm
      · exact le_trans (le_max_right _ _) hm
      · exact h1 y (by simp [hy])
    · rw [List.mem_cons] at h2
      rcases h2 with h2 | h2
      · rw [h2]
        rcases max_choice x a with h | h <;> rw [h] <;> simp
      · simp [h2]

theorem npMaxAll_spec {v : List (Pt d)} {p : Pt d} (hp : p ∈ v) (j : Fin d) :
    ∃ m, npMaxAll v = some m ∧ (∀ q ∈ v, ∀ j, q j ≤ m) ∧ ∃ q ∈ v, ∃ j, q j = m := by
  unfold npMaxAll
  have hmem : ∀ q ∈ v, ∀ j, q j ∈ v.flatMap (fun p => (List.finRange d).map p) := by
    intro q hq j
    rw [List.mem_flatMap]
    exact ⟨q, hq, List.mem_map.mpr ⟨j, List.mem_finRange j, rfl⟩⟩
  have hinv : ∀ y ∈ v.flatMap (fun p => (List.finRange d).map p), ∃ q ∈ v, ∃ j, q j = y := by
    intro y hy
    rw [List.mem_flatMap] at hy
    obtain ⟨q, hq, hy⟩ := hy
    obtain ⟨j, _, rfl⟩ := List.mem_map.mp hy
    exact ⟨q, hq, j, rfl⟩
  cases hl : v.flatMap (fun p => (List.finRange d).map p) with
  | nil => have := hmem p hp j; rw [hl] at this; cases this
  | cons x xs =>
    rw [hl] at hmem hinv
    obtain ⟨h1, h2⟩ := foldl_max_mem xs x
    exact ⟨_, rfl, fun q hq j => h1 _ (hmem q hq j), hinv _ h2⟩

/-- **C47** for every set of at least two distinct points the function returns the image of the points under a similarity `p ↦ s·p + t`, `s > 0`; it lies in
the unit box around the center, is centred in every direction (the extreme coordinates are opposite), and its extent in some direction is exactly one. -/
theorem C47_unit_box {v : List (Pt d)} {p q : Pt d} (hp : p ∈ v) (hq : q ∈ v) (hpq : p ≠ q) (center : Option (Pt d)) :
    ∃ u caller, normalizePoints v center = some (u, caller) ∧
      (∃ (s : ℝ) (t : Pt d), 0 < s ∧ u = v.map (fun x => (fun j => s * x j + t j : Pt d))) ∧
      ∃ m : Pt d, (∀ j, 0 ≤ m j ∧ m j ≤ 1 / 2) ∧ (∃ j, m j = 1 / 2) ∧
        (∀ x ∈ u, ∀ j, |x j - (center.getD 0) j| ≤ m j) ∧
        (∀ j, ∃ x ∈ u, x j - (center.getD 0) j = m j) ∧ (∀ j, ∃ x ∈ u, x j - (center.getD 0) j = -m j) := by
  have hne : v ≠ [] := List.ne_nil_of_mem hp
  obtain ⟨lo, elo, hlo1, hlo2⟩ := npAmin_spec hne
  obtain ⟨j0, hj0⟩ : ∃ j, p j ≠ q j := by
    by_contra h
    push Not at h
    exact hpq (funext h)
  unfold normalizePoints
  rw [elo]
  simp only [Option.bind_eq_bind, Option.bind_some]
  set v1 := v.map (fun p => (fun j => p j - lo j : Pt d)) with hv1
  have mem1 : ∀ x ∈ v, (fun j => x j - lo j : Pt d) ∈ v1 := fun x hx => List.mem_map.mpr ⟨x, hx, rfl⟩
  obtain ⟨mx, emx, hmx1, y0, hy0, jm, hjm⟩ := npMaxAll_spec (mem1 p hp) j0
  have hpos : 0 < mx := by
    rcases lt_or_gt_of_ne hj0 with h | h
    · have := hmx1 _ (mem1 q hq) j0
      have := hlo1 p hp j0
      linarith
    · have := hmx1 _ (mem1 p hp) j0
      have := hlo1 q hq j0
      linarith
  rw [emx]
  simp only [Option.bind_some]
  rw [if_neg hpos.ne']
  set v2 := v1.map (fun p => (fun j => p j / mx : Pt d)) with hv2
  have hne2 : v2 ≠ [] := by rw [hv2, hv1]; simpa using hne
  obtain ⟨hi, ehi, hhi1, hhi2⟩ := npAmax_spec hne2
  rw [ehi]
  simp only [Option.bind_some]
  -- facts about the points after scaling
  have mem2 : ∀ y ∈ v2, ∀ j, 0 ≤ y j ∧ y j ≤ 1 := by
    intro y hy j
    obtain ⟨z, hz, rfl⟩ := List.mem_map.mp hy
    have h1 := hmx1 z hz j
    obtain ⟨x, hx, rfl⟩ := List.mem_map.mp hz
    have h2 := hlo1 x hx j
    exact ⟨div_nonneg (by simp only; linarith) hpos.le, by rw [div_le_one hpos]; exact h1⟩
  have zero2 : ∀ j, ∃ y ∈ v2, y j = 0 := by
    intro j
    obtain ⟨x, hx, e⟩ := hlo2 j
    exact ⟨_, List.mem_map.mpr ⟨_, mem1 x hx, rfl⟩, by simp [e]⟩
  have hhi0 : ∀ j, 0 ≤ hi j ∧ hi j ≤ 1 := by
    intro j
    obtain ⟨y, hy, e⟩ := hhi2 j
    rw [← e]; exact mem2 y hy j
  have hhim : hi jm = 1 := by
    apply le_antisymm (hhi0 jm).2
    have := hhi1 _ (List.mem_map.mpr ⟨y0, hy0, rfl⟩ : (fun j => y0 j / mx : Pt d) ∈ v2) jm
    simp only [hjm, div_self hpos.ne'] at this
    exact this
  -- the result, uniformly in `center`
  have hres : addCenter (v2.map (fun p => (fun j => p j - 0.5 * hi j : Pt d))) center =
      v2.map (fun p => (fun j => p j - 0.5 * hi j + (center.getD 0) j : Pt d)) := by
    unfold addCenter
    cases center with
    | none => simp
    | some c => simp [Function.comp_def]
  refine ⟨_, _, rfl, ?_⟩
  rw [hres]
  refine ⟨⟨1 / mx, fun j => -lo j / mx - 0.5 * hi j + (center.getD 0) j, by positivity, ?_⟩, fun j => hi j / 2, ?_, ⟨jm, by simp [hhim]⟩, ?_, ?_, ?_⟩
  · rw [hv2, hv1, List.map_map, List.map_map]
    apply List.map_congr_left
    intro x _
    funext j
    simp only [Function.comp_apply]
    ring
  · intro j; constructor <;> linarith [(hhi0 j).1, (hhi0 j).2]
  · intro x hx j
    obtain ⟨y, hy, rfl⟩ := List.mem_map.mp hx
    have h1 := (mem2 y hy j).1
    have h2 := hhi1 y hy j
    simp only
    rw [abs_le]
    constructor <;> norm_num <;> linarith
  · intro j
    obtain ⟨y, hy, e⟩ := hhi2 j
    exact ⟨_, List.mem_map.mpr ⟨y, hy, rfl⟩, by simp only [e]; ring⟩
  · intro j
    obtain ⟨y, hy, e⟩ := zero2 j
    exact ⟨_, List.mem_map.mpr ⟨y, hy, rfl⟩, by simp only [e]; ring⟩

/-- The array passed by the caller is overwritten: after the call its columns start at zero, so it is unchanged only if they did before. -/
theorem C47_overwrites_argument {v u caller : List (Pt d)} {center : Option (Pt d)} (h : normalizePoints v center = some (u, caller)) :
    (∀ j, ∃ x ∈ caller, x j = 0) ∧ (caller = v → ∀ j, ∃ x ∈ v, x j = 0) := by
  unfold normalizePoints at h
  cases hl : npAmin v with
  | none => rw [hl] at h; cases h
  | some lo =>
    have hne : v ≠ [] := by rintro rfl; simp [npAmin] at hl
    obtain ⟨lo', elo, hlo1, hlo2⟩ := npAmin_spec hne
    rw [hl] at elo
    cases elo
    rw [hl] at h
    simp only [Option.bind_eq_bind, Option.bind_some] at h
    obtain ⟨mx, _, h⟩ := Option.bind_eq_some_iff.mp h
    split at h
    · cases h
    · obtain ⟨hi, _, h⟩ := Option.bind_eq_some_iff.mp h
      simp only [Option.some.injEq, Prod.mk.injEq] at h
      have h0 : ∀ j, ∃ x ∈ caller, x j = 0 := by
        intro j
        obtain ⟨x, hx, e⟩ := hlo2 j
        rw [← h.2]
        exact ⟨_, List.mem_map.mpr ⟨x, hx, rfl⟩, by simp [e]⟩
      exact ⟨h0, fun e => by rw [e] at h0; exact h0⟩

end Gpy
