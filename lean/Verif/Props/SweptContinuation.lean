import Verif.Model.SweptContinuation
import Verif.Props.SweptDescent
import Mathlib.Data.List.Nodup
import Mathlib.Data.Nat.Bitwise
import Mathlib.Tactic.IntervalCases
import Mathlib.Algebra.Order.BigOperators.Group.List
import Mathlib.Data.Sign.Basic
import Mathlib.Tactic.Module

/-! # C117: the grid of cubes the continuation of `swept_volume` builds -/

set_option autoImplicit false
set_option linter.unusedSimpArgs false
set_option linter.unusedVariables false
namespace Gpy.Cont

open Gpy.Descent

/-! ## The tables -/

theorem pairs_spec : ∀ n < 30, ∀ p ∈ pairs n, p.1 < 8 ∧ 0 ≤ p.2 ∧ p.2.toNat < 8 ∧
    neighbors.getD n 0 + neighbors.getD n 0 + corners.getD p.2.toNat 0 = corners.getD p.1 0 := by decide +kernel

theorem pairs_complete : ∀ a < 8, ∀ b < 8, ∃ n < 30, ∃ p ∈ pairs n, p.1 = a ∧
    neighbors.getD n 0 + neighbors.getD n 0 + corners.getD b 0 = corners.getD a 0 := by decide +kernel

theorem zv_spec : ∀ n < 30, ∀ a < 8, (zv.getD n 0).testBit a = true ↔ ∃ p ∈ pairs n, p.1 = a := by decide +kernel

theorem corners_inj : ∀ a < 8, ∀ b < 8, corners.getD a 0 = corners.getD b 0 → a = b := by decide +kernel

theorem self_pairs : ∀ a < 8, ∃ n < 30, neighbors.getD n 0 = 0 ∧ ∃ p ∈ pairs n, p.1 = a := by decide +kernel

noncomputable section
open Classical

/-! ## Positions -/

theorem cast_inj (u v : Vox) (h : cast u = cast v) : u = v := by
  have h0 := congrFun h 0
  have h1 := congrFun h 1
  have h2 := congrFun h 2
  simp only [cast, Matrix.cons_val_zero, Matrix.cons_val_one, Matrix.cons_val] at h0 h1 h2
  refine Prod.ext (by exact_mod_cast h0) (Prod.ext (by exact_mod_cast h1) (by exact_mod_cast h2))

theorem cast_add (u v : Vox) : cast (u + v) = cast u + cast v := by
  unfold cast
  funext k
  fin_cases k <;> simp

theorem cornerPos_eq (p0 : Fin 3 → ℝ) (eps : ℝ) (pi : Vox) (i : ℕ) :
    cornerPos p0 eps pi i = p0 + (1 / 2 * eps) • cast (pi + pi + corners.getD i 0) := by
  unfold cornerPos
  rw [cast_add, cast_add]
  module

theorem cornerPos_inj (p0 : Fin 3 → ℝ) (eps : ℝ) (he : 0 < eps) (pi pi' : Vox) (i i' : ℕ) (h : cornerPos p0 eps pi i = cornerPos p0 eps pi' i') :
    pi + pi + corners.getD i 0 = pi' + pi' + corners.getD i' 0 := by
  rw [cornerPos_eq, cornerPos_eq] at h
  apply cast_inj
  have := add_left_cancel h
  exact smul_right_injective _ (by positivity : (1 / 2 * eps : ℝ) ≠ 0) this

theorem cornerPos_inj' (p0 : Fin 3 → ℝ) (eps : ℝ) (he : 0 < eps) (pi : Vox) (i i' : ℕ) (hi : i < 8) (hi' : i' < 8) (h : cornerPos p0 eps pi i = cornerPos p0 eps pi i') : i = i' := by
  have := cornerPos_inj p0 eps he pi pi i i' h
  exact corners_inj i hi i' hi' (add_left_cancel this)

/-! ## Invariant -/

/-- the cubes and vertices fit together -/
structure Mesh (p0 : Fin 3 → ℝ) (eps : ℝ) (st : St) : Prop where
  len_cs : st.cs.length = st.cv.length
  len_recs : st.recs.length = st.cv.length
  row : ∀ pi k, st.visited pi = some k → ∃ c, st.ci[k]? = some c ∧ ∀ i < 8, ∃ j, c i = some j ∧ st.cv[j]? = some (cornerPos p0 eps pi i)
  vox : ∀ k < st.ci.length, ∃ pi, st.visited pi = some k
  inj : ∀ pi pi' k, st.visited pi = some k → st.visited pi' = some k → pi = pi'
  nodup : st.cv.Nodup
  used : ∀ j < st.cv.length, ∃ pi k c i, st.visited pi = some k ∧ st.ci[k]? = some c ∧ i < 8 ∧ c i = some j

theorem mem_links (st : St) (pi : Vox) (a : ℕ) (v : Option ℕ) : (a, v) ∈ links st pi ↔
    ∃ n < 30, ∃ k, st.visited (pi + neighbors.getD n 0) = some k ∧ ∃ p ∈ pairs n, p.1 = a ∧ v = (if 0 ≤ p.2 then (st.ci.getD k (fun _ => none)) p.2.toNat else none) := by
  unfold links
  rw [List.mem_flatMap]
  constructor
  · rintro ⟨n, hn, h⟩
    cases hv : st.visited (pi + neighbors.getD n 0) with
    | none => rw [hv] at h; simp at h
    | some k =>
      rw [hv] at h
      simp only [List.mem_map, Prod.mk.injEq] at h
      obtain ⟨p, hp, h1, h2⟩ := h
      exact ⟨n, List.mem_range.mp hn, k, hv, p, hp, h1, h2.symm⟩
  · rintro ⟨n, hn, k, hv, p, hp, h1, h2⟩
    refine ⟨n, List.mem_range.mpr hn, ?_⟩
    rw [hv]
    simp only [List.mem_map, Prod.mk.injEq]
    exact ⟨p, hp, h1, h2.symm⟩

theorem links_spec {p0 : Fin 3 → ℝ} {eps : ℝ} {st : St} (h : Mesh p0 eps st) (pi : Vox) (a : ℕ) (v : Option ℕ) (hl : (a, v) ∈ links st pi) :
    a < 8 ∧ ∃ j, v = some j ∧ st.cv[j]? = some (cornerPos p0 eps pi a) := by
  obtain ⟨n, hn, k, hv, p, hp, rfl, rfl⟩ := (mem_links st pi a v).mp hl
  obtain ⟨h1, h2, h3, h4⟩ := pairs_spec n hn p hp
  obtain ⟨c, hc, hr⟩ := h.row _ k hv
  obtain ⟨j, hj, hcv⟩ := hr p.2.toNat h3
  refine ⟨h1, j, ?_, ?_⟩
  · rw [if_pos h2]
    simp only [List.getD, hc, Option.getD_some]
    exact hj
  · rw [hcv, cornerPos_eq, cornerPos_eq, ← h4]
    congr 4
    abel

theorem links_complete {p0 : Fin 3 → ℝ} {eps : ℝ} (he : 0 < eps) (st : St) (pi pi' : Vox) (k : ℕ) (hv : st.visited pi' = some k) (i i' : ℕ) (hi : i < 8) (hi' : i' < 8)
    (h : cornerPos p0 eps pi i = cornerPos p0 eps pi' i') : ∃ v, (i, v) ∈ links st pi := by
  have h1 := cornerPos_inj p0 eps he pi pi' i i' h
  obtain ⟨n, hn, p, hp, hp1, h2⟩ := pairs_complete i hi i' hi'
  have h3 : pi + neighbors.getD n 0 = pi' := by
    rw [← h2] at h1
    have e1 : pi + pi + (neighbors.getD n 0 + neighbors.getD n 0) = pi' + pi' := by
      have : (pi + pi + (neighbors.getD n 0 + neighbors.getD n 0)) + corners.getD i' 0 = (pi' + pi') + corners.getD i' 0 := by rw [← h1]; abel
      exact add_right_cancel this
    generalize neighbors.getD n 0 = d at e1
    obtain ⟨a1, a2, a3⟩ := pi
    obtain ⟨b1, b2, b3⟩ := pi'
    obtain ⟨d1, d2, d3⟩ := d
    simp only [Prod.mk_add_mk, Prod.mk.injEq] at e1 ⊢
    omega
  refine ⟨_, (mem_links st pi i _).mpr ⟨n, hn, k, by rw [h3]; exact hv, p, hp, hp1, rfl⟩⟩

theorem knownCube_aux (l : List (ℕ × Option ℕ)) (c0 : ℕ → Option ℕ) (a : ℕ) :
    ((∀ v, (a, v) ∉ l) → l.foldl (fun c p => Function.update c p.1 p.2) c0 a = c0 a) ∧
    ((∃ v, (a, v) ∈ l) → (a, l.foldl (fun c p => Function.update c p.1 p.2) c0 a) ∈ l) := by
  induction l generalizing c0 with
  | nil => simp
  | cons p l ih =>
    simp only [List.foldl_cons]
    obtain ⟨h1, h2⟩ := ih (Function.update c0 p.1 p.2)
    constructor
    · intro h
      rw [h1 (fun v hv => h v (List.mem_cons_of_mem _ hv)), Function.update_of_ne]
      rintro rfl
      exact h p.2 (by simp)
    · intro ⟨v, hv⟩
      by_cases h : ∃ v, (a, v) ∈ l
      · exact List.mem_cons_of_mem _ (h2 h)
      · push Not at h
        rw [h1 h]
        rw [List.mem_cons] at hv
        rcases hv with hv | hv
        · subst hv
          simp
        · exact absurd hv (h v)

theorem knownCube_spec {p0 : Fin 3 → ℝ} {eps : ℝ} {st : St} (h : Mesh p0 eps st) (pi : Vox) (a : ℕ) :
    ((∀ v, (a, v) ∉ links st pi) → knownCube (links st pi) a = none) ∧
    (∀ j, knownCube (links st pi) a = some j → (a, some j) ∈ links st pi ∧ a < 8 ∧ st.cv[j]? = some (cornerPos p0 eps pi a)) ∧
    ((∃ v, (a, v) ∈ links st pi) → ∃ j, knownCube (links st pi) a = some j) := by
  obtain ⟨h1, h2⟩ := knownCube_aux (links st pi) (fun _ => none) a
  refine ⟨h1, ?_, ?_⟩
  · intro j hj
    by_cases hv : ∃ v, (a, v) ∈ links st pi
    · have hm := h2 hv
      change (a, knownCube (links st pi) a) ∈ _ at hm
      rw [hj] at hm
      obtain ⟨ha, j', e, hcv⟩ := links_spec h pi a _ hm
      cases e
      exact ⟨hm, ha, hcv⟩
    · push Not at hv
      have := h1 hv
      change knownCube (links st pi) a = none at this
      rw [this] at hj
      exact absurd hj (by simp)
  · intro hv
    have hm := h2 hv
    obtain ⟨ha, j', e, hcv⟩ := links_spec h pi a _ hm
    exact ⟨j', e⟩

theorem mask_spec (st : St) (pi : Vox) (a : ℕ) (ha : a < 8) : (1 <<< a) &&& mask st pi = 0 ↔ ∀ v, (a, v) ∉ links st pi := by
  have key : ∀ (L : List ℕ) (m : ℕ), ((L.foldl (fun m n => if st.visited (pi + neighbors.getD n 0) ≠ none then m ||| zv.getD n 0 else m) m).testBit a = true ↔
      m.testBit a = true ∨ ∃ n ∈ L, st.visited (pi + neighbors.getD n 0) ≠ none ∧ (zv.getD n 0).testBit a = true) := by
    intro L
    induction L with
    | nil => intro m; simp
    | cons n L ih =>
      intro m
      rw [List.foldl_cons, ih]
      by_cases hv : st.visited (pi + neighbors.getD n 0) ≠ none
      · rw [if_pos hv, Nat.testBit_lor, Bool.or_eq_true]
        simp only [List.mem_cons, exists_eq_or_imp]
        tauto
      · rw [if_neg hv]
        simp only [List.mem_cons, exists_eq_or_imp]
        tauto
  have hbit : (1 <<< a) &&& mask st pi = 0 ↔ (mask st pi).testBit a = false := by
    rw [Nat.one_shiftLeft, Nat.and_comm]
    constructor
    · intro h
      by_contra hb
      rw [Bool.not_eq_false] at hb
      have : (mask st pi &&& 2 ^ a).testBit a = true := by rw [Nat.testBit_and, hb, Nat.testBit_two_pow_self]; rfl
      rw [h] at this
      simp at this
    · intro h
      apply Nat.eq_of_testBit_eq
      intro i
      rw [Nat.testBit_and, Nat.testBit_two_pow, Nat.zero_testBit]
      by_cases hi : a = i
      · subst hi; rw [h]; rfl
      · simp [hi]
  rw [hbit, ← Bool.not_eq_true]
  unfold mask
  rw [key]
  simp only [Nat.zero_testBit, Bool.false_eq_true, false_or]
  constructor
  · intro h v hv
    obtain ⟨n, hn, k, hk, p, hp, hp1, -⟩ := (mem_links st pi a v).mp hv
    exact h ⟨n, List.mem_range.mpr hn, by rw [hk]; simp, (zv_spec n hn a ha).mpr ⟨p, hp, hp1⟩⟩
  · rintro h ⟨n, hn, hk, hz⟩
    have hn' := List.mem_range.mp hn
    obtain ⟨p, hp, hp1⟩ := (zv_spec n hn' a ha).mp hz
    obtain ⟨k, hk⟩ := Option.ne_none_iff_exists'.mp hk
    exact h _ ((mem_links st pi a _).mpr ⟨n, hn', k, hk, p, hp, hp1, rfl⟩)

/-! ## Adding the corners of a new cube -/

theorem pre_get {α : Type} {l l' : List α} (h : l <+: l') {j : ℕ} {x : α} (hx : l[j]? = some x) : l'[j]? = some x := by
  obtain ⟨t, rfl⟩ := h
  rw [List.getElem?_append_left (List.getElem?_eq_some_iff.mp hx).1, hx]

theorem pre_get' {α : Type} {l l' : List α} (h : l <+: l') {j : ℕ} (hj : j < l.length) : l'[j]? = l[j]? := by
  obtain ⟨t, rfl⟩ := h
  rw [List.getElem?_append_left hj]

theorem add_corners {p0 : Fin 3 → ℝ} {eps : ℝ} (he : 0 < eps) (pi : Vox) (m : ℕ) (scal : ℕ → ℝ) (fresh : ℕ → List Rec) (s : St) (cube : ℕ → Option ℕ)
    (hlen : s.cs.length = s.cv.length) (hrec : s.recs.length = s.cv.length) (hnd : s.cv.Nodup)
    (hold : ∀ i < 8, (1 <<< i) &&& m ≠ 0 → ∃ j, cube i = some j ∧ s.cv[j]? = some (cornerPos p0 eps pi i))
    (hnew : ∀ i < 8, (1 <<< i) &&& m = 0 → cornerPos p0 eps pi i ∉ s.cv) (N : ℕ) (hN : N ≤ 8) :
    ∃ s' c', (List.range N).foldl (addCorner p0 eps pi m scal fresh) (s, cube) = (s', c') ∧
      s'.ci = s.ci ∧ s'.visited = s.visited ∧ s'.stack = s.stack ∧
      s.cv <+: s'.cv ∧ s.cs <+: s'.cs ∧ s.recs <+: s'.recs ∧
      s'.cs.length = s'.cv.length ∧ s'.recs.length = s'.cv.length ∧ s'.cv.Nodup ∧
      (∀ i < N, ∃ j, c' i = some j ∧ s'.cv[j]? = some (cornerPos p0 eps pi i)) ∧ (∀ i, N ≤ i → c' i = cube i) ∧
      (∀ j, s.cv.length ≤ j → j < s'.cv.length → ∃ i < N, (1 <<< i) &&& m = 0 ∧ c' i = some j ∧ s'.cv[j]? = some (cornerPos p0 eps pi i) ∧ s'.cs[j]? = some (scal i) ∧ s'.recs[j]? = some (fresh i)) := by
  induction N with
  | zero => exact ⟨s, cube, rfl, rfl, rfl, rfl, List.prefix_rfl, List.prefix_rfl, List.prefix_rfl, hlen, hrec, hnd, by simp, by simp, by intro j h1 h2; omega⟩
  | succ N ih =>
    obtain ⟨s', c', e, hci, hvi, hst, hpv, hps, hpr, hl1, hl2, hn, hc, hc', hj⟩ := ih (by omega)
    rw [List.range_succ, List.foldl_append, e, List.foldl_cons, List.foldl_nil]
    unfold addCorner
    have hget : ∀ (j : ℕ) (p : Fin 3 → ℝ), s.cv[j]? = some p → s'.cv[j]? = some p := fun j p h => pre_get hpv h
    by_cases hb : (1 <<< N) &&& m = 0
    · rw [if_pos hb]
      refine ⟨_, _, rfl, hci, hvi, hst, hpv.trans (List.prefix_append _ _), hps.trans (List.prefix_append _ _), hpr.trans (List.prefix_append _ _), by simp [hl1], by simp [hl2], ?_, ?_, ?_, ?_⟩
      · simp only
        rw [List.nodup_append]
        refine ⟨hn, by simp, ?_⟩
        intro x hx y hy
        simp only [List.mem_singleton] at hy
        subst hy
        rintro rfl
        obtain ⟨j, hjx⟩ := List.mem_iff_getElem?.mp hx
        by_cases hjl : j < s.cv.length
        · apply hnew N (by omega) hb
          rw [pre_get' hpv hjl] at hjx
          exact List.mem_of_getElem? hjx
        · have hjl' : j < s'.cv.length := by
            by_contra hc
            rw [List.getElem?_eq_none (by omega)] at hjx
            simp at hjx
          obtain ⟨i, hi, -, -, h2, -⟩ := hj j (by omega) hjl'
          rw [hjx] at h2
          have := cornerPos_inj' p0 eps he pi N i (by omega) (by omega) (by simpa using h2)
          omega
      · intro i hi
        by_cases hiN : i = N
        · subst hiN
          refine ⟨s'.cs.length, by simp, ?_⟩
          simp only
          rw [hl1, List.getElem?_concat_length]
        · obtain ⟨j, h1, h2⟩ := hc i (by omega)
          refine ⟨j, by rw [Function.update_of_ne hiN]; exact h1, ?_⟩
          exact pre_get (List.prefix_append _ _) h2
      · intro i hi
        rw [Function.update_of_ne (by omega)]
        exact hc' i (by omega)
      · intro j h1 h2
        simp only [List.length_append, List.length_singleton] at h2
        by_cases hjl : j < s'.cv.length
        · obtain ⟨i, hi, a1, a2, a3, a4, a5⟩ := hj j h1 hjl
          refine ⟨i, by omega, a1, by rw [Function.update_of_ne (by omega)]; exact a2, ?_, ?_, ?_⟩
          · exact pre_get (List.prefix_append _ _) a3
          · exact pre_get (List.prefix_append _ _) a4
          · exact pre_get (List.prefix_append _ _) a5
        · have : j = s'.cv.length := by omega
          subst this
          refine ⟨N, by omega, hb, by simp [hl1], by simp, ?_, ?_⟩
          · simp only
            rw [← hl1, List.getElem?_concat_length]
          · simp only
            rw [← hl2, List.getElem?_concat_length]
    · rw [if_neg hb]
      refine ⟨s', c', rfl, hci, hvi, hst, hpv, hps, hpr, hl1, hl2, hn, ?_, fun i hi => hc' i (by omega), ?_⟩
      · intro i hi
        by_cases hiN : i = N
        · subst hiN
          obtain ⟨j, h1, h2⟩ := hold i (by omega) hb
          exact ⟨j, by rw [hc' i le_rfl]; exact h1, hget _ _ h2⟩
        · exact hc i (by omega)
      · intro j h1 h2
        obtain ⟨i, hi, a⟩ := hj j h1 h2
        exact ⟨i, by omega, a⟩

/-! ## The merge of the values -/

theorem merge_spec (A : (Fin 3 → ℝ) → ℝ → Prop) (cv : List (Fin 3 → ℝ)) (pos : ℕ → Fin 3 → ℝ) (l : List (ℕ × Option ℕ))
    (hl : ∀ p ∈ l, ∃ j, p.2 = some j ∧ cv[j]? = some (pos p.1)) (c : List ℝ × (ℕ → ℝ)) (hlen : c.1.length = cv.length) :
    (l.foldl mergeStep c).1.length = cv.length ∧
    (∀ (j : ℕ) (x : ℝ), c.1[j]? = some x → ∃ y, (l.foldl mergeStep c).1[j]? = some y ∧ y ≤ x) ∧
    (∀ a, (l.foldl mergeStep c).2 a ≤ c.2 a) ∧
    (∀ a j, (a, some j) ∈ l → ∃ y, (l.foldl mergeStep c).1[j]? = some y ∧ y ≤ c.2 a) ∧
    ((∀ (j : ℕ) (p : Fin 3 → ℝ) (x : ℝ), cv[j]? = some p → c.1[j]? = some x → A p x) → (∀ p ∈ l, A (pos p.1) (c.2 p.1)) →
      (∀ (j : ℕ) (p : Fin 3 → ℝ) (y : ℝ), cv[j]? = some p → (l.foldl mergeStep c).1[j]? = some y → A p y) ∧ ∀ p ∈ l, A (pos p.1) ((l.foldl mergeStep c).2 p.1)) ∧
    (∀ a, (∀ v, (a, v) ∉ l) → (l.foldl mergeStep c).2 a = c.2 a) := by
  induction l generalizing c with
  | nil => simp only [List.foldl_nil]; exact ⟨hlen, fun j x h => ⟨x, h, le_rfl⟩, fun a => le_rfl, by simp, fun h1 h2 => ⟨h1, h2⟩, fun _ _ => by trivial⟩
  | cons p l ih =>
    obtain ⟨a, v⟩ := p
    obtain ⟨j0, hj0, hcv0⟩ := hl (a, v) (by simp)
    simp only at hj0 hcv0
    subst hj0
    have hj0l : j0 < cv.length := (List.getElem?_eq_some_iff.mp hcv0).1
    have hj0c : j0 < c.1.length := by omega
    rw [List.foldl_cons]
    have hget0 : c.1.getD j0 0 = c.1[j0] := by simp [List.getD, hj0c]
    have hms : mergeStep c (a, some j0) = (c.1.set j0 (min c.1[j0] (c.2 a)), Function.update c.2 a (min c.1[j0] (c.2 a))) := by
      unfold mergeStep
      simp only [hget0]
    rw [hms]
    set m := min c.1[j0] (c.2 a) with hm
    have hm1 : m ≤ c.1[j0] := min_le_left _ _
    have hm2 : m ≤ c.2 a := min_le_right _ _
    obtain ⟨i1, i2, i3, i4, i5, i6⟩ := ih (fun p hp => hl p (List.mem_cons_of_mem _ hp)) (c.1.set j0 m, Function.update c.2 a m) (by simp [hlen])
    set r := List.foldl mergeStep (c.1.set j0 m, Function.update c.2 a m) l with hr
    have hupd : ∀ b, Function.update c.2 a m b ≤ c.2 b := by
      intro b
      by_cases hb : b = a
      · subst hb; rw [Function.update_self]; exact hm2
      · rw [Function.update_of_ne hb]
    have hset : ∀ j, (c.1.set j0 m)[j]? = if j0 = j then some m else c.1[j]? := by
      intro j
      rw [List.getElem?_set]
      by_cases h : j0 = j
      · subst h; simp [hj0c]
      · simp [h]
    refine ⟨i1, ?_, ?_, ?_, ?_, ?_⟩
    · intro j x hx
      by_cases h : j0 = j
      · subst h
        have hxx : x = c.1[j0] := by rw [List.getElem?_eq_getElem hj0c] at hx; simpa using hx.symm
        obtain ⟨y, hy, hyx⟩ := i2 j0 m (by rw [hset, if_pos rfl])
        exact ⟨y, hy, hyx.trans (hm1.trans hxx.ge)⟩
      · exact i2 j x (by rw [hset, if_neg h]; exact hx)
    · intro b
      exact (i3 b).trans (hupd b)
    · intro b j hb
      rw [List.mem_cons] at hb
      rcases hb with hb | hb
      · simp only [Prod.mk.injEq, Option.some.injEq] at hb
        obtain ⟨rfl, rfl⟩ := hb
        obtain ⟨y, hy, hyx⟩ := i2 j m (by rw [hset, if_pos rfl])
        exact ⟨y, hy, hyx.trans hm2⟩
      · obtain ⟨y, hy, hyx⟩ := i4 b j hb
        exact ⟨y, hy, hyx.trans (hupd b)⟩
    · intro h1 h2
      have hAm : A (pos a) m := by
        have e1 : A (pos a) c.1[j0] := h1 j0 _ _ hcv0 (List.getElem?_eq_getElem hj0c)
        have e2 : A (pos a) (c.2 a) := h2 (a, some j0) (by simp)
        rcases min_choice c.1[j0] (c.2 a) with h | h
        · rw [hm, h]; exact e1
        · rw [hm, h]; exact e2
      obtain ⟨k1, k2⟩ := i5 (by
        intro j p x hp hx
        rw [hset] at hx
        by_cases h : j0 = j
        · subst h
          rw [if_pos rfl] at hx
          rw [hcv0] at hp
          simp only [Option.some.injEq] at hp hx
          subst hp hx
          exact hAm
        · rw [if_neg h] at hx
          exact h1 j p x hp hx) (by
        intro p hp
        by_cases h : p.1 = a
        · simp only [h, Function.update_self]; exact hAm
        · simp only [Function.update_of_ne h]; exact h2 p (List.mem_cons_of_mem _ hp))
      refine ⟨k1, ?_⟩
      intro p hp
      by_cases hpl : ∃ v, (p.1, v) ∈ l
      · obtain ⟨v, hv⟩ := hpl
        exact k2 (p.1, v) hv
      · push Not at hpl
        rw [i6 p.1 hpl]
        by_cases h : p.1 = a
        · simp only [h, Function.update_self]; exact hAm
        · rw [List.mem_cons] at hp
          rcases hp with hp | hp
          · subst hp; exact absurd rfl h
          · exact absurd hp (hpl p.2)
    · intro b hb
      rw [i6 b (fun v hv => hb v (List.mem_cons_of_mem _ hv))]
      simp only
      rw [Function.update_of_ne]
      rintro rfl
      exact hb (some j0) (by simp)

/-! ## The values at the corners -/

/-- what is asked of the function that the continuation evaluates: with a time in `[0,1]` and true records it returns the value of `f` at the point and a time in `[0,1]`, and true records -/
def Sound (f : (Fin 3 → ℝ) → ℝ → ℝ) (scalar : (Fin 3 → ℝ) → ℝ → List Rec → ℝ × ℝ × List Rec) : Prop :=
  ∀ P t recs, 0 ≤ t → t ≤ 1 → Truthful (f P) recs →
    (scalar P t recs).1 = f P (scalar P t recs).2.1 ∧ 0 ≤ (scalar P t recs).2.1 ∧ (scalar P t recs).2.1 ≤ 1 ∧ Truthful (f P) (scalar P t recs).2.2

/-- `x` is the value of `f` at the point, at some time -/
def Attained (f : (Fin 3 → ℝ) → ℝ → ℝ) (P : Fin 3 → ℝ) (x : ℝ) : Prop := ∃ t, 0 ≤ t ∧ t ≤ 1 ∧ x = f P t

theorem better_mem (recs : List Rec) (temp t : ℝ) (h : (better temp recs).2 = some t) : ∃ r ∈ recs, r.arg = t := by
  have key : ∀ (l : List Rec) (a : ℝ × Option ℝ), (l.foldl (fun t r => if r.val + 1 / 1000 < t.1 then (r.val, some r.arg) else t) a).2 = some t → a.2 = some t ∨ ∃ r ∈ l, r.arg = t := by
    intro l
    induction l with
    | nil => intro a h; exact Or.inl h
    | cons r l ih =>
      intro a h
      rw [List.foldl_cons] at h
      rcases ih _ h with h' | ⟨r', hr', e⟩
      · split_ifs at h' with hc
        · simp only [Option.some.injEq] at h'
          exact Or.inr ⟨r, by simp, h'⟩
        · exact Or.inl h'
      · exact Or.inr ⟨r', by simp [hr'], e⟩
  rcases key recs (temp, none) h with h' | h'
  · simp at h'
  · exact h'

theorem truthful_nil (g : ℝ → ℝ) : Truthful g [] := by intro r hr; simp at hr

theorem eval_spec {f : (Fin 3 → ℝ) → ℝ → ℝ} {scalar : (Fin 3 → ℝ) → ℝ → List Rec → ℝ × ℝ × List Rec} (hs : Sound f scalar) (p0 : Fin 3 → ℝ) (eps : ℝ) (it : Item) (h0 : 0 ≤ it.time) (h1 : it.time ≤ 1)
    (cv : List (Fin 3 → ℝ)) (cube : ℕ → Option ℕ) (hcube : ∀ i j, cube i = some j → cv[j]? = some (cornerPos p0 eps it.vox i))
    (recs : List (List Rec)) (stack : List Item) (hlen : recs.length = cv.length) (hrecs : ∀ (j : ℕ) (p : Fin 3 → ℝ) (r : List Rec), cv[j]? = some p → recs[j]? = some r → Truthful (f p) r) (N : ℕ) :
    ∃ e extra, (List.range N).foldl (evalCorner scalar p0 eps it cube) ⟨recs, fun _ => 0, fun _ => 0, fun _ => [], stack⟩ = e ∧
      e.recs.length = cv.length ∧ (∀ (j : ℕ) (p : Fin 3 → ℝ) (r : List Rec), cv[j]? = some p → e.recs[j]? = some r → Truthful (f p) r) ∧
      (∀ i < N, Attained f (cornerPos p0 eps it.vox i) (e.scal i)) ∧ (∀ i < N, 0 ≤ e.am i ∧ e.am i ≤ 1) ∧
      (∀ i < N, cube i = none → Truthful (f (cornerPos p0 eps it.vox i)) (e.fresh i)) ∧
      e.stack = extra ++ stack ∧ extra.length ≤ N ∧ (it.corr ≠ none → extra = []) ∧
      (∀ x ∈ extra, x.vox = it.vox ∧ x.corr = some 1 ∧ 0 ≤ x.time ∧ x.time ≤ 1) := by
  induction N with
  | zero => exact ⟨_, [], rfl, hlen, hrecs, by simp, by simp, by simp, rfl, by simp, by simp, by simp⟩
  | succ N ih =>
    obtain ⟨e, extra, he, a1, a2, a3, a4, a5, a6, a7, a8, a9⟩ := ih
    rw [List.range_succ, List.foldl_append, he, List.foldl_cons, List.foldl_nil]
    unfold evalCorner
    have hup : ∀ {α : Type} (g : ℕ → α) (P : ℕ → α → Prop) (x : α), (∀ i < N, P i (g i)) → P N x → ∀ i < N + 1, P i (Function.update g N x i) := by
      intro α g P x hg hx i hi
      by_cases h : i = N
      · subst h; rw [Function.update_self]; exact hx
      · rw [Function.update_of_ne h]; exact hg i (by omega)
    cases hc : cube N with
    | some v =>
      simp only
      have hv := hcube N v hc
      have hvl : v < e.recs.length := by rw [a1]; exact (List.getElem?_eq_some_iff.mp hv).1
      have hr : Truthful (f (cornerPos p0 eps it.vox N)) (e.recs.getD v []) := by
        simp only [List.getD, List.getElem?_eq_getElem hvl, Option.getD_some]
        exact a2 v _ _ hv (List.getElem?_eq_getElem hvl)
      obtain ⟨b1, b2, b3, b4⟩ := hs (cornerPos p0 eps it.vox N) it.time (e.recs.getD v []) h0 h1 hr
      set r := scalar (cornerPos p0 eps it.vox N) it.time (e.recs.getD v []) with hrdef
      clear_value r
      refine ⟨_, (match it.corr, (better r.1 r.2.2).2 with | none, some t => [⟨it.vox, t, some 1⟩] | _, _ => []) ++ extra, rfl, by simp [a1], ?_, ?_, ?_, ?_, ?_, ?_, ?_, ?_⟩
      · intro j p q hp hq
        rw [List.getElem?_set] at hq
        by_cases h : v = j
        · subst h
          rw [if_pos rfl] at hq
          simp only [hvl, if_true, Option.some.injEq] at hq
          rw [hv] at hp
          simp only [Option.some.injEq] at hp
          subst hp hq
          exact b4
        · rw [if_neg h] at hq
          exact a2 j p q hp hq
      · exact hup e.scal (fun i x => Attained f (cornerPos p0 eps it.vox i) x) r.1 a3 ⟨r.2.1, b2, b3, b1⟩
      · exact hup e.am (fun i x => 0 ≤ x ∧ x ≤ 1) r.2.1 a4 ⟨b2, b3⟩
      · intro i hi hn
        by_cases h : i = N
        · subst h; rw [hc] at hn; simp at hn
        · exact a5 i (by omega) hn
      · cases it.corr <;> cases (better r.1 r.2.2).2 <;> simp [a6]
      · rw [List.length_append]
        split <;> simp <;> omega
      · intro hne
        rw [a8 hne, List.append_nil]
        split
        · rename_i hn _; exact absurd hn hne
        · rfl
      · intro x hx
        rw [List.mem_append] at hx
        rcases hx with hx | hx
        · split at hx
          · rename_i t _ hb
            simp only [List.mem_singleton] at hx
            subst hx
            obtain ⟨q, hq, e⟩ := better_mem _ _ _ hb
            obtain ⟨c1, c2, -⟩ := b4 q hq
            simp only [← e]
            exact ⟨trivial, trivial, c1, c2⟩
          · simp at hx
        · exact a9 x hx
    | none =>
      simp only
      obtain ⟨b1, b2, b3, b4⟩ := hs (cornerPos p0 eps it.vox N) it.time [] h0 h1 (truthful_nil _)
      refine ⟨_, extra, rfl, a1, a2, ?_, ?_, ?_, a6, by omega, a8, a9⟩
      · exact hup e.scal (fun i x => Attained f (cornerPos p0 eps it.vox i) x) _ a3 ⟨_, b2, b3, b1⟩
      · exact hup e.am (fun i x => 0 ≤ x ∧ x ≤ 1) _ a4 ⟨b2, b3⟩
      · exact hup e.fresh (fun i x => cube i = none → Truthful (f (cornerPos p0 eps it.vox i)) x) _ a5 (fun _ => b4)

theorem running_mem (am : ℕ → ℝ) (h : ∀ i < 8, 0 ≤ am i ∧ am i ≤ 1) : 0 ≤ (List.range 8).foldl (fun s i => s + am i / 8) 0 ∧ (List.range 8).foldl (fun s i => s + am i / 8) 0 ≤ 1 := by
  have e : (List.range 8).foldl (fun s i => s + am i / 8) 0 = 0 + am 0 / 8 + am 1 / 8 + am 2 / 8 + am 3 / 8 + am 4 / 8 + am 5 / 8 + am 6 / 8 + am 7 / 8 := rfl
  rw [e]
  have h0 := h 0 (by omega)
  have h1 := h 1 (by omega)
  have h2 := h 2 (by omega)
  have h3 := h 3 (by omega)
  have h4 := h 4 (by omega)
  have h5 := h 5 (by omega)
  have h6 := h 6 (by omega)
  have h7 := h 7 (by omega)
  constructor <;> linarith [h0.1, h0.2, h1.1, h1.2, h2.1, h2.2, h3.1, h3.2, h4.1, h4.2, h5.1, h5.2, h6.1, h6.2, h7.1, h7.2]

/-- the voxels that can be reached from the first ones through faces -/
inductive Reach (init : List Vox) : Vox → Prop
  | base (v : Vox) : v ∈ init → Reach init v
  | step (v : Vox) (n : ℕ) : n < 6 → Reach init v → Reach init (v + neighbors.getD n 0)

/-- all of the invariant -/
structure Good (f : (Fin 3 → ℝ) → ℝ → ℝ) (init : List Vox) (p0 : Fin 3 → ℝ) (eps : ℝ) (st : St) : Prop where
  mesh : Mesh p0 eps st
  val : ∀ (j : ℕ) (p : Fin 3 → ℝ) (x : ℝ), st.cv[j]? = some p → st.cs[j]? = some x → Attained f p x
  recd : ∀ (j : ℕ) (p : Fin 3 → ℝ) (r : List Rec), st.cv[j]? = some p → st.recs[j]? = some r → Truthful (f p) r
  time : ∀ x ∈ st.stack, 0 ≤ x.time ∧ x.time ≤ 1
  corr : ∀ x ∈ st.stack, x.corr ≠ none → st.visited x.vox ≠ none
  reach : (∀ v, st.visited v ≠ none → Reach init v) ∧ ∀ x ∈ st.stack, Reach init x.vox

theorem mem_corrections (st : St) (pi : Vox) (scal : ℕ → ℝ) (running : ℝ) (x : Item) (h : x ∈ corrections st pi scal running) :
    ∃ n < 30, ∃ k, st.visited (pi + neighbors.getD n 0) = some k ∧ x = ⟨pi + neighbors.getD n 0, running, some k⟩ ∧
      ∃ p ∈ pairs n, worse (st.cs.getD (((if 0 ≤ p.2 then (st.ci.getD k (fun _ => none)) p.2.toNat else none)).getD 0) 0) (scal p.1) := by
  unfold corrections at h
  rw [List.mem_flatMap] at h
  obtain ⟨n, hn, h⟩ := h
  cases hv : st.visited (pi + neighbors.getD n 0) with
  | none => rw [hv] at h; simp at h
  | some k =>
    rw [hv] at h
    simp only at h
    split_ifs at h with hc
    · simp only [List.mem_singleton] at h
      exact ⟨n, List.mem_range.mp hn, k, hv, h, hc⟩
    · simp at h

theorem mem_spread (st : St) (pi : Vox) (running : ℝ) (x : Item) (h : x ∈ spread st pi running) :
    ∃ n < 6, st.visited (pi + neighbors.getD n 0) = none ∧ x = ⟨pi + neighbors.getD n 0, running, none⟩ := by
  unfold spread at h
  rw [List.mem_flatMap] at h
  obtain ⟨n, hn, h⟩ := h
  split_ifs at h with hc
  · simp only [List.mem_singleton] at h
    exact ⟨n, List.mem_range.mp hn, hc, h⟩
  · simp at h

/-! ## One round -/

/-- what a round does to the queue, the values and the visited voxels (used for the termination) -/
def Effect (f : (Fin 3 → ℝ) → ℝ → ℝ) (p0 : Fin 3 → ℝ) (eps : ℝ) (st : St) (it : Item) (st' : St) : Prop :=
  st' = st ∨
  ∃ extra cor spr : List Item, st'.stack = spr ++ (cor ++ (extra ++ st.stack)) ∧
    extra.length ≤ 8 ∧ (it.corr ≠ none → extra = []) ∧ (∀ x ∈ extra, x.corr ≠ none) ∧ (∀ x ∈ cor, x.corr ≠ none) ∧
    (cor ≠ [] → ∃ (j : ℕ) (x y : ℝ), st.cs[j]? = some x ∧ st'.cs[j]? = some y ∧ ((0 < x ∧ y < 0) ∨ y + 1 / 1000 < x)) ∧
    spr.length ≤ 6 ∧ (∀ x ∈ spr, x.corr = none ∧ st.visited x.vox = none ∧ ∃ n < 6, x.vox = it.vox + neighbors.getD n 0) ∧
    (spr ≠ [] → ∃ i < 8, ∃ t, 0 ≤ t ∧ t ≤ 1 ∧ f (cornerPos p0 eps it.vox i) t ≤ 0) ∧
    ((it.corr = none ∧ st.visited it.vox = none ∧ (∀ v, v ≠ it.vox → st'.visited v = st.visited v) ∧ st'.visited it.vox ≠ none) ∨
      (¬ (it.corr = none ∧ st.visited it.vox = none) ∧ st'.visited = st.visited ∧ st'.cs.length = st.cs.length))

theorem spread_length (st : St) (pi : Vox) (running : ℝ) : (spread st pi running).length ≤ 6 := by
  unfold spread
  rw [List.length_flatMap]
  have : ∀ x ∈ (List.range 6).map (fun n => (if st.visited (pi + neighbors.getD n 0) = none then [(⟨pi + neighbors.getD n 0, running, none⟩ : Item)] else []).length), x ≤ 1 := by
    intro x hx
    rw [List.mem_map] at hx
    obtain ⟨n, -, rfl⟩ := hx
    split_ifs <;> simp
  have h := List.sum_le_card_nsmul _ 1 this
  simpa using h

/-- what one round does, for the entry `it` with `st` the state without it -/
theorem round_spec {f : (Fin 3 → ℝ) → ℝ → ℝ} {scalar : (Fin 3 → ℝ) → ℝ → List Rec → ℝ × ℝ × List Rec} (hs : Sound f scalar) (init : List Vox) (p0 : Fin 3 → ℝ) (eps : ℝ) (he : 0 < eps) (st : St) (it : Item)
    (hg : Good f init p0 eps { st with stack := it :: st.stack }) :
    Good f init p0 eps (round scalar p0 eps st it) ∧ st.cv <+: (round scalar p0 eps st it).cv ∧ st.ci <+: (round scalar p0 eps st it).ci ∧
    (∀ (j : ℕ) (x : ℝ), st.cs[j]? = some x → ∃ y, (round scalar p0 eps st it).cs[j]? = some y ∧ y ≤ x) ∧
    (∀ v k, st.visited v = some k → (round scalar p0 eps st it).visited v = some k) ∧
    Effect f p0 eps st it (round scalar p0 eps st it) := by
  have hmesh : Mesh p0 eps st := ⟨hg.mesh.len_cs, hg.mesh.len_recs, hg.mesh.row, hg.mesh.vox, hg.mesh.inj, hg.mesh.nodup, hg.mesh.used⟩
  have hval : ∀ (j : ℕ) (p : Fin 3 → ℝ) (x : ℝ), st.cv[j]? = some p → st.cs[j]? = some x → Attained f p x := hg.val
  have hrecd : ∀ (j : ℕ) (p : Fin 3 → ℝ) (r : List Rec), st.cv[j]? = some p → st.recs[j]? = some r → Truthful (f p) r := hg.recd
  have htime : ∀ x ∈ st.stack, 0 ≤ x.time ∧ x.time ≤ 1 := fun x hx => hg.time x (List.mem_cons_of_mem _ hx)
  have hcorr : ∀ x ∈ st.stack, x.corr ≠ none → st.visited x.vox ≠ none := fun x hx => hg.corr x (List.mem_cons_of_mem _ hx)
  have hrv : ∀ v, st.visited v ≠ none → Reach init v := hg.reach.1
  have hrs : ∀ x ∈ st.stack, Reach init x.vox := fun x hx => hg.reach.2 x (List.mem_cons_of_mem _ hx)
  obtain ⟨ht0, ht1⟩ := hg.time it (by simp)
  have hri : Reach init it.vox := hg.reach.2 it (by simp)
  have hci : it.corr ≠ none → st.visited it.vox ≠ none := hg.corr it (by simp)
  unfold round
  simp only
  by_cases hin : ∀ i < 8, ∃ v, knownCube (links st it.vox) i = some v ∧ ¬ 0 < st.cs.getD v 0
  · rw [if_pos hin]
    exact ⟨⟨hmesh, hval, hrecd, htime, hcorr, hrv, hrs⟩, List.prefix_rfl, List.prefix_rfl, fun j x h => ⟨x, h, le_rfl⟩, fun v k h => h, Or.inl rfl⟩
  rw [if_neg hin]
  have hcube := knownCube_spec hmesh it.vox
  obtain ⟨e, extra, hee, a1, a2, a3, a4, a5, a6, a7, a8, a9⟩ := eval_spec hs p0 eps it ht0 ht1 st.cv (knownCube (links st it.vox)) (fun i j h => ((hcube i).2.1 j h).2.2) st.recs st.stack hmesh.len_recs hrecd 8
  rw [hee]
  obtain ⟨hr0, hr1⟩ := running_mem e.am a4
  set running := (List.range 8).foldl (fun s i => s + e.am i / 8) 0
  clear_value running
  have hlk : ∀ p ∈ links st it.vox, ∃ j, p.2 = some j ∧ st.cv[j]? = some (cornerPos p0 eps it.vox p.1) := fun p hp => (links_spec hmesh it.vox p.1 p.2 hp).2
  obtain ⟨m1, m2, m3, m4, m5, m6⟩ := merge_spec (Attained f) st.cv (cornerPos p0 eps it.vox) (links st it.vox) hlk (st.cs, e.scal) hmesh.len_cs
  obtain ⟨n1, n2⟩ := m5 hval (fun p hp => a3 p.1 (links_spec hmesh it.vox p.1 p.2 hp).1)
  set c := (links st it.vox).foldl mergeStep (st.cs, e.scal)
  clear_value c
  set spr := (if valid c.2 ∧ valid e.scal then spread st it.vox running else []) with hspr
  have hsprm : ∀ x ∈ spr, ∃ n < 6, st.visited (it.vox + neighbors.getD n 0) = none ∧ x = ⟨it.vox + neighbors.getD n 0, running, none⟩ := by
    intro x hx
    rw [hspr] at hx
    split_ifs at hx with hc
    · exact mem_spread st it.vox running x hx
    · simp at hx
  have hsprl : spr.length ≤ 6 := by
    rw [hspr]
    split_ifs
    · exact spread_length _ _ _
    · simp
  have hsprx : ∀ x ∈ spr.reverse, x.corr = none ∧ st.visited x.vox = none ∧ ∃ n < 6, x.vox = it.vox + neighbors.getD n 0 := by
    intro x hx
    rw [List.mem_reverse] at hx
    obtain ⟨n, hn, hv, rfl⟩ := hsprm x hx
    exact ⟨rfl, hv, n, hn, rfl⟩
  have hsprp : spr.reverse ≠ [] → ∃ i < 8, ∃ t, 0 ≤ t ∧ t ≤ 1 ∧ f (cornerPos p0 eps it.vox i) t ≤ 0 := by
    intro hne
    by_contra hcon
    push Not at hcon
    have hpos : ∀ i < 8, 0 < e.scal i := by
      intro i hi
      obtain ⟨t, t0, t1, ht⟩ := a3 i hi
      rw [ht]
      exact hcon i hi t t0 t1
    apply hne
    rw [hspr, if_neg, List.reverse_nil]
    rintro ⟨-, i, hi1, hi8, hsg⟩
    rw [sign_pos (hpos 0 (by omega)), sign_pos (hpos i hi8)] at hsg
    exact hsg rfl
  clear_value spr
  have hstack : ∀ x ∈ spr.reverse ++ ((corrections st it.vox e.scal running).reverse ++ e.stack), (0 ≤ x.time ∧ x.time ≤ 1) ∧ Reach init x.vox ∧ (x.corr ≠ none → st.visited x.vox ≠ none ∨ (x.vox = it.vox ∧ it.corr = none)) := by
    intro x hx
    rw [List.mem_append, List.mem_append, List.mem_reverse, List.mem_reverse] at hx
    rcases hx with hx | hx | hx
    · obtain ⟨n, hn, -, rfl⟩ := hsprm x hx
      exact ⟨⟨hr0, hr1⟩, Reach.step _ n hn hri, by simp⟩
    · obtain ⟨n, hn, k, hk, rfl, -⟩ := mem_corrections _ _ _ _ _ hx
      exact ⟨⟨hr0, hr1⟩, hrv _ (by rw [hk]; simp), fun _ => Or.inl (by simp only [hk]; simp)⟩
    · rw [a6, List.mem_append] at hx
      rcases hx with hx | hx
      · obtain ⟨b1, b2, b3⟩ := a9 x hx
        refine ⟨b3, by rw [b1]; exact hri, fun _ => Or.inr ⟨b1, ?_⟩⟩
        by_contra hne
        rw [a8 hne] at hx
        simp at hx
      · exact ⟨htime x hx, hrs x hx, fun h => Or.inl (hcorr x hx h)⟩
  have hcork : ∀ x ∈ (corrections st it.vox e.scal running).reverse, x.corr ≠ none := by
    intro x hx
    rw [List.mem_reverse] at hx
    obtain ⟨n, hn, k, hk, rfl, -⟩ := mem_corrections _ _ _ _ _ hx
    simp
  have hcorw : ∀ cs' : List ℝ, (∀ (j : ℕ) (y : ℝ), c.1[j]? = some y → cs'[j]? = some y) → (corrections st it.vox e.scal running).reverse ≠ [] → ∃ (j : ℕ) (x y : ℝ), st.cs[j]? = some x ∧ cs'[j]? = some y ∧ ((0 < x ∧ y < 0) ∨ y + 1 / 1000 < x) := by
    intro cs' hcs' hne
    obtain ⟨x, hx⟩ := List.exists_mem_of_ne_nil _ hne
    rw [List.mem_reverse] at hx
    obtain ⟨n, hn, k, hk, -, p, hp, hw⟩ := mem_corrections _ _ _ _ _ hx
    have hlm : (p.1, (if 0 ≤ p.2 then (st.ci.getD k (fun _ => none)) p.2.toNat else none)) ∈ links st it.vox := (mem_links st it.vox p.1 _).mpr ⟨n, hn, k, hk, p, hp, rfl, rfl⟩
    obtain ⟨ha, j, hj, hcv⟩ := links_spec hmesh it.vox p.1 _ hlm
    rw [hj] at hw hlm
    have hjl : j < st.cs.length := by rw [hmesh.len_cs]; exact (List.getElem?_eq_some_iff.mp hcv).1
    have hcsj : st.cs[j]? = some st.cs[j] := List.getElem?_eq_getElem hjl
    simp only [Option.getD_some, List.getD, hcsj] at hw
    obtain ⟨y, hy, hyle⟩ := m4 p.1 j hlm
    simp only at hyle
    refine ⟨j, st.cs[j], y, hcsj, hcs' j y hy, ?_⟩
    rcases hw with ⟨w1, w2⟩ | w
    · left
      rcases mul_neg_iff.mp w2 with ⟨q1, q2⟩ | ⟨q1, q2⟩
      · exact ⟨q1, by linarith⟩
      · exact absurd q2 (by linarith)
    · right; linarith
  by_cases hnew : it.corr = none ∧ st.visited it.vox = none
  · -- a new cube
    rw [if_pos hnew]
    obtain ⟨hcn, hvn⟩ := hnew
    obtain ⟨s', c', hf, p1, p2, p3, p4, p5, p6, p7, p8, p9, p10, p11, p12⟩ := add_corners he it.vox (mask st it.vox) c.2 e.fresh
      ({ st with cs := c.1, recs := e.recs, stack := spr.reverse ++ ((corrections st it.vox e.scal running).reverse ++ e.stack) } : St) (knownCube (links st it.vox)) m1 a1 hmesh.nodup
      (by
        intro i hi hb
        have : ∃ v, (i, v) ∈ links st it.vox := by
          by_contra hc
          push Not at hc
          exact hb ((mask_spec st it.vox i hi).mpr hc)
        obtain ⟨j, hj⟩ := (hcube i).2.2 this
        exact ⟨j, hj, ((hcube i).2.1 j hj).2.2⟩)
      (by
        intro i hi hb hmem
        obtain ⟨j, hj⟩ := List.mem_iff_getElem?.mp hmem
        have hjl : j < st.cv.length := (List.getElem?_eq_some_iff.mp hj).1
        obtain ⟨pi, k, cc, i', hv, hk, hi', hcj⟩ := hmesh.used j hjl
        obtain ⟨cc', hk', hrow⟩ := hmesh.row pi k hv
        rw [hk] at hk'
        cases hk'
        obtain ⟨j', h1, h2⟩ := hrow i' hi'
        rw [hcj] at h1
        cases h1
        have : cornerPos p0 eps it.vox i = cornerPos p0 eps pi i' := by
          have h3 : st.cv[j]? = some (cornerPos p0 eps it.vox i) := hj
          rw [h2] at h3
          simpa using h3.symm
        obtain ⟨v, hv'⟩ := links_complete he st it.vox pi k hv i i' hi hi' this
        exact (mask_spec st it.vox i hi).mp hb v hv') 8 le_rfl
    rw [hf]
    simp only at p1 p2 p3 p4 p5 p6 p12 ⊢
    have hpre : ∀ (j : ℕ) (p : Fin 3 → ℝ), st.cv[j]? = some p → s'.cv[j]? = some p := fun j p h => pre_get p4 h
    have hvis : ∀ v k, st.visited v = some k → Function.update s'.visited it.vox (some s'.ci.length) v = some k := by
      intro v k h
      rw [Function.update_of_ne, p2]
      · exact h
      · rintro rfl
        rw [hvn] at h; simp at h
    have hvis' : ∀ v k, Function.update s'.visited it.vox (some s'.ci.length) v = some k → (v = it.vox ∧ k = st.ci.length) ∨ (st.visited v = some k ∧ v ≠ it.vox) := by
      intro v k h
      by_cases hv : v = it.vox
      · subst hv
        rw [Function.update_self, p1] at h
        simp only [Option.some.injEq] at h
        exact Or.inl ⟨rfl, h.symm⟩
      · rw [Function.update_of_ne hv, p2] at h
        exact Or.inr ⟨h, hv⟩
    have hklt : ∀ v k, st.visited v = some k → k < st.ci.length := by
      intro v k h
      obtain ⟨cc, hk, -⟩ := hmesh.row v k h
      exact (List.getElem?_eq_some_iff.mp hk).1
    have hcs : ∀ j, j < st.cv.length → s'.cs[j]? = c.1[j]? := fun j hj => pre_get' p5 (by rw [m1]; exact hj)
    have hrs' : ∀ j, j < st.cv.length → s'.recs[j]? = e.recs[j]? := fun j hj => pre_get' p6 (by rw [a1]; exact hj)
    refine ⟨⟨⟨p7, p8, ?_, ?_, ?_, p9, ?_⟩, ?_, ?_, ?_, ?_, ?_, ?_⟩, p4, ?_, ?_, hvis, Or.inr ⟨extra, _, spr.reverse, by rw [p3, a6], a7, a8, fun x hx => by rw [(a9 x hx).2.1]; simp, hcork, hcorw s'.cs (fun j y h => pre_get p5 h), by simpa using hsprl, hsprx, hsprp, Or.inl ⟨hcn, hvn, fun v hv => by simp only; rw [Function.update_of_ne hv, p2], by simp⟩⟩⟩
    · intro v k h
      simp only at h ⊢
      rcases hvis' v k h with ⟨rfl, rfl⟩ | ⟨h', -⟩
      · refine ⟨c', by rw [p1, List.getElem?_concat_length], fun i hi => p10 i hi⟩
      · obtain ⟨cc, hk, hrow⟩ := hmesh.row v k h'
        refine ⟨cc, ?_, fun i hi => ?_⟩
        · rw [p1]; exact pre_get (List.prefix_append _ _) hk
        · obtain ⟨j, h1, h2⟩ := hrow i hi
          exact ⟨j, h1, hpre j _ h2⟩
    · intro k hk
      simp only [List.length_append, List.length_singleton] at hk
      by_cases hkl : k < st.ci.length
      · obtain ⟨v, hv⟩ := hmesh.vox k hkl
        exact ⟨v, hvis v k hv⟩
      · refine ⟨it.vox, ?_⟩
        simp only
        rw [Function.update_self, p1]
        rw [p1] at hk
        congr 1
        omega
    · intro v v' k h h'
      rcases hvis' v k h with ⟨rfl, rfl⟩ | ⟨h1, -⟩ <;> rcases hvis' v' _ h' with ⟨rfl, e2⟩ | ⟨h2, -⟩
      · rfl
      · exact absurd (hklt _ _ h2) (by omega)
      · exact absurd (hklt _ _ h1) (by omega)
      · exact hmesh.inj v v' k h1 h2
    · intro j hj
      by_cases hjl : j < st.cv.length
      · obtain ⟨v, k, cc, i, g1, g2, g3, g4⟩ := hmesh.used j hjl
        refine ⟨v, k, cc, i, hvis v k g1, ?_, g3, g4⟩
        rw [p1]; exact pre_get (List.prefix_append _ _) g2
      · obtain ⟨i, hi, -, g2, -⟩ := p12 j (by omega) hj
        refine ⟨it.vox, s'.ci.length, c', i, by simp, ?_, hi, g2⟩
        simp only
        rw [List.getElem?_concat_length]
    · intro j p x hp hx
      simp only at hp hx
      by_cases hjl : j < st.cv.length
      · rw [pre_get' p4 hjl] at hp
        rw [hcs j hjl] at hx
        exact n1 j p x hp hx
      · have hjl' : j < s'.cv.length := (List.getElem?_eq_some_iff.mp hp).1
        obtain ⟨i, hi, g1, g2, g3, g4, g5⟩ := p12 j (by omega) hjl'
        rw [g3] at hp
        rw [g4] at hx
        simp only [Option.some.injEq] at hp hx
        subst hp hx
        rw [m6 i ((mask_spec st it.vox i hi).mp g1)]
        exact a3 i hi
    · intro j p x hp hx
      simp only at hp hx
      by_cases hjl : j < st.cv.length
      · rw [pre_get' p4 hjl] at hp
        rw [hrs' j hjl] at hx
        exact a2 j p x hp hx
      · have hjl' : j < s'.cv.length := (List.getElem?_eq_some_iff.mp hp).1
        obtain ⟨i, hi, g1, g2, g3, g4, g5⟩ := p12 j (by omega) hjl'
        rw [g3] at hp
        rw [g5] at hx
        simp only [Option.some.injEq] at hp hx
        subst hp hx
        exact a5 i hi ((hcube i).1 ((mask_spec st it.vox i hi).mp g1))
    · intro x hx
      simp only [p3] at hx
      exact (hstack x hx).1
    · intro x hx hne
      simp only [p3] at hx
      simp only
      by_cases hv : x.vox = it.vox
      · rw [hv]; simp
      · rw [Function.update_of_ne hv, p2]
        rcases (hstack x hx).2.2 hne with h | h
        · exact h
        · exact absurd h.1 hv
    · intro v hv
      simp only at hv
      by_cases h : v = it.vox
      · rw [h]; exact hri
      · rw [Function.update_of_ne h, p2] at hv
        exact hrv v hv
    · intro x hx
      simp only [p3] at hx
      exact (hstack x hx).2.1
    · rw [p1]; exact List.prefix_append _ _
    · intro j x hx
      have hjl : j < st.cv.length := by rw [← hmesh.len_cs]; exact (List.getElem?_eq_some_iff.mp hx).1
      rw [hcs j hjl]
      exact m2 j x hx
  · rw [if_neg hnew]
    refine ⟨⟨⟨m1, a1, hmesh.row, hmesh.vox, hmesh.inj, hmesh.nodup, hmesh.used⟩, n1, a2, fun x hx => (hstack x hx).1, ?_, hrv, fun x hx => (hstack x hx).2.1⟩, List.prefix_rfl, List.prefix_rfl, m2, fun v k h => h, Or.inr ⟨extra, _, spr.reverse, by simp only [a6], a7, a8, fun x hx => by rw [(a9 x hx).2.1]; simp, hcork, hcorw c.1 (fun j y h => h), by simpa using hsprl, hsprx, hsprp, Or.inr ⟨hnew, rfl, by simp only [m1, hmesh.len_cs]⟩⟩⟩
    intro x hx hne
    rcases (hstack x hx).2.2 hne with h | ⟨h, h'⟩
    · exact h
    · simp only
      rw [h]
      intro hv
      exact hnew ⟨h', hv⟩

theorem step_spec {f : (Fin 3 → ℝ) → ℝ → ℝ} {scalar : (Fin 3 → ℝ) → ℝ → List Rec → ℝ × ℝ × List Rec} (hs : Sound f scalar) (init : List Vox) (p0 : Fin 3 → ℝ) (eps : ℝ) (he : 0 < eps) (st : St)
    (hg : Good f init p0 eps st) :
    Good f init p0 eps (step scalar p0 eps st) ∧ st.cv <+: (step scalar p0 eps st).cv ∧ st.ci <+: (step scalar p0 eps st).ci ∧
    (∀ (j : ℕ) (x : ℝ), st.cs[j]? = some x → ∃ y, (step scalar p0 eps st).cs[j]? = some y ∧ y ≤ x) := by
  unfold step
  cases h : st.stack with
  | nil => exact ⟨hg, List.prefix_rfl, List.prefix_rfl, fun j x h => ⟨x, h, le_rfl⟩⟩
  | cons it rest =>
    have hst : st = { ({ st with stack := rest } : St) with stack := it :: rest } := by
      cases st
      simp only at h
      subst h
      rfl
    rw [hst] at hg
    obtain ⟨h1, h2, h3, h4, -, -⟩ := round_spec hs init p0 eps he { st with stack := rest } it hg
    exact ⟨h1, h2, h3, h4⟩

theorem start_good (f : (Fin 3 → ℝ) → ℝ → ℝ) (p0 : Fin 3 → ℝ) (eps : ℝ) (voxels : List Vox) (times : List ℝ) (ht : ∀ t ∈ times, 0 ≤ t ∧ t ≤ 1) : Good f voxels p0 eps (start voxels times) := by
  unfold start
  have hmem : ∀ x ∈ ((List.range voxels.length).map (fun i => (⟨voxels.getD i 0, times.getD i 0, none⟩ : Item))).reverse, ∃ i < voxels.length, x = ⟨voxels.getD i 0, times.getD i 0, none⟩ := by
    intro x hx
    rw [List.mem_reverse, List.mem_map] at hx
    obtain ⟨i, hi, rfl⟩ := hx
    exact ⟨i, List.mem_range.mp hi, rfl⟩
  refine ⟨⟨rfl, rfl, by simp, by simp, by simp, by simp, by simp⟩, by simp, by simp, ?_, ?_, by simp, ?_⟩
  · intro x hx
    obtain ⟨i, hi, rfl⟩ := hmem x hx
    simp only [List.getD]
    cases hti : times[i]? with
    | none => simp
    | some t => exact ht t (List.mem_of_getElem? hti)
  · intro x hx
    obtain ⟨i, hi, rfl⟩ := hmem x hx
    simp
  · intro x hx
    obtain ⟨i, hi, rfl⟩ := hmem x hx
    apply Reach.base
    simp only [List.getD, List.getElem?_eq_getElem hi, Option.getD_some]
    exact List.getElem_mem hi

theorem after_good {f : (Fin 3 → ℝ) → ℝ → ℝ} {scalar : (Fin 3 → ℝ) → ℝ → List Rec → ℝ × ℝ × List Rec} (hs : Sound f scalar) (p0 : Fin 3 → ℝ) (eps : ℝ) (he : 0 < eps) (voxels : List Vox) (times : List ℝ)
    (ht : ∀ t ∈ times, 0 ≤ t ∧ t ≤ 1) (n : ℕ) : Good f voxels p0 eps (after scalar p0 eps (start voxels times) n) := by
  induction n with
  | zero => exact start_good f p0 eps voxels times ht
  | succ n ih => exact (step_spec hs voxels p0 eps he _ ih).1

/-- the function that `swept_volume` hands over is as asked (by C116) -/
theorem scalarFunc_sound (f gf : (Fin 3 → ℝ) → ℝ → ℝ) (moved : ℝ → ℝ → Prop) (junk : ℝ) (hm : ∀ x, 0 ≤ x → x ≤ 1 → moved x 10000000) : Sound f (scalarFunc f gf moved junk) := by
  intro P t recs h0 h1 hr
  obtain ⟨fx, x, new, e, a1, a2, a3, a4, -⟩ := C116_descent (f P) (gf P) moved junk recs t hr h0 h1 (hm t h0 h1)
  unfold scalarFunc
  rw [e]
  exact ⟨a3, a1, a2, a4⟩

/-! ## C117 -/

/-- Specification: the corners of a cube in the order in which they are listed: the signs of the three coordinates relative to the centre -/
def cornerSigns : List (Fin 3 → ℝ) :=
  [![1, 1, -1], ![1, 1, 1], ![-1, 1, 1], ![-1, 1, -1], ![1, -1, -1], ![1, -1, 1], ![-1, -1, 1], ![-1, -1, -1]]

/-- Specification: `v'` is `v` moved by one in one of the six directions of the axes -/
def FaceNeighbour (v v' : Vox) : Prop := |v'.1 - v.1| + |v'.2.1 - v.2.1| + |v'.2.2 - v.2.2| = 1

/-- Specification: a chain of face neighbours leads from one of the first voxels to `v` -/
inductive Linked (init : List Vox) : Vox → Prop
  | first (v : Vox) : v ∈ init → Linked init v
  | next (v v' : Vox) : Linked init v → FaceNeighbour v v' → Linked init v'

theorem cornerPos_signs (p0 : Fin 3 → ℝ) (eps : ℝ) (v : Vox) (i : ℕ) (hi : i < 8) (s : Fin 3 → ℝ) (hs : cornerSigns[i]? = some s) :
    cornerPos p0 eps v i = fun d => p0 d + eps * (cast v d + s d / 2) := by
  have : cast (corners.getD i 0) = s := by
    unfold cornerSigns at hs
    funext d
    interval_cases i <;> simp at hs <;> subst hs <;> fin_cases d <;> simp [cast, corners, bx, bY, bz]
  unfold cornerPos
  rw [this]
  funext d
  simp only [Pi.add_apply, Pi.smul_apply, smul_eq_mul]
  ring

theorem neighbours_faces : ∀ n < 6, |(neighbors.getD n 0).1| + |(neighbors.getD n 0).2.1| + |(neighbors.getD n 0).2.2| = 1 := by decide +kernel

theorem linked_of_reach (init : List Vox) (v : Vox) (h : Reach init v) : Linked init v := by
  induction h with
  | base v h => exact Linked.first v h
  | step v n hn _ ih =>
    refine Linked.next v _ ih ?_
    have := neighbours_faces n hn
    unfold FaceNeighbour
    simpa using this

/-- C117 (the cubes).  After any number of rounds of the continuation, for every distance function, derivative, cell size and seeds: the rows of `CI` belong to different voxels, which are all linked through faces to the seeds; row
`k` has the indices of the eight corners of the cube around `p0 + eps * voxel`; no point is twice in `CV`, so that two cubes that meet at a corner use the same index for it; every vertex belongs to a cube; and the number `CS` of a
vertex is the distance there at some time in `[0,1]`. -/
theorem C117_cubes (f gf : (Fin 3 → ℝ) → ℝ → ℝ) (moved : ℝ → ℝ → Prop) (junk : ℝ) (hm : ∀ x, 0 ≤ x → x ≤ 1 → moved x 10000000) (p0 : Fin 3 → ℝ) (eps : ℝ) (he : 0 < eps) (voxels : List Vox) (times : List ℝ)
    (ht : ∀ t ∈ times, 0 ≤ t ∧ t ≤ 1) (n : ℕ) (st : St) (hst : st = after (scalarFunc f gf moved junk) p0 eps (start voxels times) n) :
    ∃ vox : List Vox, vox.Nodup ∧ vox.length = st.ci.length ∧ (∀ v ∈ vox, Linked voxels v) ∧
      (∀ (k : ℕ) (v : Vox) (c : ℕ → Option ℕ), vox[k]? = some v → st.ci[k]? = some c → ∀ (i : ℕ) (s : Fin 3 → ℝ), cornerSigns[i]? = some s →
        ∃ j, c i = some j ∧ st.cv[j]? = some (fun d => p0 d + eps * (cast v d + s d / 2))) ∧
      st.cv.Nodup ∧
      (∀ j < st.cv.length, ∃ c ∈ st.ci, ∃ i < 8, c i = some j) ∧
      st.cs.length = st.cv.length ∧
      (∀ (j : ℕ) (p : Fin 3 → ℝ) (x : ℝ), st.cv[j]? = some p → st.cs[j]? = some x → ∃ t, 0 ≤ t ∧ t ≤ 1 ∧ x = f p t) := by
  have hg := after_good (scalarFunc_sound f gf moved junk hm) p0 eps he voxels times ht n
  rw [← hst] at hg
  choose g hgv using hg.mesh.vox
  refine ⟨(List.finRange st.ci.length).map (fun k : Fin st.ci.length => g k.1 k.2), ?_, by simp, ?_, ?_, hg.mesh.nodup, ?_, hg.mesh.len_cs, hg.val⟩
  · refine List.Nodup.map ?_ (List.nodup_finRange _)
    intro a b hab
    have h1 := hgv a a.2
    have h2 := hgv b b.2
    simp only at hab
    rw [hab, h2] at h1
    exact Fin.ext (by simpa using h1.symm)
  · intro v hv
    rw [List.mem_map] at hv
    obtain ⟨k, -, rfl⟩ := hv
    exact linked_of_reach _ _ (hg.reach.1 _ (by rw [hgv k k.2]; simp))
  · intro k v c hv hc i s hs
    have hk : k < st.ci.length := (List.getElem?_eq_some_iff.mp hc).1
    have hv' : g k hk = v := by
      rw [List.getElem?_map, List.getElem?_eq_getElem (by simpa using hk)] at hv
      simpa using hv
    have hi : i < 8 := (List.getElem?_eq_some_iff.mp hs).1
    obtain ⟨c', h1, h2⟩ := hg.mesh.row _ k (hgv k hk)
    rw [hc] at h1
    cases h1
    obtain ⟨j, h3, h4⟩ := h2 i hi
    refine ⟨j, h3, ?_⟩
    rw [h4, hv', cornerPos_signs p0 eps v i hi s hs]
  · intro j hj
    obtain ⟨v, k, c, i, -, h2, h3, h4⟩ := hg.mesh.used j hj
    exact ⟨c, List.mem_of_getElem? h2, i, h3, h4⟩

/-- C117 (history).  From any round to any later one, no cube or vertex is lost or changes its number, and the number at a vertex never goes up. -/
theorem C117_history (f gf : (Fin 3 → ℝ) → ℝ → ℝ) (moved : ℝ → ℝ → Prop) (junk : ℝ) (hm : ∀ x, 0 ≤ x → x ≤ 1 → moved x 10000000) (p0 : Fin 3 → ℝ) (eps : ℝ) (he : 0 < eps) (voxels : List Vox) (times : List ℝ)
    (ht : ∀ t ∈ times, 0 ≤ t ∧ t ≤ 1) (n m : ℕ) (st st' : St) (hst : st = after (scalarFunc f gf moved junk) p0 eps (start voxels times) n) (hst' : st' = after (scalarFunc f gf moved junk) p0 eps (start voxels times) (n + m)) :
    st.cv <+: st'.cv ∧ st.ci <+: st'.ci ∧ ∀ (j : ℕ) (x : ℝ), st.cs[j]? = some x → ∃ y, st'.cs[j]? = some y ∧ y ≤ x := by
  subst hst hst'
  induction m with
  | zero => exact ⟨List.prefix_rfl, List.prefix_rfl, fun j x h => ⟨x, h, le_rfl⟩⟩
  | succ m ih =>
    obtain ⟨h1, h2, h3⟩ := ih
    obtain ⟨-, g1, g2, g3⟩ := step_spec (scalarFunc_sound f gf moved junk hm) voxels p0 eps he _ (after_good (scalarFunc_sound f gf moved junk hm) p0 eps he voxels times ht (n + m))
    refine ⟨h1.trans g1, h2.trans g2, ?_⟩
    intro j x hx
    obtain ⟨y, hy, hyx⟩ := h3 j x hx
    obtain ⟨z, hz, hzy⟩ := g3 j y hy
    exact ⟨z, hz, hzy.trans hyx⟩

/-- a concrete case: with the seed `(0,0,0)` the first round makes one cube with eight vertices, and the hypotheses of the theorems hold for the comparison of the code -/
example (f gf : (Fin 3 → ℝ) → ℝ → ℝ) (junk : ℝ) : ((after (scalarFunc f gf farther junk) 0 2 (start [(0, 0, 0)] [0]) 1).ci.length = 1 ∧
    (after (scalarFunc f gf farther junk) 0 2 (start [(0, 0, 0)] [0]) 1).cv.length = 8) ∧ (∀ x, 0 ≤ x → x ≤ 1 → farther x 10000000) ∧ FaceNeighbour (0, 0, 0) (0, 0, -1) := by
  refine ⟨?_, ?_, by unfold FaceNeighbour; simp⟩
  · have hadd : ∀ (l : List ℕ) (m : ℕ) (scal : ℕ → ℝ) (fresh : ℕ → List Rec) (s : St × (ℕ → Option ℕ)), (∀ i ∈ l, (1 <<< i) &&& m = 0) →
        (l.foldl (addCorner 0 2 (0, 0, 0) m scal fresh) s).1.ci = s.1.ci ∧ (l.foldl (addCorner 0 2 (0, 0, 0) m scal fresh) s).1.cv.length = s.1.cv.length + l.length := by
      intro l
      induction l with
      | nil => intro m scal fresh s _; simp
      | cons i l ih =>
        intro m scal fresh s hm
        rw [List.foldl_cons]
        obtain ⟨h1, h2⟩ := ih m scal fresh (addCorner 0 2 (0, 0, 0) m scal fresh s i) (fun j hj => hm j (by simp [hj]))
        rw [h1, h2]
        unfold addCorner
        rw [if_pos (hm i (by simp))]
        simp
        omega
    have hlinks : links ⟨[], [], [], [], fun _ => none, []⟩ (0, 0, 0) = [] := by
      unfold links
      simp
    have hstart : start [(0, 0, 0)] [0] = ⟨[], [], [], [], fun _ => none, [⟨(0, 0, 0), 0, none⟩]⟩ := rfl
    have hmask : mask ⟨[], [], [], [], fun _ => none, []⟩ (0, 0, 0) = 0 := by
      unfold mask
      simp
    simp only [after, step, hstart]
    unfold round
    simp only [hlinks, hmask]
    rw [if_neg (by intro h; obtain ⟨v, hv, -⟩ := h 0 (by omega); simp [knownCube] at hv), if_pos ⟨trivial, trivial⟩]
    simp only
    constructor
    · rw [List.length_append, (hadd _ _ _ _ _ (by simp)).1]
      simp
    · rw [(hadd _ _ _ _ _ (by simp)).2]
      simp
  · intro x h0 h1
    unfold farther
    rw [abs_of_neg (by linarith)]
    linarith

end

end Gpy.Cont
