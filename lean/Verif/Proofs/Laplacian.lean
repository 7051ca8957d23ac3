import Verif.Model.Intrinsic
import Verif.Spec.Triangle
import Verif.Proofs.Dec
import Mathlib.Algebra.BigOperators.Intervals
import Mathlib.Tactic.NormNum

namespace Gpy
open Np Finset

theorem zip3_map2 {α β : Type} {K : Type} (F : List α) (C : List β) (hl : C.length = F.length) (f g : α → ℕ) (h : β → K) :
    zip3 (F.map f) (F.map g) (C.map h) = (F.zip C).map (fun p => (f p.1, g p.1, h p.2)) := by
  unfold zip3
  induction F generalizing C with
  | nil => simp
  | cons a t ih =>
    cases C with
    | nil => simp at hl
    | cons c C =>
      simp only [List.map_cons, List.zip_cons_cons]
      rw [ih C (by simpa using hl)]

/-- indicator -/
def ind (i j : ℕ) : ℝ := if i = j then 1 else 0

/-- signed incidence of vertex `i` in the directed edge `e` -/
def inc (i : ℕ) (e : Edge) : ℝ := ind e.s i - ind e.t i

theorem ite_and_eq (i j a b : ℕ) (v : ℝ) : (if a = i ∧ b = j then v else 0) = v * ind a i * ind b j := by
  unfold ind
  by_cases h1 : a = i <;> by_cases h2 : b = j <;> simp [h1, h2]

theorem sum_range_ind (n a : ℕ) (ha : a < n) (u : ℕ → ℝ) : ∑ j ∈ range n, u j * ind a j = u a := by
  unfold ind
  rw [Finset.sum_eq_single a]
  · simp
  · intro b _ hb; rw [if_neg (fun h => hb h.symm)]; simp
  · intro h; exact absurd (Finset.mem_range.mpr ha) h

theorem sum_range_inc (n : ℕ) (e : Edge) (hs : e.s < n) (ht : e.t < n) (u : ℕ → ℝ) :
    ∑ j ∈ range n, u j * inc j e = u e.s - u e.t := by
  unfold inc
  simp only [mul_sub]
  rw [Finset.sum_sub_distrib, sum_range_ind n _ hs, sum_range_ind n _ ht]

/-- contribution of one face to the Laplacian -/
def lapFace (i j : ℕ) (p : Tri × Row3 ℝ) : ℝ :=
  p.2.x0 * inc i (p.1.side 0) * inc j (p.1.side 0) + p.2.x1 * inc i (p.1.side 1) * inc j (p.1.side 1)
    + p.2.x2 * inc i (p.1.side 2) * inc j (p.1.side 2)

theorem csrMatrix_some {K : Type} {data : List K} {rows cols : List ℕ} {r c : ℕ}
    (h1 : rows.length = data.length) (h2 : cols.length = data.length) (h3 : ∀ i ∈ rows, i < r) (h4 : ∀ j ∈ cols, j < c) :
    csrMatrix data rows cols r c = some ⟨r, c, zip3 rows cols data⟩ := by
  unfold csrMatrix; rw [if_pos ⟨h1, h2, h3, h4⟩]

theorem nOr_some {n : Option ℕ} {F : List Tri} {n' : ℕ} (h : nOr n F = some n') (hF : ∀ k, n = some k → InRange F k) :
    InRange F n' := by
  cases n with
  | some k => cases h; exact hF _ rfl
  | none =>
    unfold nOr at h
    by_cases hne : F = []
    · subst hne; intro t ht; simp at ht
    · obtain ⟨n0, h0, h1⟩ := npMaxSucc_spec hne
      rw [h0] at h; cases h; exact h1

def lapTrip (F : List Tri) (C : List (Row3 ℝ)) : List (ℕ × ℕ × ℝ) :=
  let P := F.zip C
  P.map (fun p => (p.1.a, p.1.b, -p.2.x2)) ++ P.map (fun p => (p.1.b, p.1.a, -p.2.x2)) ++
  P.map (fun p => (p.1.b, p.1.c, -p.2.x0)) ++ P.map (fun p => (p.1.c, p.1.b, -p.2.x0)) ++
  P.map (fun p => (p.1.c, p.1.a, -p.2.x1)) ++ P.map (fun p => (p.1.a, p.1.c, -p.2.x1)) ++
  P.map (fun p => (p.1.a, p.1.a, p.2.x1 + p.2.x2)) ++ P.map (fun p => (p.1.b, p.1.b, p.2.x2 + p.2.x0)) ++
  P.map (fun p => (p.1.c, p.1.c, p.2.x0 + p.2.x1))

theorem lap_eq {lsq : List (Row3 ℝ)} {F : List Tri} {n : Option ℕ} {n' : ℕ} {C : List (Row3 ℝ)}
    (hn : nOr n F = some n') (hF : InRange F n') (hC : cotangentWeightsIntrinsic lsq F = some C) :
    cotangentLaplacianIntrinsic lsq F n = some ⟨n', n', lapTrip F C⟩ := by
  have hl : C.length = F.length := by
    unfold cotangentWeightsIntrinsic at hC
    split at hC
    · next h => cases hC; simpa using h.1.1
    · cases hC
  unfold cotangentLaplacianIntrinsic
  rw [hn, hC]
  simp only [Option.bind_eq_bind, Option.bind_some]
  have hb : ∀ (f : Tri → ℕ), (∀ t ∈ F, f t < n') → ∀ i ∈ F.map f, i < n' := by
    intro f hf i hi
    obtain ⟨t, ht, rfl⟩ := List.mem_map.mp hi
    exact hf t ht
  have ha := hb (·.a) (fun t ht => (hF t ht).1)
  have hbb := hb (·.b) (fun t ht => (hF t ht).2.1)
  have hc := hb (·.c) (fun t ht => (hF t ht).2.2)
  rw [csrMatrix_some]
  · congr 2
    unfold lapTrip
    repeat rw [zip3_append (by simp [hl]) (by simp [hl])]
    simp only [zip3_map2 F C hl]
  · simp [hl]
  · simp [hl]
  · intro i hi
    simp only [List.mem_append] at hi
    rcases hi with (((((((h | h) | h) | h) | h) | h) | h) | h) | h
    all_goals first | exact ha i h | exact hbb i h | exact hc i h
  · intro i hi
    simp only [List.mem_append] at hi
    rcases hi with (((((((h | h) | h) | h) | h) | h) | h) | h) | h
    all_goals first | exact ha i h | exact hbb i h | exact hc i h

theorem lap_get (F : List Tri) (C : List (Row3 ℝ)) (n i j : ℕ) :
    (⟨n, n, lapTrip F C⟩ : Csr ℝ).get i j = ((F.zip C).map (lapFace i j)).sum := by
  unfold Csr.get lapTrip
  simp only [List.map_append, List.sum_append, List.map_map, sum_map_add_list]
  congr 1
  apply List.map_congr_left
  rintro ⟨t, c⟩ _
  simp only [Function.comp, ite_and_eq, lapFace, inc, Tri.side]
  ring

theorem list_sum_comm {α : Type} (l : List α) (n : ℕ) (f : ℕ → α → ℝ) :
    ∑ j ∈ range n, (l.map (f j)).sum = (l.map (fun a => ∑ j ∈ range n, f j a)).sum := by
  induction l with
  | nil => simp
  | cons a t ih => simp only [List.map_cons, List.sum_cons, Finset.sum_add_distrib, ih]

theorem mul_list_sum {α : Type} (l : List α) (c : ℝ) (f : α → ℝ) : c * (l.map f).sum = (l.map (fun a => c * f a)).sum := by
  induction l with
  | nil => simp
  | cons a t ih => simp only [List.map_cons, List.sum_cons, mul_add, ih]

theorem zip_mem_left {α β : Type} {F : List α} {C : List β} {p : α × β} (h : p ∈ F.zip C) : p.1 ∈ F :=
  (List.of_mem_zip (a := p.1) (b := p.2) h).1

theorem tri_side_lt {t : Tri} {n : ℕ} (h : t.a < n ∧ t.b < n ∧ t.c < n) (k : Fin 3) : (t.side k).s < n ∧ (t.side k).t < n := by
  obtain ⟨h1, h2, h3⟩ := h
  match k with
  | 0 => exact ⟨h2, h3⟩
  | 1 => exact ⟨h3, h1⟩
  | 2 => exact ⟨h1, h2⟩

theorem lap_form (F : List Tri) (C : List (Row3 ℝ)) (n : ℕ) (hF : InRange F n) (u w : ℕ → ℝ) :
    ∑ i ∈ range n, ∑ j ∈ range n, u i * (⟨n, n, lapTrip F C⟩ : Csr ℝ).get i j * w j =
      ((F.zip C).map (fun p =>
        p.2.x0 * (u (p.1.side 0).s - u (p.1.side 0).t) * (w (p.1.side 0).s - w (p.1.side 0).t) +
        p.2.x1 * (u (p.1.side 1).s - u (p.1.side 1).t) * (w (p.1.side 1).s - w (p.1.side 1).t) +
        p.2.x2 * (u (p.1.side 2).s - u (p.1.side 2).t) * (w (p.1.side 2).s - w (p.1.side 2).t))).sum := by
  simp only [lap_get]
  have e1 : ∀ i j, u i * ((F.zip C).map (lapFace i j)).sum * w j =
      ((F.zip C).map (fun p => u i * w j * lapFace i j p)).sum := by
    intro i j; rw [← mul_list_sum]; ring
  simp only [e1, list_sum_comm]
  congr 1
  apply List.map_congr_left
  intro p hp
  have ht := hF _ (zip_mem_left hp)
  have key : ∀ (c : ℝ) (e : Edge), e.s < n → e.t < n →
      ∑ i ∈ range n, ∑ j ∈ range n, u i * w j * (c * inc i e * inc j e) = c * (u e.s - u e.t) * (w e.s - w e.t) := by
    intro c e hs ht
    have : ∀ i, ∑ j ∈ range n, u i * w j * (c * inc i e * inc j e) = (c * (w e.s - w e.t)) * (u i * inc i e) := by
      intro i
      rw [← sum_range_inc n e hs ht w, Finset.mul_sum, Finset.sum_mul]
      apply Finset.sum_congr rfl; intros; ring
    simp only [this]
    rw [← Finset.mul_sum, sum_range_inc n e hs ht u]; ring
  have k0 := key p.2.x0 (p.1.side 0) (tri_side_lt ht 0).1 (tri_side_lt ht 0).2
  have k1 := key p.2.x1 (p.1.side 1) (tri_side_lt ht 1).1 (tri_side_lt ht 1).2
  have k2 := key p.2.x2 (p.1.side 2) (tri_side_lt ht 2).1 (tri_side_lt ht 2).2
  rw [← k0, ← k1, ← k2]
  simp only [lapFace, mul_add, Finset.sum_add_distrib]

theorem lap_row_sum (F : List Tri) (C : List (Row3 ℝ)) (n : ℕ) (hF : InRange F n) (i : ℕ) :
    ∑ j ∈ range n, (⟨n, n, lapTrip F C⟩ : Csr ℝ).get i j = 0 := by
  simp only [lap_get, list_sum_comm]
  apply List.sum_eq_zero
  intro x hx
  obtain ⟨p, hp, rfl⟩ := List.mem_map.mp hx
  have ht := hF _ (zip_mem_left hp)
  have key : ∀ (c : ℝ) (e : Edge), e.s < n → e.t < n → ∑ j ∈ range n, c * inc i e * inc j e = 0 := by
    intro c e hs ht
    have := sum_range_inc n e hs ht (fun _ => c * inc i e)
    rw [this]; ring
  simp only [lapFace, Finset.sum_add_distrib]
  rw [key _ _ (tri_side_lt ht 0).1 (tri_side_lt ht 0).2, key _ _ (tri_side_lt ht 1).1 (tri_side_lt ht 1).2,
    key _ _ (tri_side_lt ht 2).1 (tri_side_lt ht 2).2]; ring

end Gpy
