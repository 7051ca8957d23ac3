import Verif.Proofs.QuadOperators
import Verif.Spec.QuadOperators

set_option autoImplicit false
namespace Gpy
open Np

section coo
variable {K : Type} [Field K]

/-- The contribution of the triplets to row `i` of a product. -/
def tripSum (t : Triplets K) (u : ℕ → K) (i : ℕ) : K := ((t.filter (fun e => e.1 == i)).map (fun e => e.2.2 * u e.2.1)).sum

theorem tripSum_append (t t' : Triplets K) (u : ℕ → K) (i : ℕ) : tripSum (t ++ t') u i = tripSum t u i + tripSum t' u i := by simp [tripSum]

theorem tripSum_nil (u : ℕ → K) (i : ℕ) : tripSum ([] : Triplets K) u i = 0 := by simp [tripSum]

theorem sum_range_ite (n k : ℕ) (hk : k < n) (v : K) (u : ℕ → K) : ((List.range n).map (fun j => (if k = j then v else 0) * u j)).sum = v * u k := by
  induction n with
  | zero => omega
  | succ n ih =>
    rw [List.range_succ, List.map_append, List.sum_append]
    by_cases h : k < n
    · rw [ih h]; simp [show k ≠ n by omega]
    · have : k = n := by omega
      subst this
      have hz : ((List.range k).map (fun j => (if k = j then v else 0) * u j)).sum = 0 := by
        apply List.sum_eq_zero
        intro x hx
        obtain ⟨j, hj, rfl⟩ := List.mem_map.mp hx
        have := List.mem_range.mp hj
        rw [if_neg (by omega)]; ring
      rw [hz]; simp

theorem rowApply_coo (n : ℕ) (u : ℕ → K) (i : ℕ) : ∀ (t : Triplets K), (∀ e ∈ t, e.1 = i → e.2.1 < n) → rowApply (cooGet t) n u i = tripSum t u i := by
  intro t
  induction t with
  | nil => intro _; simp [rowApply, cooGet, tripSum]
  | cons e t ih =>
    intro h
    have ih' := ih (fun e' he' => h e' (List.mem_cons_of_mem _ he'))
    by_cases hi : e.1 = i
    · have hk := h e (by simp) hi
      have h1 : rowApply (cooGet (e :: t)) n u i = ((List.range n).map (fun j => (if e.2.1 = j then e.2.2 else 0) * u j)).sum + rowApply (cooGet t) n u i := by
        unfold rowApply
        rw [← List.sum_map_add]
        congr 1
        apply List.map_congr_left
        intro j _
        unfold cooGet
        by_cases hj : e.2.1 = j
        · simp [hi, hj]; ring
        · simp [hi, hj]
      rw [h1, sum_range_ite n _ hk, ih']
      simp [tripSum, hi]
    · have h1 : rowApply (cooGet (e :: t)) n u i = rowApply (cooGet t) n u i := by
        unfold rowApply
        congr 1
        apply List.map_congr_left
        intro j _
        unfold cooGet
        simp [hi]
      rw [h1, ih']
      simp [tripSum, hi]

theorem tripSum_flatten (u : ℕ → K) (i : ℕ) (ts : List (Triplets K)) : tripSum ts.flatten u i = (ts.map (fun t => tripSum t u i)).sum := by
  induction ts with
  | nil => simp [tripSum]
  | cons t ts ih => rw [List.flatten_cons, tripSum_append, ih]; simp

theorem sum_single {n r : ℕ} (v : ℕ → K) (hr : r < n) (h : ∀ p, p < n → p ≠ r → v p = 0) : ((List.range n).map v).sum = v r := by
  induction n with
  | zero => omega
  | succ n ih =>
    rw [List.range_succ, List.map_append, List.sum_append]
    by_cases hrn : r < n
    · rw [ih hrn (fun p hp => h p (by omega))]
      simp [h n (by omega) (by omega)]
    · have : r = n := by omega
      subst this
      have hz : ((List.range r).map v).sum = 0 := by
        apply List.sum_eq_zero
        intro x hx
        obtain ⟨j, hj, rfl⟩ := List.mem_map.mp hx
        have := List.mem_range.mp hj
        exact h j (by omega) (by omega)
      rw [hz]; simp

/-- The rows of all leaves: only the triplets of leaf `r` reach row `i`. -/
theorem rows_spec {L : List ℕ} {F : ℕ → ℕ → Option (Triplets K)} {ts : List (Triplets K)} (h : ((List.range L.length).zip L).mapM (fun p => F p.1 p.2) = some ts)
    {r i : ℕ} {m : ℕ} (hr : L[r]? = some m) (u : ℕ → K)
    (hother : ∀ p x t, L[p]? = some x → F p x = some t → p ≠ r → ∀ e ∈ t, e.1 ≠ i) {t : Triplets K} (ht : F r m = some t) :
    tripSum ts.flatten u i = tripSum t u i := by
  have gen : ∀ (l : List ℕ) (a : ℕ) (ts : List (Triplets K)), ((List.range' a l.length).zip l).mapM (fun p => F p.1 p.2) = some ts →
      (∀ p x t, a ≤ p → l[p - a]? = some x → F p x = some t → p ≠ r → ∀ e ∈ t, e.1 ≠ i) →
      (r < a → tripSum ts.flatten u i = 0) ∧ (a ≤ r → l[r - a]? = some m → tripSum ts.flatten u i = tripSum t u i) := by
    intro l
    induction l with
    | nil => intro a ts h _; simp at h; subst h; simp [tripSum]
    | cons y l ih =>
      intro a ts h ho
      rw [List.length_cons, List.range'_succ, List.zip_cons_cons, List.mapM_cons] at h
      obtain ⟨b, hb, h⟩ := Option.bind_eq_some_iff.mp h
      obtain ⟨k', hk', h⟩ := Option.bind_eq_some_iff.mp h
      cases Option.some.inj h
      obtain ⟨i1, i2⟩ := ih (a + 1) k' hk' (fun p x t hp hx hF hne => ho p x t (by omega) (by
        rw [show p - a = (p - (a + 1)) + 1 by omega]; simpa using hx) hF hne)
      have hz : a ≠ r → tripSum b u i = 0 := by
        intro hne
        have := ho a y b (le_refl _) (by simp) hb hne
        unfold tripSum
        have : b.filter (fun e => e.1 == i) = [] := List.filter_eq_nil_iff.mpr (fun e he => by simpa using this e he)
        rw [this]; simp
      rw [List.flatten_cons, tripSum_append]
      constructor
      · intro hra
        rw [hz (by omega), i1 (by omega), add_zero]
      · intro har hm
        by_cases hae : a = r
        · subst hae
          simp only [Nat.sub_self, List.getElem?_cons_zero, Option.some.injEq] at hm
          subst hm
          dsimp only at hb
          rw [ht] at hb
          cases Option.some.inj hb
          rw [i1 (by omega), add_zero]
        · rw [hz hae, zero_add]
          refine i2 (by omega) ?_
          rw [show r - a = (r - (a + 1)) + 1 by omega] at hm
          simpa using hm
  rw [List.range_eq_range'] at h
  exact (gen L 0 ts h (fun p x t _ hx hF hne => hother p x t (by simpa using hx) hF hne)).2 (by omega) (by simpa using hr)

end coo

variable {K : Type} [Field K] [LinearOrder K] [IsStrictOrderedRing K]

/-- The weighted mean over a side. -/
def sideSum {dim : ℕ} (Q : Quad K dim) (r : K × List (ℕ × K)) (u : ℕ → K) : K := (r.2.map (fun e => e.2 * u (qCol Q e.1))).sum

theorem tripSum_side {dim : ℕ} (Q : Quad K dim) (r : K × List (ℕ × K)) (u : ℕ → K) (row i : ℕ) (κ : K) :
    tripSum (r.2.map (fun e => (row, qCol Q e.1, e.2 * κ))) u i = if row = i then κ * sideSum Q r u else 0 := by
  unfold tripSum sideSum
  induction r.2 with
  | nil => simp
  | cons e l ih =>
    by_cases h : row = i
    · simp only [h, if_true] at ih ⊢
      simp only [List.map_cons, beq_self_eq_true, List.filter_cons_of_pos, List.sum_cons] at ih ⊢
      rw [ih]; ring
    · rw [if_neg h] at ih ⊢
      rw [List.map_cons, List.filter_cons_of_neg (by simpa using h)]
      exact ih

theorem tripSum_side_pos {dim : ℕ} (Q : Quad K dim) (r : K × List (ℕ × K)) (u : ℕ → K) (row i : ℕ) (κ : K) :
    tripSum (r.2.map (fun e => (row, qCol Q e.1, e.2 / κ))) u i = if row = i then sideSum Q r u / κ else 0 := by
  have := tripSum_side Q r u row i (1 / κ)
  rw [show (1 / κ) * sideSum Q r u = sideSum Q r u / κ by ring] at this
  rw [← this]
  congr 1
  apply List.map_congr_left
  intro e _
  rw [show e.2 / κ = e.2 * (1 / κ) by ring]

theorem tripSum_side_neg {dim : ℕ} (Q : Quad K dim) (r : K × List (ℕ × K)) (u : ℕ → K) (row i : ℕ) (κ : K) :
    tripSum (r.2.map (fun e => (row, qCol Q e.1, -e.2 / κ))) u i = if row = i then - sideSum Q r u / κ else 0 := by
  have := tripSum_side Q r u row i (-1 / κ)
  rw [show (-1 / κ) * sideSum Q r u = - sideSum Q r u / κ by ring] at this
  rw [← this]
  congr 1
  apply List.map_congr_left
  intro e _
  rw [show -e.2 / κ = e.2 * (-1 / κ) by ring]

theorem tripSum_cons (row c i : ℕ) (v : K) (u : ℕ → K) (t : Triplets K) : tripSum ((row, c, v) :: t) u i = (if row = i then v * u c else 0) + tripSum t u i := by
  by_cases h : row = i <;> simp [tripSum, h]

theorem grad_tripSum {dim : ℕ} {Q : Quad K dim} {n i child : ℕ} (hi : i < n) {s1 s2 s3 s4 : K × List (ℕ × K)} (h1 : qSide Q child 1 = some s1) (h2 : qSide Q child 2 = some s2)
    (h3 : qSide Q child 3 = some s3) (h4 : qSide Q child 4 = some s4) (h12 : s1.1 + s2.1 ≠ 0) (h34 : s3.1 + s4.1 ≠ 0) :
    ∃ t, gradTriplets Q n i child = some t ∧ (∀ e ∈ t, e.1 = i ∨ e.1 = i + n) ∧
      (∀ e ∈ t, e.2.1 = i ∨ ∃ p ∈ s1.2 ++ s2.2 ++ s3.2 ++ s4.2, e.2.1 = qCol Q p.1) ∧
      (∀ u, tripSum t u i = ((sideSum Q s2 u + if s2.1 = 0 then u i else 0) - (sideSum Q s1 u + if s1.1 = 0 then u i else 0)) / (s1.1 + s2.1)) ∧
      (∀ u, tripSum t u (i + n) = ((sideSum Q s4 u + if s4.1 = 0 then u i else 0) - (sideSum Q s3 u + if s3.1 = 0 then u i else 0)) / (s3.1 + s4.1)) := by
  unfold gradTriplets
  simp only [h1, h2, h3, h4, Option.bind_eq_bind, Option.bind_some]
  rw [if_neg (by tauto)]
  refine ⟨_, rfl, ?_, ?_, ?_, ?_⟩
  · intro e he
    obtain ⟨e', -, rfl⟩ := List.mem_map.mp he
    split_ifs <;> simp
  · intro e he
    obtain ⟨e', he', rfl⟩ := List.mem_map.mp he
    have hcol : e'.2.1 = i ∨ ∃ p ∈ s1.2 ++ s2.2 ++ s3.2 ++ s4.2, e'.2.1 = qCol Q p.1 := by
      rcases List.mem_append.mp he' with h | h
      · right
        unfold qEntries at h
        rw [List.mem_flatMap] at h
        obtain ⟨s, hs, h⟩ := h
        obtain ⟨p, hp, rfl⟩ := List.mem_map.mp h
        refine ⟨p, ?_, rfl⟩
        simp only [List.mem_cons, List.not_mem_nil, or_false] at hs
        simp only [List.mem_append]
        rcases hs with rfl | rfl | rfl | rfl <;> tauto
      · left
        obtain ⟨s, -, rfl⟩ := List.mem_map.mp h
        rfl
    split_ifs <;> exact hcol
  all_goals
    intro u
    have hin : i ≠ i + n := by omega
    have hin' : i + n ≠ i := by omega
    simp only [qEntries, List.flatMap_cons, List.flatMap_nil, List.append_nil, List.map_append, List.map_map, Function.comp_def, tripSum_append]
    simp only [if_true, show (2 : ℕ) ≠ 1 by decide, show (3 : ℕ) ≠ 1 by decide, show (3 : ℕ) ≠ 2 by decide, show (4 : ℕ) ≠ 1 by decide, show (4 : ℕ) ≠ 2 by decide,
      show (4 : ℕ) ≠ 3 by decide, if_false]
    simp only [List.filter_cons, List.filter_nil, beq_iff_eq]
    rw [tripSum_side_neg, tripSum_side_pos, tripSum_side_neg, tripSum_side_pos]
    by_cases z1 : s1.1 = 0 <;> by_cases z2 : s2.1 = 0 <;> by_cases z3 : s3.1 = 0 <;> by_cases z4 : s4.1 = 0 <;>
      first
      | (exfalso; apply h12; rw [z1, z2]; ring1)
      | (exfalso; apply h34; rw [z3, z4]; ring1)
      | skip
  all_goals
    simp only [*, if_true, if_false, List.map_cons, List.map_nil]
    try simp only [show (2 : ℕ) ≠ 1 by decide, show (3 : ℕ) ≠ 1 by decide, show (3 : ℕ) ≠ 2 by decide, show (4 : ℕ) ≠ 1 by decide, show (4 : ℕ) ≠ 2 by decide,
      show (4 : ℕ) ≠ 3 by decide, if_false]
    simp only [tripSum_cons, tripSum_nil, hin, hin', if_true, if_false]
    ring

end Gpy
