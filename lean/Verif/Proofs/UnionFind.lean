import Verif.Model.Collapse
import Verif.Proofs.EqualizeLoop
import Mathlib.Data.Finset.Card
import Mathlib.Order.Interval.Finset.Nat

/-! The union-find structure of the remesher. -/

set_option autoImplicit false
namespace Gpy

/-- `P` is a forest, and `root` says in which tree a vertex is -/
structure Forest (n : ℕ) (P : Arr ℕ) (root : ℕ → ℕ) : Prop where
  size : P.size = n
  lt : ∀ x < n, P.val x < n
  up : ∀ x < n, root (P.val x) = root x
  top : ∀ x < n, P.val x = x → root x = x
  rlt : ∀ x < n, root x < n
  rfix : ∀ x < n, P.val (root x) = root x
  rank : ∃ r : ℕ → ℕ, ∀ x < n, P.val x ≠ x → r (P.val x) < r x

theorem Forest.ridem {n : ℕ} {P : Arr ℕ} {root : ℕ → ℕ} (h : Forest n P root) {x : ℕ} (hx : x < n) : root (root x) = root x :=
  h.top _ (h.rlt x hx) (h.rfix x hx)

theorem Forest.brank {n : ℕ} {P : Arr ℕ} {root : ℕ → ℕ} (h : Forest n P root) :
    ∃ r : ℕ → ℕ, (∀ x < n, P.val x ≠ x → r (P.val x) < r x) ∧ ∀ x, r x ≤ n := by
  obtain ⟨r, hr⟩ := h.rank
  refine ⟨fun x => ((Finset.range n).filter (fun y => r y < r x)).card, ?_, ?_⟩
  · intro x hx hp
    apply Finset.card_lt_card
    rw [Finset.ssubset_iff_of_subset]
    · exact ⟨P.val x, by simp [h.lt x hx, hr x hx hp], by simp⟩
    · intro y hy
      simp only [Finset.mem_filter] at hy ⊢
      exact ⟨hy.1, hy.2.trans (hr x hx hp)⟩
  · intro x
    refine (Finset.card_filter_le _ _).trans ?_
    simp

theorem ufFind_fuel {n : ℕ} {root : ℕ → ℕ} (r : ℕ → ℕ) (k : ℕ) : ∀ (P : Arr ℕ) (x : ℕ), Forest n P root → (∀ x < n, P.val x ≠ x → r (P.val x) < r x) → x < n → r x < k →
    ∃ P', ufFind k P x = some (P', root x) ∧ Forest n P' root := by
  induction k with
  | zero => intro P x _ _ _ h; omega
  | succ k ih =>
    intro P x h hr hx hk
    unfold ufFind
    rw [rd_eq (by rw [h.size]; exact hx)]
    simp only [Option.bind_eq_bind, Option.bind_some]
    by_cases hp : P.val x = x
    · rw [if_pos hp]
      exact ⟨P, by rw [h.top x hx hp], h⟩
    · rw [if_neg hp]
      have hpx := h.lt x hx
      have hppx := h.lt _ hpx
      rw [rd_eq (by rw [h.size]; exact hpx)]
      simp only [Option.bind_some, Arr.wr, h.size, hx, if_true, Arr.rd, Function.update_self]
      have r1 := hr x hx hp
      have r2 : r (P.val (P.val x)) ≤ r (P.val x) := by
        by_cases hq : P.val (P.val x) = P.val x
        · rw [hq]
        · exact (hr _ hpx hq).le
      have hne : P.val (P.val x) ≠ x := by intro he; rw [he] at r2; omega
      have hr' : ∀ y < n, Function.update P.val x (P.val (P.val x)) y ≠ y → r (Function.update P.val x (P.val (P.val x)) y) < r y := by
        intro y hy
        by_cases hyx : y = x
        · subst hyx
          rw [Function.update_self]
          intro _
          omega
        · rw [Function.update_of_ne hyx]
          exact hr y hy
      have hF : Forest n ⟨n, Function.update P.val x (P.val (P.val x))⟩ root := by
        refine ⟨rfl, ?_, ?_, ?_, h.rlt, ?_, ⟨r, hr'⟩⟩
        · intro y hy
          show Function.update P.val x _ y < n
          by_cases hyx : y = x
          · subst hyx; rw [Function.update_self]; exact hppx
          · rw [Function.update_of_ne hyx]; exact h.lt y hy
        · intro y hy
          show root (Function.update P.val x _ y) = _
          by_cases hyx : y = x
          · subst hyx; rw [Function.update_self, h.up _ hpx, h.up _ hy]
          · rw [Function.update_of_ne hyx]; exact h.up y hy
        · intro y hy
          show Function.update P.val x _ y = y → _
          by_cases hyx : y = x
          · subst hyx; rw [Function.update_self]; intro he; exact absurd he hne
          · rw [Function.update_of_ne hyx]; exact h.top y hy
        · intro y hy
          show Function.update P.val x _ (root y) = _
          have : root y ≠ x := by
            intro he
            have := h.rfix y hy
            rw [he] at this
            exact hp this
          rw [Function.update_of_ne this]
          exact h.rfix y hy
      obtain ⟨P', q1, q2⟩ := ih ⟨n, Function.update P.val x (P.val (P.val x))⟩ (P.val (P.val x)) hF hr' hppx (by omega)
      refine ⟨P', ?_, q2⟩
      rw [q1, h.up _ hpx, h.up _ hx]

theorem ufFind_ok {n : ℕ} {P : Arr ℕ} {root : ℕ → ℕ} (h : Forest n P root) {x : ℕ} (hx : x < n) :
    ∃ P', ufFind (P.size + 1) P x = some (P', root x) ∧ Forest n P' root := by
  obtain ⟨r, hr, hb⟩ := h.brank
  exact ufFind_fuel r (P.size + 1) P x h hr hx (by rw [h.size]; have := hb x; omega)

theorem ufUnion_ok {n : ℕ} {P : Arr ℕ} {root : ℕ → ℕ} (h : Forest n P root) {a b : ℕ} (ha : a < n) (hb : b < n) :
    ∃ P', ufUnion P (a, b) = some P' ∧ Forest n P' (fun x => if root x = root a then root b else root x) := by
  obtain ⟨P1, q1, h1⟩ := ufFind_ok h ha
  obtain ⟨P2, q2, h2⟩ := ufFind_ok h1 hb
  unfold ufUnion
  simp only [q1, q2, Option.bind_eq_bind, Option.bind_some]
  by_cases hne : root a = root b
  · rw [if_neg (by simpa using hne)]
    refine ⟨P2, rfl, ?_⟩
    have : (fun x => if root x = root a then root b else root x) = root := by
      funext x; split_ifs with hx
      · rw [hx, hne]
      · rfl
    rw [this]; exact h2
  · rw [if_pos hne]
    have hra := h2.rlt a ha
    have hrb := h2.rlt b hb
    simp only [Arr.wr, h2.size, hra, if_true]
    refine ⟨_, rfl, ?_⟩
    obtain ⟨r, hr⟩ := h2.rank
    have ia := h2.ridem ha
    have ib := h2.ridem hb
    refine ⟨rfl, ?_, ?_, ?_, ?_, ?_, ⟨fun x => if root x = root a then r x + r (root b) + 1 else r x, ?_⟩⟩
    · intro x hx
      show Function.update P2.val (root a) (root b) x < n
      by_cases hxa : x = root a
      · subst hxa; rw [Function.update_self]; exact hrb
      · rw [Function.update_of_ne hxa]; exact h2.lt x hx
    · intro x hx
      simp only
      by_cases hxa : x = root a
      · subst hxa; rw [Function.update_self, ia, if_pos rfl, ib, if_neg (Ne.symm hne)]
      · rw [Function.update_of_ne hxa, h2.up x hx]
    · intro x hx
      simp only
      by_cases hxa : x = root a
      · subst hxa; rw [Function.update_self]; intro he; exact absurd he.symm hne
      · rw [Function.update_of_ne hxa]
        intro he
        have := h2.top x hx he
        rw [this, if_neg hxa]
    · intro x hx
      split_ifs
      · exact hrb
      · exact h2.rlt x hx
    · intro x hx
      simp only
      split_ifs with hxa
      · rw [Function.update_of_ne (Ne.symm hne)]; exact h2.rfix b hb
      · rw [Function.update_of_ne hxa]; exact h2.rfix x hx
    · intro x hx
      simp only
      by_cases hxa : x = root a
      · subst hxa
        rw [Function.update_self, ia, ib, if_neg (Ne.symm hne), if_pos rfl]
        intro _; omega
      · rw [Function.update_of_ne hxa, h2.up x hx]
        intro hp
        have := hr x hx hp
        split_ifs
        · omega
        · exact this

end Gpy
