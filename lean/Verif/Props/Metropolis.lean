import Verif.Model.Metropolis
import Mathlib.Tactic.Linarith
import Mathlib.Tactic.NormNum
import Mathlib.Algebra.Order.Field.Basic

/-! C41: `metropolis_hastings`. -/

set_option autoImplicit false
namespace Gpy

variable {X : Type}

/-- Starting from `x` and the `a`-th call, all proposals before the `b`-th are rejected and that one, `y`, is accepted: a proposal `z` from `x` with
random number `r` is accepted when `r·p(x) < p(z)`. -/
def FirstAccepted (p : X → ℝ) (prop : ℕ → X → X) (r : ℕ → ℝ) (x : X) (a b : ℕ) (y : X) : Prop :=
  a ≤ b ∧ y = prop b x ∧ r b * p x < p y ∧ ∀ k, a ≤ k → k < b → p (prop k x) ≤ r k * p x

structure MHInv (p : X → ℝ) (prop : ℕ → X → X) (r : ℕ → ℝ) (x0 : X) (k : ℕ) (s : MH X) (c : ℕ → ℕ) : Prop where
  len : s.F.length = s.S.length
  pos : 0 < s.S.length
  head : s.S[0]? = some x0 ∧ s.F[0]? = some 0
  last : s.S[s.S.length - 1]? = some s.x0
  f0 : s.f0 = p s.x0
  ppos : ∀ x ∈ s.S, 0 < p x
  vals : ∀ i, 0 < i → ∀ x, s.S[i]? = some x → s.F[i]? = some (p x)
  c0 : c 0 = 0
  chain : ∀ i x y, s.S[i]? = some x → s.S[i + 1]? = some y → c i < c (i + 1) ∧ FirstAccepted p prop r x (c i) (c (i + 1) - 1) y
  now : c (s.S.length - 1) ≤ k
  rej : ∀ l, c (s.S.length - 1) ≤ l → l < k → p (prop l s.x0) ≤ r l * p s.x0

theorem mhStep_inv {p : X → ℝ} {prop : ℕ → X → X} {r : ℕ → ℝ} {x0 : X} {k : ℕ} {s : MH X} {c : ℕ → ℕ} (hr : ∀ k, 0 ≤ r k)
    (h : MHInv p prop r x0 k s c) : ∃ c', MHInv p prop r x0 (k + 1) (mhStep p (prop k) (r k) s) c' := by
  have hp0 : 0 < p s.x0 := h.ppos _ (List.mem_of_getElem? h.last)
  have acc : mhAccept (r k) (p (prop k s.x0)) s.f0 = true ↔ r k * p s.x0 < p (prop k s.x0) := by
    unfold mhAccept
    rw [h.f0, if_neg hp0.ne']
    rw [decide_eq_true_iff, lt_div_iff₀ hp0]
  unfold mhStep
  simp only
  by_cases ha : mhAccept (r k) (p (prop k s.x0)) s.f0 = true
  · rw [if_pos ha]
    rw [acc] at ha
    have hpy : 0 < p (prop k s.x0) := lt_of_le_of_lt (mul_nonneg (hr k) hp0.le) ha
    have hlen := h.pos
    refine ⟨fun i => if i < s.S.length then c i else k + 1, ⟨by simp [h.len], by simp, ?_, by simp, rfl, ?_, ?_, ?_, ?_, by simp, ?_⟩⟩
    · obtain ⟨a, b⟩ := h.head
      have hF : 0 < s.F.length := by rw [h.len]; exact hlen
      exact ⟨by rw [List.getElem?_append_left hlen, a], by rw [List.getElem?_append_left hF, b]⟩
    · intro x hx
      rw [List.mem_append, List.mem_singleton] at hx
      rcases hx with hx | rfl
      · exact h.ppos x hx
      · exact hpy
    · intro i hi x hx
      by_cases hc : i < s.S.length
      · rw [List.getElem?_append_left hc] at hx
        rw [List.getElem?_append_left (by rw [h.len]; exact hc)]
        exact h.vals i hi x hx
      · have hi' : i = s.S.length := by
          have := (List.getElem?_eq_some_iff.mp hx).1
          simp at this; omega
        subst hi'
        rw [List.getElem?_concat_length] at hx
        cases hx
        rw [← h.len, List.getElem?_concat_length]
    · simp [h.pos, h.c0]
    · intro i x y hx hy
      have hi := (List.getElem?_eq_some_iff.mp hy).1
      rw [List.length_append, List.length_singleton] at hi
      rw [List.getElem?_append_left (by omega)] at hx
      by_cases hc : i + 1 < s.S.length
      · rw [List.getElem?_append_left hc] at hy
        simp only [if_pos hc, if_pos (show i < s.S.length by omega)]
        exact h.chain i x y hx hy
      · have hi' : i = s.S.length - 1 := by omega
        rw [show i + 1 = s.S.length by omega, List.getElem?_concat_length] at hy
        cases hy
        rw [hi', h.last] at hx
        cases hx
        simp only [if_pos (show i < s.S.length by omega), if_neg hc]
        rw [hi']
        refine ⟨Nat.lt_succ_of_le h.now, by simpa using h.now, rfl, by simpa using ha, ?_⟩
        intro l h1 h2
        exact h.rej l h1 (by simpa using h2)
    · intro l h1 h2
      simp at h1
      omega
  · rw [if_neg ha]
    rw [acc, not_lt] at ha
    refine ⟨c, ⟨h.len, h.pos, h.head, h.last, h.f0, h.ppos, h.vals, h.c0, h.chain, Nat.le_succ_of_le h.now, ?_⟩⟩
    intro l h1 h2
    by_cases hl : l = k
    · rw [hl]; exact ha
    · exact h.rej l h1 (by omega)

theorem mh_start (p : X → ℝ) (prop : ℕ → X → X) (r : ℕ → ℝ) {x0 : X} (hp : 0 < p x0) :
    MHInv p prop r x0 0 ⟨x0, p x0, [x0], [0]⟩ (fun _ => 0) where
  len := rfl
  pos := by simp
  head := ⟨rfl, rfl⟩
  last := rfl
  f0 := rfl
  ppos := by simpa using hp
  vals := by
    intro i hi x hx
    rw [List.getElem?_eq_none (by simp; omega)] at hx
    cases hx
  c0 := rfl
  chain := by
    intro i x y hx hy
    rw [List.getElem?_eq_none (by simp)] at hy
    cases hy
  now := le_refl _
  rej := by intro l h1 h2; omega

theorem mhLoop_inv {p : X → ℝ} {prop : ℕ → X → X} {r : ℕ → ℝ} {x0 : X} {num : ℕ} (hr : ∀ k, 0 ≤ r k) :
    ∀ (fuel k : ℕ) (s : MH X) (c : ℕ → ℕ), MHInv p prop r x0 k s c → s.S.length ≤ num → ∀ out, mhLoop p prop r num fuel k s = some out →
      ∃ k' s' c', MHInv p prop r x0 k' s' c' ∧ s'.S.length = num ∧ out = (s'.S, s'.F) := by
  intro fuel
  induction fuel with
  | zero =>
    intro k s c h hn out ho
    unfold mhLoop at ho
    split at ho
    · cases ho
    · cases ho; exact ⟨k, s, c, h, by omega, rfl⟩
  | succ fuel ih =>
    intro k s c h hn out ho
    unfold mhLoop at ho
    split at ho
    · rename_i hlt
      obtain ⟨c', h'⟩ := mhStep_inv hr h
      refine ih (k + 1) _ c' h' ?_ out ho
      unfold mhStep
      simp only
      split
      · simp; omega
      · exact hn
    · cases ho; exact ⟨k, s, c, h, by omega, rfl⟩

/-- **C41** if `metropolis_hastings` returns, it returns `num_samples` rows; the first state is `x0`, every later state is the first accepted proposal
from the state before it, no proposal is skipped, and the values recorded with the later states are theirs.  `c i` is the number of proposals made
before state `i` was recorded. -/
theorem C41_accepted_chain {p : X → ℝ} {prop : ℕ → X → X} {r : ℕ → ℝ} {x0 : X} {num fuel : ℕ} (hr : ∀ k, 0 ≤ r k) (hp : 0 < p x0)
    {S : List X} {F : List ℝ} (h : metropolisHastings p prop x0 num r fuel = some (S, F)) :
    S.length = num ∧ F.length = num ∧ S[0]? = some x0 ∧ (∀ i, 0 < i → ∀ x, S[i]? = some x → F[i]? = some (p x)) ∧
      ∃ c : ℕ → ℕ, c 0 = 0 ∧ ∀ i x y, S[i]? = some x → S[i + 1]? = some y →
        c i < c (i + 1) ∧ FirstAccepted p prop r x (c i) (c (i + 1) - 1) y := by
  unfold metropolisHastings at h
  split at h
  · cases h
  · rename_i hn
    obtain ⟨k, s, c, hi, hl, ho⟩ := mhLoop_inv hr fuel 0 ⟨x0, p x0, [x0], [0]⟩ (fun _ => 0)
      (mh_start p prop r hp) (by simp; omega) _ h
    cases ho
    exact ⟨hl, by rw [hi.len, hl], hi.head.1, hi.vals, c, hi.c0, hi.chain⟩

/-- **C41 fails for the first row**: the value recorded with the first state is `0`, whatever the density there. -/
theorem C41_first_value_violated {p : X → ℝ} {prop : ℕ → X → X} {r : ℕ → ℝ} {x0 : X} {num fuel : ℕ} (hr : ∀ k, 0 ≤ r k) (hp : 0 < p x0)
    {S : List X} {F : List ℝ} (h : metropolisHastings p prop x0 num r fuel = some (S, F)) : F[0]? = some 0 ∧ F[0]? ≠ some (p x0) := by
  unfold metropolisHastings at h
  split at h
  · cases h
  · rename_i hn
    obtain ⟨k, s, c, hi, hl, ho⟩ := mhLoop_inv hr fuel 0 ⟨x0, p x0, [x0], [0]⟩ (fun _ => 0)
      (mh_start p prop r hp) (by simp; omega) _ h
    cases ho
    refine ⟨hi.head.2, ?_⟩
    rw [hi.head.2]
    intro h'
    rw [Option.some.injEq] at h'
    exact hp.ne h'

/-- **C41 (termination)** when no proposal is worse than the state it starts from, the loop ends after `num_samples - 1` iterations. -/
theorem C41_terminates {p : X → ℝ} {prop : ℕ → X → X} {r : ℕ → ℝ} {x0 : X} {num : ℕ} (hr : ∀ k, r k < 1) (hp : 0 < p x0)
    (hm : ∀ k x, p x ≤ p (prop k x)) (hn : 0 < num) : ∃ out, metropolisHastings p prop x0 num r (num - 1) = some out := by
  unfold metropolisHastings
  rw [if_neg (by omega)]
  have key : ∀ (fuel k : ℕ) (s : MH X), s.f0 = p s.x0 → 0 < p s.x0 → num ≤ s.S.length + fuel → ∃ out, mhLoop p prop r num fuel k s = some out := by
    intro fuel
    induction fuel with
    | zero => intro k s _ _ h; exact ⟨(s.S, s.F), by unfold mhLoop; rw [if_neg (by omega)]⟩
    | succ fuel ih =>
      intro k s hf h0 h
      unfold mhLoop
      split
      · have hacc : mhAccept (r k) (p (prop k s.x0)) s.f0 = true := by
          unfold mhAccept
          rw [hf, if_neg h0.ne', decide_eq_true_iff, lt_div_iff₀ h0]
          have := mul_lt_mul_of_pos_right (hr k) h0
          have := hm k s.x0
          linarith
        have e : mhStep p (prop k) (r k) s = ⟨prop k s.x0, p (prop k s.x0), s.S ++ [prop k s.x0], s.F ++ [p (prop k s.x0)]⟩ := by
          unfold mhStep; simp only; rw [if_pos hacc]
        rw [e]
        exact ih _ _ rfl (lt_of_lt_of_le h0 (hm k s.x0)) (by simp; omega)
      · exact ⟨_, rfl⟩
  exact key (num - 1) 0 _ rfl hp (by simp; omega)

/-- a run on the integers with three samples -/
example : ∃ S F, metropolisHastings (X := ℤ) (fun z => (2 : ℝ) ^ z) (fun k z => z + k) 0 3 (fun _ => 1 / 2) 2 = some (S, F) ∧ S.length = 3 ∧ F[0]? = some 0 := by
  have h0 : (0 : ℝ) < (fun z : ℤ => (2 : ℝ) ^ z) 0 := by norm_num
  obtain ⟨⟨S, F⟩, h⟩ := C41_terminates (X := ℤ) (p := fun z => (2 : ℝ) ^ z) (prop := fun k z => z + k) (r := fun _ => 1 / 2) (x0 := 0) (num := 3)
    (by intro k; norm_num) h0 (by intro k x; exact zpow_le_zpow_right₀ (by norm_num) (by simp)) (by omega)
  exact ⟨S, F, h, (C41_accepted_chain (by intro k; norm_num) h0 h).1, (C41_first_value_violated (by intro k; norm_num) h0 h).1⟩

end Gpy
