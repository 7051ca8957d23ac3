import Verif.Model.Quadtree
import Mathlib.Tactic.Ring
import Mathlib.Tactic.NormNum
import Mathlib.Tactic.IntervalCases

/-! Dyadic intervals `[a/2^k, (a+1)/2^k]`. -/

set_option autoImplicit false
namespace Gpy

/-- the upper end of `[a/2^k,(a+1)/2^k]` is the lower end of `[b/2^l,(b+1)/2^l]` -/
def upE (k a l b : ℕ) : Prop := (a + 1) * 2 ^ l = b * 2 ^ k

/-- the interiors of the two intervals meet -/
def ovE (k a l b : ℕ) : Prop := a * 2 ^ l < (b + 1) * 2 ^ k ∧ b * 2 ^ k < (a + 1) * 2 ^ l

theorem ovE_symm {k a l b : ℕ} : ovE k a l b ↔ ovE l b k a := by unfold ovE; tauto

/-- coarse `(k,a)`, fine `(k+m,b)` -/
theorem upE_add (k a m b : ℕ) : upE k a (k + m) b ↔ (a + 1) * 2 ^ m = b := by
  unfold upE
  have h : 0 < 2 ^ k := by positivity
  rw [pow_add]
  constructor
  · intro e
    apply Nat.eq_of_mul_eq_mul_left h
    nlinarith [e]
  · intro e; subst e; ring

theorem upE_add' (k a m b : ℕ) : upE (k + m) b k a ↔ b + 1 = a * 2 ^ m := by
  unfold upE
  have h : 0 < 2 ^ k := by positivity
  rw [pow_add]
  constructor
  · intro e
    apply Nat.eq_of_mul_eq_mul_left h
    nlinarith [e]
  · intro e; rw [e]; ring

theorem ovE_add (k a m b : ℕ) : ovE k a (k + m) b ↔ b / 2 ^ m = a := by
  unfold ovE
  have h : 0 < 2 ^ k := by positivity
  have hm : 0 < 2 ^ m := by positivity
  rw [pow_add, Nat.div_eq_iff hm]
  have e1 : a * (2 ^ k * 2 ^ m) < (b + 1) * 2 ^ k ↔ a * 2 ^ m < b + 1 := by
    rw [show a * (2 ^ k * 2 ^ m) = (a * 2 ^ m) * 2 ^ k by ring]
    exact Nat.mul_lt_mul_right h
  have e2 : b * 2 ^ k < (a + 1) * (2 ^ k * 2 ^ m) ↔ b < (a + 1) * 2 ^ m := by
    rw [show (a + 1) * (2 ^ k * 2 ^ m) = ((a + 1) * 2 ^ m) * 2 ^ k by ring]
    exact Nat.mul_lt_mul_right h
  rw [e1, e2]
  have : (a + 1) * 2 ^ m = a * 2 ^ m + 2 ^ m := by ring
  omega

theorem ovE_add' (k a m b : ℕ) : ovE (k + m) b k a ↔ b / 2 ^ m = a := by rw [ovE_symm, ovE_add]

/-- the bit of the ancestor of `(l,b)` on level `k+1` -/
def ancBit (k l b : ℕ) : ℕ := b / 2 ^ (l - (k + 1)) % 2

section coarse
variable {k a l b β : ℕ} (h : l ≤ k) (hβ : β < 2)
include h hβ

theorem ov_child_coarse : ovE l b (k + 1) (2 * a + β) ↔ ovE l b k a := by
  obtain ⟨m, rfl⟩ := Nat.exists_eq_add_of_le h
  rw [ovE_add, show l + m + 1 = l + (m + 1) by ring, ovE_add, pow_succ', ← Nat.div_div_eq_div_mul]
  rw [show (2 * a + β) / 2 = a by omega]

theorem up_child_coarse : upE l b (k + 1) (2 * a + β) ↔ upE l b k a ∧ β = 0 := by
  obtain ⟨m, rfl⟩ := Nat.exists_eq_add_of_le h
  rw [upE_add, show l + m + 1 = l + (m + 1) by ring, upE_add, pow_succ']
  rw [show (b + 1) * (2 * 2 ^ m) = 2 * ((b + 1) * 2 ^ m) by ring]
  omega

theorem up_child_coarse' : upE (k + 1) (2 * a + β) l b ↔ upE k a l b ∧ β = 1 := by
  obtain ⟨m, rfl⟩ := Nat.exists_eq_add_of_le h
  rw [upE_add', show l + m + 1 = l + (m + 1) by ring, upE_add', pow_succ']
  rw [show b * (2 * 2 ^ m) = 2 * (b * 2 ^ m) by ring]
  omega

end coarse

section fine
variable {k a l b β : ℕ} (h : k < l) (hβ : β < 2)
include h hβ

theorem ov_child_fine : ovE l b (k + 1) (2 * a + β) ↔ ovE l b k a ∧ ancBit k l b = β := by
  obtain ⟨m, rfl⟩ := Nat.exists_eq_add_of_lt h
  unfold ancBit
  rw [show k + m + 1 = (k + 1) + m by ring, ovE_add', show (k + 1) + m = k + (m + 1) by ring, ovE_add', pow_succ,
    ← Nat.div_div_eq_div_mul, show k + (m + 1) - (k + 1) = m by omega]
  omega

/-- `b` ends where the child begins -/
theorem up_child_fine : upE l b (k + 1) (2 * a + β) ↔
    (upE l b k a ∧ β = 0) ∨ (β = 1 ∧ upE l b (k + 1) (2 * a + 1) ∧ ovE l b k a) := by
  obtain ⟨m, rfl⟩ := Nat.exists_eq_add_of_lt h
  have hm : 0 < 2 ^ m := by positivity
  rw [show k + m + 1 = (k + 1) + m by ring, upE_add', upE_add', show (k + 1) + m = k + (m + 1) by ring, upE_add', ovE_add', pow_succ]
  have hb : β = 0 ∨ β = 1 := by omega
  rcases hb with rfl | rfl
  · rw [show (2 * a + 0) * 2 ^ m = a * (2 ^ m * 2) by ring]; simp
  · simp only [Nat.one_ne_zero, and_false, false_or, true_and]
    constructor
    · intro e
      refine ⟨e, ?_⟩
      rw [Nat.div_eq_iff (by positivity)]
      have : (2 * a + 1) * 2 ^ m = a * (2 ^ m * 2) + 2 ^ m := by ring
      omega
    · exact fun e => e.1

theorem up_child_fine' : upE (k + 1) (2 * a + β) l b ↔
    (upE k a l b ∧ β = 1) ∨ (β = 0 ∧ upE (k + 1) (2 * a) l b ∧ ovE l b k a) := by
  obtain ⟨m, rfl⟩ := Nat.exists_eq_add_of_lt h
  have hm : 0 < 2 ^ m := by positivity
  rw [show k + m + 1 = (k + 1) + m by ring, upE_add, upE_add, show (k + 1) + m = k + (m + 1) by ring, upE_add, ovE_add', pow_succ]
  have hb : β = 0 ∨ β = 1 := by omega
  rcases hb with rfl | rfl
  · simp only [Nat.zero_ne_one, and_false, false_or, true_and, Nat.add_zero]
    constructor
    · intro e
      refine ⟨e, ?_⟩
      rw [Nat.div_eq_iff (by positivity)]
      have : (2 * a + 1) * 2 ^ m = a * (2 ^ m * 2) + 2 ^ m := by ring
      omega
    · exact fun e => e.1
  · rw [show (2 * a + 1 + 1) * 2 ^ m = (a + 1) * (2 ^ m * 2) by ring]; simp

omit hβ in
theorem ancBit_up (e : upE l b k a) : ancBit k l b = 1 := by
  obtain ⟨m, rfl⟩ := Nat.exists_eq_add_of_lt h
  have hm : 0 < 2 ^ m := by positivity
  rw [show k + m + 1 = k + (m + 1) by ring, upE_add', pow_succ] at e
  unfold ancBit
  rw [show k + m + 1 - (k + 1) = m by omega]
  have ha : a ≠ 0 := by rintro rfl; simp at e
  obtain ⟨a, rfl⟩ := Nat.exists_eq_succ_of_ne_zero ha
  have : b / 2 ^ m = 2 * a + 1 := by
    rw [Nat.div_eq_iff hm]
    have e1 : (2 * a + 1) * 2 ^ m = 2 * (a * 2 ^ m) + 2 ^ m := by ring
    have e2 : a.succ * (2 ^ m * 2) = 2 * (a * 2 ^ m) + 2 * 2 ^ m := by rw [Nat.succ_eq_add_one]; ring
    omega
  omega

omit hβ in
theorem ancBit_up' (e : upE k a l b) : ancBit k l b = 0 := by
  obtain ⟨m, rfl⟩ := Nat.exists_eq_add_of_lt h
  have hm : 0 < 2 ^ m := by positivity
  rw [show k + m + 1 = k + (m + 1) by ring, upE_add, pow_succ] at e
  unfold ancBit
  rw [show k + m + 1 - (k + 1) = m by omega, ← e,
    show (a + 1) * (2 ^ m * 2) = (2 * (a + 1)) * 2 ^ m by ring, Nat.mul_div_cancel _ hm]
  omega

end fine

theorem up_sibling {k a β γ : ℕ} (hβ : β < 2) (hγ : γ < 2) : upE (k + 1) (2 * a + β) (k + 1) (2 * a + γ) ↔ β = 0 ∧ γ = 1 := by
  have := upE_add (k + 1) (2 * a + β) 0 (2 * a + γ)
  rw [Nat.add_zero] at this
  rw [this, pow_zero]; omega

theorem ov_sibling {k a β γ : ℕ} : ovE (k + 1) (2 * a + β) (k + 1) (2 * a + γ) ↔ β = γ := by
  have := ovE_add (k + 1) (2 * a + β) 0 (2 * a + γ)
  rw [Nat.add_zero] at this
  rw [this, pow_zero]; omega

theorem ancBit_lt (k l b : ℕ) : ancBit k l b < 2 := Nat.mod_lt _ (by norm_num)

/-- bit `j` of the number `k` of a child -/
def kbit (k j : ℕ) : ℕ := k / 2 ^ j % 2

theorem kbit_lt (k j : ℕ) : kbit k j < 2 := Nat.mod_lt _ (by norm_num)

/-! ## the tables -/

/-- `lookup_a`: code `2j+1` lists the children on the upper side of axis `j`, code `2j+2` those on the lower side -/
theorem lookupA_spec {dim : ℕ} (hd : dim = 2 ∨ dim = 3) (j s : ℕ) (hj : j < dim) (hs : s < 2) :
    ∃ r, lookupA.lookup (2 * j + 1 + s) = some r ∧ ∀ k < 2 ^ dim, (r.take (2 ^ (dim - 1))).count k = if kbit k j = 1 - s then 1 else 0 := by
  rcases hd with rfl | rfl
  · interval_cases j <;> interval_cases s <;> exact ⟨_, rfl, by decide⟩
  · interval_cases j <;> interval_cases s <;> exact ⟨_, rfl, by decide⟩

/-- `lookup_b`: the child on the other side of the facet -/
theorem lookupB_spec {dim : ℕ} (hd : dim = 2 ∨ dim = 3) (j s wc : ℕ) (hj : j < dim) (hs : s < 2) (hw : wc < 2 ^ dim)
    (hb : kbit wc j = s) :
    ∃ k, (lookupB.filter (fun r => r.1 == 2 * j + 1 + s && r.2.1 == wc)).map (fun r => r.2.2) = [k] ∧ k < 2 ^ dim ∧
      ∀ i < dim, kbit k i = if i = j then 1 - s else kbit wc i := by
  rcases hd with rfl | rfl
  · revert hb; norm_num at hw
    interval_cases j <;> interval_cases s <;> interval_cases wc <;> first
      | (intro hb; exact absurd hb (by decide)) | (intro _; exact ⟨_, rfl, by decide, by decide⟩)
  · revert hb; norm_num at hw
    interval_cases j <;> interval_cases s <;> interval_cases wc <;> first
      | (intro hb; exact absurd hb (by decide)) | (intro _; exact ⟨_, rfl, by decide, by decide⟩)

theorem quadOffsets_spec {dim : ℕ} (hd : dim = 2 ∨ dim = 3) (k j : ℕ) (hk : k < 2 ^ dim) (hj : j < dim) :
    ((quadOffsets dim).getD k []).getD j 0 = 2 * (kbit k j : Int) - 1 := by
  rcases hd with rfl | rfl <;> norm_num at hk <;> interval_cases j <;> interval_cases k <;> decide

theorem squareMat_spec {dim : ℕ} (hd : dim = 2 ∨ dim = 3) (k k' : ℕ) (hk : k < 2 ^ dim) (hk' : k' < 2 ^ dim) (j s : ℕ) (hj : j < dim)
    (hs : s < 2) :
    squareMat dim k k' = 2 * j + 1 + s ↔ kbit k j = 1 - s ∧ kbit k' j = s ∧ ∀ i < dim, i ≠ j → kbit k i = kbit k' i := by
  rcases hd with rfl | rfl <;> norm_num at hk hk' <;> interval_cases j <;> interval_cases s <;> interval_cases k <;>
    interval_cases k' <;> decide

theorem squareMat_range {dim : ℕ} (hd : dim = 2 ∨ dim = 3) (k k' : ℕ) (hk : k < 2 ^ dim) (hk' : k' < 2 ^ dim) :
    squareMat dim k k' ≤ 2 * dim := by
  rcases hd with rfl | rfl <;> norm_num at hk hk' <;> interval_cases k <;> interval_cases k' <;> decide

theorem kbit_ext {dim : ℕ} (hd : dim = 2 ∨ dim = 3) (k k' : ℕ) (hk : k < 2 ^ dim) (hk' : k' < 2 ^ dim)
    (h : ∀ i < dim, kbit k i = kbit k' i) : k = k' := by
  revert h
  rcases hd with rfl | rfl <;> norm_num at hk hk' <;> interval_cases k <;> interval_cases k' <;> decide

theorem oppCode_dir (j s : ℕ) (hj : j < 3) (hs : s < 2) : oppCode (2 * j + 1 + s) = 2 * j + 1 + (1 - s) := by
  interval_cases j <;> interval_cases s <;> rfl

theorem exists_bits {dim : ℕ} (hd : dim = 2 ∨ dim = 3) (f : Fin dim → ℕ) (hf : ∀ j, f j < 2) : ∃ k < 2 ^ dim, ∀ j : Fin dim, kbit k j = f j := by
  rcases hd with rfl | rfl
  · refine ⟨f 0 + 2 * f 1, ?_, ?_⟩
    · have := hf 0; have := hf 1; norm_num; omega
    · have := hf 0; have := hf 1
      intro j; unfold kbit
      match j with
      | 0 => norm_num; omega
      | 1 => norm_num; omega
  · refine ⟨f 0 + 2 * f 1 + 4 * f 2, ?_, ?_⟩
    · have := hf 0; have := hf 1; have := hf 2; norm_num; omega
    · have := hf 0; have := hf 1; have := hf 2
      intro j; unfold kbit
      match j with
      | 0 => norm_num; omega
      | 1 => norm_num; omega
      | 2 => norm_num; omega

end Gpy
