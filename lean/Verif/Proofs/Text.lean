import Verif.Np.Text
import Mathlib.Data.Nat.Digits.Lemmas
import Mathlib.Tactic.IntervalCases
import Mathlib.Tactic.Ring

set_option autoImplicit false
namespace Np

theorem splitOn_ne_nil (c : Char) (s : List Char) : splitOn c s ≠ [] := by
  induction s with
  | nil => simp [splitOn]
  | cons a s ih =>
    simp only [splitOn]
    split
    · simp
    · split <;> simp

theorem splitOn_append (c : Char) (p s : List Char) (hp : c ∉ p) : splitOn c (p ++ c :: s) = p :: splitOn c s := by
  induction p with
  | nil => simp [splitOn]
  | cons a p ih =>
    have ha : a ≠ c := fun h => hp (by simp [h])
    rw [List.cons_append]
    simp only [splitOn]
    rw [if_neg ha, ih (fun h => hp (by simp [h]))]

theorem splitOn_single (c : Char) (p : List Char) (hp : c ∉ p) : splitOn c p = [p] := by
  induction p with
  | nil => rfl
  | cons a p ih =>
    have ha : a ≠ c := fun h => hp (by simp [h])
    simp only [splitOn]
    rw [if_neg ha, ih (fun h => hp (by simp [h]))]

theorem splitOn_join (c : Char) : ∀ x : List (List Char), x ≠ [] → (∀ t ∈ x, c ∉ t) → splitOn c (joinWith c x) = x
  | [], h, _ => absurd rfl h
  | [p], _, h => splitOn_single c p (h p (by simp))
  | p :: q :: ps, _, h => by
    rw [joinWith, splitOn_append c p _ (h p (by simp)), splitOn_join c (q :: ps) (by simp) (fun t ht => h t (by simp [ht]))]

/-- a file of lines -/
theorem splitOn_lines (L : List (List Char)) (h : ∀ l ∈ L, '\n' ∉ l) : splitOn '\n' (L.flatMap (fun l => l ++ ['\n'])) = L ++ [[]] := by
  induction L with
  | nil => rfl
  | cons l L ih =>
    rw [List.flatMap_cons, List.append_assoc, List.singleton_append, splitOn_append _ _ _ (h l (by simp)),
      ih (fun l hl => h l (by simp [hl])), List.cons_append]

theorem mem_joinWith {c a : Char} : ∀ {x : List (List Char)}, a ∈ joinWith c x → a = c ∨ ∃ t ∈ x, a ∈ t
  | [], h => by simp [joinWith] at h
  | [p], h => Or.inr ⟨p, by simp, h⟩
  | p :: q :: ps, h => by
    rw [joinWith, List.mem_append, List.mem_cons] at h
    rcases h with h | h | h
    · exact Or.inr ⟨p, by simp, h⟩
    · exact Or.inl h
    · rcases mem_joinWith h with h | ⟨t, ht, h⟩
      · exact Or.inl h
      · exact Or.inr ⟨t, by simp [ht], h⟩

theorem digitVal_digitChar {d : ℕ} (h : d < 10) : digitVal (Nat.digitChar d) = some d := by
  interval_cases d <;> decide

theorem parseNatAux_append (acc : ℕ) (s t : List Char) : parseNatAux acc (s ++ t) = (parseNatAux acc s).bind (fun a => parseNatAux a t) := by
  induction s generalizing acc with
  | nil => rfl
  | cons c s ih =>
    rw [List.cons_append]
    simp only [parseNatAux]
    cases digitVal c with
    | none => rfl
    | some d => exact ih _

theorem parseNatAux_digits (l : List ℕ) (h : ∀ d ∈ l, d < 10) (acc : ℕ) :
    parseNatAux acc (l.reverse.map Nat.digitChar) = some (acc * 10 ^ l.length + Nat.ofDigits 10 l) := by
  induction l with
  | nil => simp [parseNatAux]
  | cons d l ih =>
    rw [List.reverse_cons, List.map_append, parseNatAux_append, ih (fun d hd => h d (by simp [hd]))]
    simp only [Option.bind_some, List.map_cons, List.map_nil, parseNatAux, digitVal_digitChar (h d (by simp))]
    rw [Nat.ofDigits_cons, List.length_cons, pow_succ]
    congr 1
    ring

theorem natStr_ne (n : ℕ) : natStr n ≠ [] := by
  unfold natStr
  split
  · simp
  · next h =>
    have := (Nat.digits_ne_nil_iff_ne_zero (b := 10)).mpr h
    simpa using this

theorem natStr_char {n : ℕ} {c : Char} (h : c ∈ natStr n) : '0' ≤ c ∧ c ≤ '9' := by
  unfold natStr at h
  split at h
  · simp at h; subst h; decide
  · rw [List.mem_map] at h
    obtain ⟨d, hd, rfl⟩ := h
    have := Nat.digits_lt_base (b := 10) (by norm_num) (List.mem_reverse.mp hd)
    interval_cases d <;> decide

theorem parseNat_natStr (n : ℕ) : parseNat (natStr n) = some n := by
  have hne := natStr_ne n
  have : parseNat (natStr n) = parseNatAux 0 (natStr n) := by
    revert hne; generalize natStr n = s; intro hne
    cases s with
    | nil => exact absurd rfl hne
    | cons => rfl
  rw [this]
  unfold natStr
  split
  · next h => subst h; decide
  · rw [parseNatAux_digits _ (fun d hd => Nat.digits_lt_base (by norm_num) hd), Nat.ofDigits_digits]
    simp

theorem intStr_ne (z : ℤ) : intStr z ≠ [] := by
  cases z with
  | ofNat n => exact natStr_ne n
  | negSucc n => simp [intStr]

theorem intStr_char {z : ℤ} {c : Char} (h : c ∈ intStr z) : c = '-' ∨ ('0' ≤ c ∧ c ≤ '9') := by
  cases z with
  | ofNat n => exact Or.inr (natStr_char h)
  | negSucc n =>
    simp only [intStr, List.mem_cons] at h
    rcases h with h | h
    · exact Or.inl h
    · exact Or.inr (natStr_char h)

theorem parseInt_intStr (z : ℤ) : parseInt (intStr z) = some z := by
  cases z with
  | ofNat n =>
    have h := parseNat_natStr n
    have hc : ∀ c ∈ natStr n, '0' ≤ c ∧ c ≤ '9' := fun c hc => natStr_char hc
    simp only [intStr]
    revert h hc
    generalize natStr n = s
    intro h hc
    unfold parseInt
    split
    · next s' => exact absurd (hc '-' (by simp)) (by decide)
    · rw [h]; rfl
  | negSucc n =>
    simp only [intStr, parseInt, parseNat_natStr]
    rfl

theorem intStr_notin (z : ℤ) : ' ' ∉ intStr z ∧ '/' ∉ intStr z ∧ '\n' ∉ intStr z ∧ '\t' ∉ intStr z := by
  refine ⟨?_, ?_, ?_, ?_⟩ <;> intro h <;> rcases intStr_char h with h | h <;> revert h <;> decide

end Np
