import Verif.Model.Dmat
import Verif.Proofs.Text

/-! C50: `read_dmat`. -/

set_option autoImplicit false
namespace Gpy
open Np

variable {ν : Type}

/-! ## Specification: the file format -/

/-- the header line: number of columns, blank, number of rows -/
def headerLine (cols rows : ℕ) : List Char := natStr cols ++ ' ' :: natStr rows ++ ['\n']

/-- the entries of a matrix, column after column -/
def columnMajor (rows cols : ℕ) (M : ℕ → ℕ → ν) : List ν := (List.range cols).flatMap (fun j => (List.range rows).map (fun i => M i j))

/-- The ASCII file of a `rows × cols` matrix: header, then one entry per line, column after column. -/
def asciiFile (fmt : ν → List Char) (rows cols : ℕ) (M : ℕ → ℕ → ν) : List Char :=
  headerLine cols rows ++ (columnMajor rows cols M).flatMap (fun x => fmt x ++ ['\n'])

/-- The binary file: an empty header, the header, then the bytes of the entries, column after column. -/
def binaryFile (pack : ν → List Char) (rows cols : ℕ) (M : ℕ → ℕ → ν) : List Char :=
  headerLine 0 0 ++ headerLine cols rows ++ (columnMajor rows cols M).flatMap pack

/-- the result is the given matrix -/
def IsMatrix (D : Dmat ν) (rows cols : ℕ) (M : ℕ → ℕ → ν) : Prop :=
  D.rows = rows ∧ D.cols = cols ∧ ∀ i j, i < rows → j < cols → D.get i j = some (M i j)

/-- the contract of writing and parsing decimal numbers: nonempty ASCII text without blanks that parses to the number written -/
def TextOk (fmt : ν → List Char) (parse : List Char → Option ν) : Prop :=
  ∀ x, fmt x ≠ [] ∧ (∀ c ∈ fmt x, pySpace c = false ∧ c.toNat < 128) ∧ parse (fmt x) = some x

/-- the contract of packing a number into eight bytes -/
def PackOk (pack : ν → List Char) (unpack : List Char → ν) : Prop := ∀ x, (pack x).length = 8 ∧ unpack (pack x) = x

/-! ## Proofs -/

theorem readline_line : ∀ (s rest : List Char), '\n' ∉ s → readline (s ++ '\n' :: rest) = (s ++ ['\n'], rest)
  | [], rest, _ => rfl
  | c :: s, rest, h => by
    have hc : c ≠ '\n' := fun e => h (by rw [e]; exact List.mem_cons_self)
    have ih := readline_line s rest (fun hm => h (List.mem_cons_of_mem _ hm))
    rw [List.cons_append, readline, if_neg hc, ih]
    rfl

theorem dropWhile_none {s : List Char} (h : ∀ c ∈ s, pySpace c = false) : s.dropWhile pySpace = s := by
  cases s with
  | nil => rfl
  | cons c s => rw [List.dropWhile_cons_of_neg]; simp [h c List.mem_cons_self]

theorem pyStrip_line {s : List Char} (hne : s ≠ []) (h1 : ∀ c, s.head? = some c → pySpace c = false)
    (h2 : ∀ c, s.getLast? = some c → pySpace c = false) : pyStrip (s ++ ['\n']) = s := by
  unfold pyStrip
  cases s with
  | nil => exact absurd rfl hne
  | cons c s =>
    rw [List.cons_append, List.dropWhile_cons_of_neg (by simp [h1 c rfl])]
    rw [← List.cons_append, List.reverse_append, List.reverse_singleton, List.singleton_append, List.dropWhile_cons_of_pos (by decide)]
    obtain ⟨a, t, hat⟩ : ∃ a t, (c :: s).reverse = a :: t := by
      cases hr : (c :: s).reverse with
      | nil => simp at hr
      | cons a t => exact ⟨a, t, rfl⟩
    have hlast : (c :: s).getLast? = some a := by rw [← List.head?_reverse, hat]; rfl
    rw [hat, List.dropWhile_cons_of_neg (by simp [h2 a hlast]), ← hat, List.reverse_reverse]

theorem pySplitAux_token : ∀ (s cur rest : List Char), (∀ c ∈ s, pySpace c = false) → pySplitAux (s ++ rest) cur = pySplitAux rest (cur ++ s)
  | [], cur, rest, _ => by simp
  | c :: s, cur, rest, h => by
    rw [List.cons_append, pySplitAux, if_neg (by simp [h c List.mem_cons_self]),
      pySplitAux_token s _ rest (fun c hc => h c (List.mem_cons_of_mem _ hc))]
    simp

theorem natStr_plain {n : ℕ} {c : Char} (h : c ∈ natStr n) : pySpace c = false ∧ c.toNat < 128 := by
  obtain ⟨h1, h2⟩ := natStr_char h
  have e1 : 48 ≤ c.toNat := h1
  have e2 : c.toNat ≤ 57 := h2
  refine ⟨?_, by omega⟩
  unfold pySpace
  simp
  omega

theorem natStr_head_ne_minus (n : ℕ) : parseInt (natStr n) = some (n : ℤ) := parseInt_intStr (Int.ofNat n)

theorem dmatHeader_line (cols rows : ℕ) (rest : List Char) :
    dmatHeader (headerLine cols rows ++ rest) = some ((cols : ℤ), (rows : ℤ), rest) := by
  have hrl : readline (headerLine cols rows ++ rest) = (headerLine cols rows, rest) := by
    unfold headerLine
    have := readline_line (natStr cols ++ ' ' :: natStr rows) rest (by
      intro h
      rw [List.mem_append, List.mem_cons] at h
      rcases h with h | h | h
      · have := (natStr_plain h).1; simp [pySpace] at this
      · exact absurd h (by decide)
      · have := (natStr_plain h).1; simp [pySpace] at this)
    simpa using this
  unfold dmatHeader
  rw [hrl]
  have hd : decodeAscii (headerLine cols rows) = some (headerLine cols rows) := by
    unfold decodeAscii
    rw [if_pos]
    rw [List.all_eq_true]
    intro c hc
    rw [decide_eq_true_iff]
    unfold headerLine at hc
    simp only [List.mem_append, List.mem_cons, List.not_mem_nil, or_false] at hc
    rcases hc with (h | h | h) | h
    · exact (natStr_plain h).2
    · subst h; decide
    · exact (natStr_plain h).2
    · subst h; decide
  simp only [hd, Option.bind_eq_bind, Option.bind_some]
  have hs : pyStrip (headerLine cols rows) = natStr cols ++ ' ' :: natStr rows := by
    unfold headerLine
    apply pyStrip_line
    · simp
    · intro c hc
      obtain ⟨a, t, hat⟩ := List.exists_cons_of_ne_nil (natStr_ne cols)
      rw [hat] at hc
      simp at hc
      subst hc
      exact (natStr_plain (n := cols) (by rw [hat]; exact List.mem_cons_self)).1
    · intro c hc
      have hm : (natStr cols ++ ' ' :: natStr rows).getLast? = (natStr rows).getLast? := by
        have := natStr_ne rows
        cases h : natStr rows with
        | nil => exact absurd h this
        | cons a t => simp [List.getLast?_append, List.getLast?_cons]
      rw [hm] at hc
      exact (natStr_plain (List.mem_of_getLast? hc)).1
  rw [hs]
  have hsp : pySplit (natStr cols ++ ' ' :: natStr rows) = [natStr cols, natStr rows] := by
    unfold pySplit
    rw [pySplitAux_token _ _ _ (fun c hc => (natStr_plain hc).1), List.nil_append, pySplitAux, if_pos (by decide), if_neg (natStr_ne cols)]
    have := pySplitAux_token (natStr rows) [] [] (fun c hc => (natStr_plain hc).1)
    rw [List.append_nil, List.nil_append] at this
    rw [this, pySplitAux, if_neg (natStr_ne rows)]
  rw [hsp]
  simp only [natStr_head_ne_minus, Option.bind_eq_bind, Option.bind_some]

/-- reading back a list of values each written by `wr` -/
theorem dmatMany_list {α : Type} {rd : List Char → Option (α × List Char)} {wr : α → List Char} {Good : α → Prop}
    (h : ∀ x rest, Good x → rd (wr x ++ rest) = some (x, rest)) :
    ∀ (l : List α) (rest : List Char), (∀ x ∈ l, Good x) → dmatMany rd l.length (l.flatMap wr ++ rest) = some (l, rest)
  | [], rest, _ => rfl
  | x :: l, rest, hg => by
    rw [List.flatMap_cons, List.append_assoc, List.length_cons, dmatMany, h x _ (hg x List.mem_cons_self)]
    simp only [Option.bind_eq_bind, Option.bind_some]
    rw [dmatMany_list h l rest (fun y hy => hg y (List.mem_cons_of_mem _ hy))]
    rfl

theorem dmatBody_file {rd : List Char → Option (ν × List Char)} {wr : ν → List Char} (h : ∀ x rest, rd (wr x ++ rest) = some (x, rest))
    (rows cols : ℕ) (M : ℕ → ℕ → ν) :
    ∃ D, dmatBody rd cols rows ((columnMajor rows cols M).flatMap wr) = some D ∧ IsMatrix D rows cols M := by
  have h2 : ∀ (x : List ν) rest, x.length = rows → dmatMany rd rows (x.flatMap wr ++ rest) = some (x, rest) := by
    intro x rest hx
    rw [← hx]
    exact dmatMany_list (Good := fun _ => True) (fun x rest _ => h x rest) x rest (fun _ _ => trivial)
  have h3 := dmatMany_list (rd := dmatMany rd rows) (wr := fun x => x.flatMap wr) (Good := fun x => x.length = rows) h2
    ((List.range cols).map (fun j => (List.range rows).map (fun i => M i j))) [] (by
      intro x hx
      rw [List.mem_map] at hx
      obtain ⟨j, -, rfl⟩ := hx
      simp)
  rw [List.length_map, List.length_range, List.append_nil] at h3
  have hfm : (columnMajor rows cols M).flatMap wr =
      ((List.range cols).map (fun j => (List.range rows).map (fun i => M i j))).flatMap (fun x => x.flatMap wr) := by
    unfold columnMajor
    rw [List.flatMap_assoc, List.flatMap_map]
  refine ⟨⟨rows, cols, (List.range cols).map (fun j => (List.range rows).map (fun i => M i j))⟩, ?_, rfl, rfl, ?_⟩
  · unfold dmatBody
    rw [if_neg (by omega), hfm]
    simp only [Int.toNat_natCast, h3, Option.bind_eq_bind, Option.bind_some]
  · intro i j hi hj
    unfold Dmat.get
    simp [hi, hj]

/-- **C50 (ASCII).** Every matrix with at least one row or one column is read back from its ASCII file, in the right shape. -/
theorem C50_ascii {fmt : ν → List Char} {parse : List Char → Option ν} (hio : TextOk fmt parse) (unpack : List Char → ν)
    (rows cols : ℕ) (hne : ¬ (rows = 0 ∧ cols = 0)) (M : ℕ → ℕ → ν) :
    ∃ D, readDmat parse unpack (asciiFile fmt rows cols M) = some D ∧ IsMatrix D rows cols M := by
  have hrd : ∀ x rest, dmatAsciiValue parse (fmt x ++ ['\n'] ++ rest) = some (x, rest) := by
    intro x rest
    obtain ⟨h1, h2, h3⟩ := hio x
    have hrl := readline_line (fmt x) rest (fun hm => by have := (h2 _ hm).1; simp [pySpace] at this)
    unfold dmatAsciiValue
    rw [List.append_assoc, List.singleton_append, hrl]
    have hd : decodeAscii (fmt x ++ ['\n']) = some (fmt x ++ ['\n']) := by
      unfold decodeAscii
      rw [if_pos]
      rw [List.all_eq_true]
      intro c hc
      rw [decide_eq_true_iff]
      rcases List.mem_append.mp hc with h | h
      · exact (h2 c h).2
      · rw [List.mem_singleton] at h; subst h; decide
    have hs : pyStrip (fmt x ++ ['\n']) = fmt x := pyStrip_line h1 (fun c hc => (h2 c (List.mem_of_head? hc)).1)
      (fun c hc => (h2 c (List.mem_of_getLast? hc)).1)
    simp only [hd, hs, h3, Option.bind_eq_bind, Option.bind_some]
  obtain ⟨D, h1, h2⟩ := dmatBody_file hrd rows cols M
  refine ⟨D, ?_, h2⟩
  unfold readDmat asciiFile
  rw [dmatHeader_line]
  simp only [Option.bind_eq_bind, Option.bind_some]
  rw [if_neg (by omega)]
  exact h1

/-- **C50 (binary).** Every matrix, empty or not, is read back from its binary file, in the right shape. -/
theorem C50_binary (parse : List Char → Option ν) {pack : ν → List Char} {unpack : List Char → ν} (hio : PackOk pack unpack)
    (rows cols : ℕ) (M : ℕ → ℕ → ν) :
    ∃ D, readDmat parse unpack (binaryFile pack rows cols M) = some D ∧ IsMatrix D rows cols M := by
  have hrd : ∀ x rest, dmatBinaryValue unpack (pack x ++ rest) = some (x, rest) := by
    intro x rest
    obtain ⟨h1, h2⟩ := hio x
    have ht : (pack x ++ rest).take 8 = pack x := by rw [← h1]; simp
    have hd : (pack x ++ rest).drop 8 = rest := by rw [← h1]; simp
    unfold dmatBinaryValue
    rw [ht, hd, if_pos h1, h2]
  obtain ⟨D, h1, h2⟩ := dmatBody_file hrd rows cols M
  refine ⟨D, ?_, h2⟩
  unfold readDmat binaryFile
  rw [List.append_assoc, dmatHeader_line]
  simp only [Option.bind_eq_bind, Option.bind_some]
  rw [if_pos (by simp), dmatHeader_line]
  simp only [Option.bind_some]
  exact h1

/-- The exception: the ASCII file of a matrix without rows and columns is taken for a binary file, and reading it raises. -/
theorem C50_ascii_empty_raises (parse : List Char → Option ν) (unpack : List Char → ν) (fmt : ν → List Char) (M : ℕ → ℕ → ν) :
    readDmat parse unpack (asciiFile fmt 0 0 M) = none := by
  unfold readDmat asciiFile
  rw [dmatHeader_line]
  simp only [Option.bind_eq_bind, Option.bind_some]
  rw [if_pos (by simp)]
  rfl

/-- Values must stand on lines of their own: a line with two blank-separated values raises, as `float` rejects inner blanks. -/
theorem C50_two_on_a_line_raises {fmt : ν → List Char} {parse : List Char → Option ν} (hio : TextOk fmt parse)
    (hfloat : ∀ s, ' ' ∈ s → parse s = none) (unpack : List Char → ν) (x y : ν) :
    readDmat parse unpack (headerLine 2 1 ++ (fmt x ++ ' ' :: fmt y ++ ['\n'])) = none := by
  unfold readDmat
  rw [dmatHeader_line]
  simp only [Option.bind_eq_bind, Option.bind_some]
  rw [if_neg (by omega)]
  obtain ⟨h1, h2, h3⟩ := hio x
  obtain ⟨g1, g2, g3⟩ := hio y
  have hline : readline (fmt x ++ ' ' :: fmt y ++ ['\n']) = (fmt x ++ ' ' :: fmt y ++ ['\n'], []) := by
    have := readline_line (fmt x ++ ' ' :: fmt y) [] (by
      intro h
      rw [List.mem_append, List.mem_cons] at h
      rcases h with h | h | h
      · have := (h2 _ h).1; simp [pySpace] at this
      · exact absurd h (by decide)
      · have := (g2 _ h).1; simp [pySpace] at this)
    exact this
  have hs : pyStrip (fmt x ++ ' ' :: fmt y ++ ['\n']) = fmt x ++ ' ' :: fmt y := by
    apply pyStrip_line
    · simp
    · intro c hc
      obtain ⟨a, t, hat⟩ := List.exists_cons_of_ne_nil h1
      rw [hat] at hc
      simp at hc
      subst hc
      exact (h2 a (by rw [hat]; exact List.mem_cons_self)).1
    · intro c hc
      have hm : (fmt x ++ ' ' :: fmt y).getLast? = (fmt y).getLast? := by
        cases h : fmt y with
        | nil => exact absurd h g1
        | cons a t => simp [List.getLast?_append, List.getLast?_cons]
      rw [hm] at hc
      exact (g2 c (List.mem_of_getLast? hc)).1
  have hv : dmatAsciiValue parse (fmt x ++ ' ' :: fmt y ++ ['\n']) = none := by
    unfold dmatAsciiValue
    rw [hline]
    simp only [Option.bind_eq_bind]
    cases hd : decodeAscii (fmt x ++ ' ' :: fmt y ++ ['\n']) with
    | none => rfl
    | some l =>
      have : l = fmt x ++ ' ' :: fmt y ++ ['\n'] := by
        unfold decodeAscii at hd
        split at hd
        · exact (Option.some.injEq _ _ ▸ hd).symm
        · cases hd
      rw [this, Option.bind_some, hs, hfloat _ (by simp)]
      rfl
  unfold dmatBody
  rw [if_neg (by omega)]
  have e1 : ((2 : ℕ) : ℤ).toNat = 2 := rfl
  have e2 : ((1 : ℕ) : ℤ).toNat = 1 := rfl
  rw [e1, e2]
  simp only [dmatMany, hv, Option.bind_eq_bind, Option.bind_none]

/-- decimal integers meet the contract -/
theorem C50_example : TextOk (fun n : ℕ => natStr n) parseNat ∧
    readDmat parseNat (fun _ => 0) (asciiFile natStr 2 3 (fun i j => 10 * i + j)) = some ⟨2, 3, [[0, 10], [1, 11], [2, 12]]⟩ :=
  ⟨fun n => ⟨natStr_ne n, fun _ hc => natStr_plain hc, parseNat_natStr n⟩, by decide +kernel⟩

end Gpy
