import Mathlib.Data.Nat.Digits.Defs
import Mathlib.Data.List.Basic
import Mathlib.Algebra.Ring.Int.Defs

/-! Text files: characters, `str.split`, `str.join`, decimal integers. -/

set_option autoImplicit false
namespace Np

/-- `s.split(c)` (Python, one-character separator): the pieces between the separators, possibly empty. -/
def splitOn (c : Char) : List Char → List (List Char)
  | [] => [[]]
  | a :: s =>
    if a = c then [] :: splitOn c s
    else match splitOn c s with
      | [] => [[a]]
      | p :: ps => (a :: p) :: ps

/-- `sep.join(parts)` for a one-character separator. -/
def joinWith (c : Char) : List (List Char) → List Char
  | [] => []
  | [p] => p
  | p :: q :: ps => p ++ c :: joinWith c (q :: ps)

/-- `str(n)` for a non-negative integer. -/
def natStr (n : ℕ) : List Char := if n = 0 then ['0'] else (Nat.digits 10 n).reverse.map Nat.digitChar

/-- `str(z)`. -/
def intStr : ℤ → List Char
  | Int.ofNat n => natStr n
  | Int.negSucc n => '-' :: natStr (n + 1)

/-- value of a digit character -/
def digitVal (c : Char) : Option ℕ := if '0' ≤ c ∧ c ≤ '9' then some (c.toNat - '0'.toNat) else none

def parseNatAux : ℕ → List Char → Option ℕ
  | acc, [] => some acc
  | acc, c :: s => match digitVal c with
    | some d => parseNatAux (acc * 10 + d) s
    | none => none

/-- `int(s)` for a string of digits; `none` = `ValueError`. -/
def parseNat : List Char → Option ℕ
  | [] => none
  | s => parseNatAux 0 s

/-- `int(s)` with an optional minus sign (surrounding blanks, a plus sign and underscores are not modelled). -/
def parseInt : List Char → Option ℤ
  | '-' :: s => (parseNat s).map (fun n => -(n : ℤ))
  | s => (parseNat s).map (fun n => (n : ℤ))

end Np
