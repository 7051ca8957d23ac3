import Verif.Np.Text

/-! # `read_dmat.py`

A file is a list of bytes, shown as characters with code below 256. -/

set_option autoImplicit false
namespace Gpy
open Np

/-- `f.readline()` on a binary file: the bytes up to and including the next line feed, and the rest of the file. -/
def readline : List Char → List Char × List Char
  | [] => ([], [])
  | c :: s => if c = '\n' then (['\n'], s) else let r := readline s; (c :: r.1, r.2)

/-- `bytes.decode('ascii')`; `none` = `UnicodeDecodeError` -/
def decodeAscii (s : List Char) : Option (List Char) := if s.all (fun c => decide (c.toNat < 128)) then some s else none

/-- `str.isspace` for ASCII characters: tab, line feed, vertical tab, form feed, carriage return, the four separators, blank -/
def pySpace (c : Char) : Bool := (9 ≤ c.toNat && c.toNat ≤ 13) || (28 ≤ c.toNat && c.toNat ≤ 32)

/-- `str.strip()` -/
def pyStrip (s : List Char) : List Char := ((s.dropWhile pySpace).reverse.dropWhile pySpace).reverse

/-- `str.split()`: the maximal runs of non-blank characters; `cur` is the run being read -/
def pySplitAux : List Char → List Char → List (List Char)
  | [], cur => if cur = [] then [] else [cur]
  | c :: s, cur => if pySpace c then (if cur = [] then pySplitAux s [] else cur :: pySplitAux s []) else pySplitAux s (cur ++ [c])

def pySplit (s : List Char) : List (List Char) := pySplitAux s []

/-- One header line, `read_dmat.py:32-33`, `:37-38`: exactly two integers, the number of columns first. -/
def dmatHeader (f : List Char) : Option (ℤ × ℤ × List Char) := do
  let h ← decodeAscii (readline f).1
  match pySplit (pyStrip h) with
  | [a, b] => do
    let cols ← parseInt a
    let rows ← parseInt b
    some (cols, rows, (readline f).2)
  | _ => none

/-- `f.read(8)` and `struct.unpack('<d',...)`, `read_dmat.py:45-46`; `unpack` is the decoding of eight bytes. -/
def dmatBinaryValue {ν : Type} (unpack : List Char → ν) (f : List Char) : Option (ν × List Char) :=
  if (f.take 8).length = 8 then some (unpack (f.take 8), f.drop 8) else none

/-- `float(f.readline().decode('ascii').strip())`, `read_dmat.py:54-60` (the loop of lines 54-58 reads zero bytes and stops at once);
    `parse` is `float` of a string. -/
def dmatAsciiValue {ν : Type} (parse : List Char → Option ν) (f : List Char) : Option (ν × List Char) := do
  let l ← decodeAscii (readline f).1
  let x ← parse (pyStrip l)
  some (x, (readline f).2)

/-- `for i in range(n)`: read `n` values -/
def dmatMany {α : Type} (rd : List Char → Option (α × List Char)) : ℕ → List Char → Option (List α × List Char)
  | 0, f => some ([], f)
  | n + 1, f => do
    let (x, f) ← rd f
    let (xs, f) ← dmatMany rd n f
    some (x :: xs, f)

/-- The array `data`: its shape and its columns. -/
structure Dmat (ν : Type) where
  rows : ℕ
  cols : ℕ
  columns : List (List ν)
deriving DecidableEq

/-- `data[i,j]` -/
def Dmat.get {ν : Type} (D : Dmat ν) (i j : ℕ) : Option ν := D.columns[j]?.bind (·[i]?)

/-- `data = np.empty((rows,cols))` (negative sizes raise) and the double loop over columns and rows, `read_dmat.py:41-47`, `:51-61`. -/
def dmatBody {ν : Type} (rd : List Char → Option (ν × List Char)) (cols rows : ℤ) (f : List Char) : Option (Dmat ν) :=
  if cols < 0 ∨ rows < 0 then none
  else do
    let (C, _) ← dmatMany (dmatMany rd rows.toNat) cols.toNat f
    some ⟨rows.toNat, cols.toNat, C⟩

/-- `read_dmat(file_path)`, `read_dmat.py:30-63`; `none` = an exception. -/
def readDmat {ν : Type} (parse : List Char → Option ν) (unpack : List Char → ν) (f : List Char) : Option (Dmat ν) := do
  let (cols, rows, f) ← dmatHeader f
  if cols = 0 ∧ rows = 0 then do
    let (cols, rows, f) ← dmatHeader f
    dmatBody (dmatBinaryValue unpack) cols rows f
  else dmatBody (dmatAsciiValue parse) cols rows f

end Gpy
