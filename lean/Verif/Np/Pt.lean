import Mathlib.Analysis.Real.Sqrt
import Mathlib.Data.Fintype.BigOperators
import Mathlib.Algebra.Order.BigOperators.Group.Finset
import Mathlib.Data.List.MinMax
import Mathlib.Order.WithBot
import Mathlib.Tactic.Linarith
import Mathlib.Tactic.Ring
import Mathlib.Tactic.FieldSimp
import Verif.Np.Basic

/-! Rows of coordinate arrays of any dimension, and the numpy reductions on them. -/

namespace Gpy

/-- A row of an `(n,d)` array of coordinates. -/
abbrev Pt (d : ℕ) := Fin d → ℝ

/-- `np.dot` of two rows. -/
def pdot {d : ℕ} (x y : Pt d) : ℝ := ∑ i, x i * y i

/-- `np.sum(x**2)`. -/
def psq {d : ℕ} (x : Pt d) : ℝ := ∑ i, x i ^ 2

/-- `np.linalg.norm(x)`. -/
noncomputable def pnorm {d : ℕ} (x : Pt d) : ℝ := Real.sqrt (psq x)

/-- `np.amin(A,axis=0)`; of an empty array it raises `ValueError` (`none`). -/
noncomputable def npAmin {d : ℕ} : List (Pt d) → Option (Pt d)
  | [] => none
  | x :: xs => some (fun j => xs.foldl (fun acc y => min acc (y j)) (x j))

/-- `np.amax(A,axis=0)`; of an empty array it raises `ValueError` (`none`). -/
noncomputable def npAmax {d : ℕ} : List (Pt d) → Option (Pt d)
  | [] => none
  | x :: xs => some (fun j => xs.foldl (fun acc y => max acc (y j)) (x j))

/-- `np.argmax` of a row: the first position of the largest value; of an empty row it raises `ValueError` (`none`). -/
noncomputable def npArgmax {d : ℕ} (x : Pt d) : Option (Fin d) := (List.finRange d).argmax x

/-- The contract of `np.argsort` (default, unstable sort): some permutation of the positions that sorts the values.  Ties may
be broken in any way. -/
structure IsArgsort (argsort : List ℝ → List ℕ) : Prop where
  perm : ∀ l, (argsort l).Perm (List.range l.length)
  sorted : ∀ l, ((argsort l).map (fun i => l.getD i 0)).Pairwise (· ≤ ·)

end Gpy
