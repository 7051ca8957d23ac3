import Mathlib.Algebra.BigOperators.Group.Finset.Basic
import Mathlib.Algebra.Order.Group.Int
import Mathlib.Algebra.Order.Group.Unbundled.Abs
import Mathlib.Tactic.Linarith

/-! Neighbouring cells of a grid. -/

set_option autoImplicit false
namespace Gpy.Spec
open Finset

/-- the `i`-th coordinate of cell `c` of a grid of `gs` cells, numbered with the first coordinate running fastest -/
def cellCoord (gs : List ℕ) (i c : ℕ) : ℤ := ((c / (gs.take i).prod % gs[i]! : ℕ) : ℤ)

/-- `d` is a neighbour of `c`: a cell of the grid at most one step away in every coordinate; without `diag`, at most one step in total; `c`
itself only with `self`. -/
def IsNbr (gs : List ℕ) (diag self : Bool) (c d : ℕ) : Prop :=
  d < gs.prod ∧ (∀ i < gs.length, |cellCoord gs i d - cellCoord gs i c| ≤ 1) ∧
    (diag = true ∨ ∑ i ∈ range gs.length, |cellCoord gs i d - cellCoord gs i c| ≤ 1) ∧ (self = true ∨ d ≠ c)

/-- `d` can be reached from `c` in exactly `n` steps from a cell to a neighbour. -/
def Walk (R : ℕ → ℕ → Prop) : ℕ → ℕ → ℕ → Prop
  | 0, c, d => c = d
  | n + 1, c, d => ∃ e, R c e ∧ Walk R n e d

end Gpy.Spec
