import Verif.Model.Generators
import Verif.Model.RemoveDuplicate
import Mathlib.Analysis.SpecialFunctions.Log.Base
import Mathlib.Algebra.Order.Round

/-! `apply_colormap.py`. -/

set_option autoImplicit false
namespace Gpy

noncomputable section

/-- `.round().astype(int)`, `apply_colormap.py:85` -/
def roundInt (x : ℝ) : ℤ := ⌊npRound x⌋

/-- `np.searchsorted(a, t)` on an increasing array: the number of entries below `t` -/
def searchLeft (a : List ℝ) (t : ℝ) : ℕ := a.countP (fun b => decide (b < t))

/-- scipy `interp1d(kind='nearest')` (`_call_nearest`): the midpoints `x/2` summed, `searchsorted` from the left, `clip(0, len(x)-1)` -/
def interpNearest (x : List ℝ) (C : List (Fin 3 → ℤ)) (t : ℝ) : Fin 3 → ℝ :=
  let bds := List.zipWith (fun a b => a / 2 + b / 2) x.tail x.dropLast
  let k := min (searchLeft bds t) (x.length - 1)
  fun c => (C.getD k 0 c : ℝ)

/-- scipy `interp1d(kind='linear')` for a table with several columns (`_call_linear`): `searchsorted`, `clip(1, len(x)-1)`, slope times offset -/
def interpLinear (x : List ℝ) (C : List (Fin 3 → ℤ)) (t : ℝ) : Fin 3 → ℝ :=
  let hi := min (max (searchLeft x t) 1) (x.length - 1)
  let lo := hi - 1
  fun c => ((C.getD hi 0 c : ℝ) - C.getD lo 0 c) / (x.getD hi 0 - x.getD lo 0) * (t - x.getD lo 0) + C.getD lo 0 c

/-- `np.finfo(np.float64).eps` -/
def npEps : ℝ := 2 ^ (-52 : ℤ)

/-- `interp1d` refuses arguments outside the axis (`bounds_error`): `none` -/
def inAxis (x : List ℝ) (t : ℝ) : Prop := x.getD 0 0 ≤ t ∧ t ≤ x.getD (x.length - 1) 0

/-- `np.amin(f)`, `none`: `ValueError` on an empty array -/
def fMin : List ℝ → Option ℝ
  | [] => none
  | a :: l => some (l.foldl min a)

/-- `np.amax(f)` -/
def fMax : List ℝ → Option ℝ
  | [] => none
  | a :: l => some (l.foldl max a)

/-- `apply_colormap.py:67-73`: the two ends of the axis; `none` = empty `f` without limits, or failed assertion -/
def colorLimits (f : List ℝ) (lo hi : Option ℝ) (log : Bool) : Option (ℝ × ℝ) := do
  let m0 ← lo.orElse (fun _ => fMin f)                                       -- line 67
  let mn := if log = true ∧ m0 < npEps then npEps else m0                    -- lines 68-69
  let mx ← hi.orElse (fun _ => fMax f)                                       -- line 70
  if mn ≤ mx then                                                            -- line 71
    some (mn, if mx < mn + npEps then mn + npEps else mx)                    -- lines 72-73
  else none

/-- `apply_colormap.py:77-81`: the axis with one node per colour -/
def colorAxis (mn mx : ℝ) (log : Bool) (n : ℕ) : List ℝ :=
  if log then (List.range n).map (fun i => (2 : ℝ) ^ (linspace (Real.logb 2 mn) (Real.logb 2 mx) n i))
  else (List.range n).map (fun i => linspace mn mx n i)

open Classical in
/-- `apply_colormap.py:75-85` for known limits -/
def colorCore (C : List (Fin 3 → ℤ)) (f : List ℝ) (log piecewiseLinear : Bool) (mn mx : ℝ) : Option (List (Fin 3 → ℤ)) :=
  let x := colorAxis mn mx log C.length
  let g := f.map (fun t => min (max t mn) mx)                                -- line 75
  if ∀ t ∈ g, inAxis x t then
    some (g.map (fun t => if piecewiseLinear then fun c => roundInt (interpLinear x C t c) else fun c => roundInt (interpNearest x C t c)))   -- lines 83-85
  else none

/-- `apply_colormap.py:59-85` for colour tables of integers with three columns (line 60).  Real arithmetic: the rounding of
`2 ** log2(maximum)`, which can make `interp1d` refuse the largest value of `f`, is not modelled. -/
def applyColormap (C : List (Fin 3 → ℤ)) (f : List ℝ) (lo hi : Option ℝ) (log piecewiseLinear : Bool) : Option (List (Fin 3 → ℤ)) :=
  match C with
  | [] => none                                                               -- line 59
  | [c] => some (f.map (fun _ => c))                                         -- lines 62-63
  | c :: c' :: C => (colorLimits f lo hi log).bind (fun q => colorCore (c :: c' :: C) f log piecewiseLinear q.1 q.2)

end
end Gpy
