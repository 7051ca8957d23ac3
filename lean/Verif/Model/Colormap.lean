import Verif.Model.ColormapData
import Verif.Model.Generators

/-! `colormap.py`. -/

set_option autoImplicit false
namespace Gpy

/-- `colormap.py:50-52`: `while i in d: i += 1`; the loop makes at most one step per key, so that many rounds are enough -/
def cbScan (d : List (ℕ × List Rgb)) : ℕ → ℕ → ℕ
  | 0, i => i
  | fuel + 1, i => if (d.lookup i).isSome then cbScan d fuel (i + 1) else i

/-- `colormap.py:48-56` (`interpolate=False`); `none`: a failed assertion -/
def colormapRaw (name : String) (n : ℤ) : Option (List Rgb) :=
  match cbrewer.lookup name with
  | none => none                                                             -- line 48
  | some d =>
    if n = 0 then d.lookup (cbScan d d.length 1 - 1)                         -- lines 49-53
    else if 0 ≤ n then d.lookup n.toNat else none                            -- lines 55-56; every key is positive

/-- one channel of a colour as a column of the array -/
def Rgb.ch (r : Rgb) (c : Fin 3) : ℕ := match c with | 0 => r.1 | 1 => r.2.1 | 2 => r.2.2

/-- column `c` of a table -/
noncomputable def tableCol (t : List Rgb) (c : Fin 3) (i : ℕ) : ℝ := (((t.getD i (0, 0, 0)).ch c : ℕ) : ℝ)

/-- `colormap.py:41-56`.  `spline K y` is the function made by `interp1d` with `kind='cubic'` from the values `y 0, …, y (K-1)` at the nodes
`np.linspace(0,1,K)` (line 44); it is applied column by column (`axis=0`).  `none`: a failed assertion.  The rows are reals in both cases. -/
noncomputable def colormap (spline : ℕ → (ℕ → ℝ) → ℝ → ℝ) (name : String) (n : ℤ) (interpolate : Bool) : Option (List (Fin 3 → ℝ)) :=
  if interpolate then
    if 1 ≤ n then                                                            -- line 42
      (colormapRaw name 0).map (fun raw =>                                   -- line 43
        (List.range n.toNat).map (fun j : ℕ => fun c => spline raw.length (tableCol raw c) (linspace 0 1 n.toNat j)))   -- lines 44-46
    else none
  else (colormapRaw name n).map (fun t => t.map (fun r c => ((r.ch c : ℕ) : ℝ)))

end Gpy
