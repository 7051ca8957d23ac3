import Verif.Np.Pt

/-! # `normalize_points.py` -/

set_option autoImplicit false
namespace Gpy

variable {d : ℕ}

/-- `np.max(v)` of a two-dimensional array; `none` (`ValueError`) if it has no entries. -/
noncomputable def npMaxAll (v : List (Pt d)) : Option ℝ :=
  match v.flatMap (fun p => (List.finRange d).map p) with
  | [] => none
  | x :: xs => some (xs.foldl max x)

/-- `if (center is not None): v = v + np.tile(center,(v.shape[0],1))`, `normalize_points.py:44-45`. -/
noncomputable def addCenter (v : List (Pt d)) : Option (Pt d) → List (Pt d)
  | some c => v.map (fun p => (fun j => p j + c j : Pt d))
  | none => v

/-- `normalize_points(v,center)`, `normalize_points.py:32-47`.  The result and the contents of the caller's array afterwards: the first loop
(lines 36-37) writes to the array passed in.  `none` = exception (or, for coinciding points, not-a-number everywhere). -/
noncomputable def normalizePoints (v : List (Pt d)) (center : Option (Pt d)) : Option (List (Pt d) × List (Pt d)) := do
  let lo ← npAmin v
  let v := v.map (fun p => (fun j => p j - lo j : Pt d))                 -- lines 36-37
  let caller := v
  let mx ← npMaxAll v
  if mx = 0 then none else do
  let v := v.map (fun p => (fun j => p j / mx : Pt d))                   -- line 39
  let hi ← npAmax v
  let v := v.map (fun p => (fun j => p j - 0.5 * hi j : Pt d))           -- lines 41-42
  some (addCenter v center, caller)

end Gpy
