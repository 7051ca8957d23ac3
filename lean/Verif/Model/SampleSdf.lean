import Verif.Np.Pt
import Mathlib.Data.Real.Basic

/-!
# Choosing new samples, `reach_for_the_spheres.py:989-1045`
-/

set_option autoImplicit false
namespace Gpy.SampleSdf

noncomputable section

variable {d : ℕ}

/-- `_vdf` at one point, `:989-994`; `np.max` of an empty row raises an exception (`none`) -/
def vdf (sdf : Pt d → ℝ) (U : List (Pt d)) (x : Pt d) : Option ℝ :=
  ((U.map (fun u => sdf u ^ 2 - psq (x - u))).max?).map (fun v => min v 0)

/-- `d[k] = v` for a Python dictionary as list of its items in order of insertion -/
def dictSet (m : List (ℕ × ℕ)) (k v : ℕ) : List (ℕ × ℕ) :=
  if m.any (fun p => p.1 == k) then m.map (fun p => if p.1 = k then (k, v) else p) else m ++ [(k, v)]

/-- one round of the loop `:1026-1029`: `I` are the faces of the trial points, `val` their values of `_vdf` -/
def worstStep (I : List ℕ) (val : ℕ → ℝ) (m : List (ℕ × ℕ)) (i : ℕ) : List (ℕ × ℕ) :=
  match m.find? (fun p => p.1 == I.getD i 0) with
  | none => dictSet m (I.getD i 0) i
  | some p => if val i < val p.2 then dictSet m (I.getD i 0) i else m

/-- `worst`, `:1025-1029` -/
def worst (I : List ℕ) (val : ℕ → ℝ) : List (ℕ × ℕ) := (List.range I.length).foldl (worstStep I val) []

/-- the samples with the new ones, before any is removed, `:1030-1033`; `order` is `np.argsort` -/
def extend (order : List ℝ → List ℕ) (val : ℕ → ℝ) (U0 P : List (Pt d)) (I : List ℕ) (newN : ℕ) : List (Pt d) :=
  let w := (worst I val).map (·.2)                                                      -- line 1030
  U0 ++ ((order (w.map val)).take newN).map (fun k => P.getD (w.getD k 0) 0)             -- lines 1032-1033

/-- `Sa`, `:1039-1041` -/
def sortValues (sdf : Pt d → ℝ) (keep : Option (List ℕ)) (U : List (Pt d)) : List ℝ :=
  (List.range U.length).map (fun i => match keep with
    | some k => if i ∈ k then 0 else |sdf (U.getD i 0)|
    | none => |sdf (U.getD i 0)|)

/-- `_sample_sdf` from line 1018 on, with given samples `U0`, trial points `P` on faces `I` (`:1021-1023`); `none`: an exception.  `keep` lists numbers of samples below their number. -/
def sampleSdf (order : List ℝ → List ℕ) (sdf : Pt d → ℝ) (U0 P : List (Pt d)) (I : List ℕ) (newN maxN : ℕ) (remove : Bool) (keep : Option (List ℕ)) : Option (List (Pt d)) :=
  if remove = false ∧ maxN < U0.length then none                                         -- line 1010
  else if U0 = [] ∨ P = [] then none                                                     -- `np.max` of an empty row; an array without second axis
  else
    let val : ℕ → ℝ := fun i => (vdf sdf U0 (P.getD i 0)).getD 0
    let U := extend order val U0 P I newN
    if U.length ≤ maxN then some U                                                       -- line 1035
    else if remove then some (((order (sortValues sdf keep U)).take maxN).map (fun i => U.getD i 0))     -- lines 1038-1043
    else some (U.take maxN)                                                              -- line 1045

/-- The same with `U0=None` allowed, `:1010-1017`: the assertion in line 1010 reads `U0.shape` when `remove_samples` is false.  `start` are the random samples of lines 1014-1017. -/
def sampleSdf' (order : List ℝ → List ℕ) (sdf : Pt d → ℝ) (U0 : Option (List (Pt d))) (start P : List (Pt d)) (I : List ℕ) (newN maxN : ℕ) (remove : Bool) (keep : Option (List ℕ)) : Option (List (Pt d)) :=
  match U0 with
  | some U => sampleSdf order sdf U P I newN maxN remove keep
  | none => if remove = false then none else sampleSdf order sdf start P I newN maxN remove keep

end

end Gpy.SampleSdf
