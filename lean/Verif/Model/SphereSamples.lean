import Verif.Model.SampleSdf
import Mathlib.Data.Real.Archimedean
import Mathlib.Data.Int.Cast.Basic
import Mathlib.Analysis.SpecialFunctions.Pow.Real

/-!
# The samples an iteration of `reach_for_the_spheres` looks at

`reach_for_the_spheres.py:545-585` (start), `593-600` (batch), `619-626` (feature vertices), `706-715` (new samples), `485-510` (default numbers).  Exact arithmetic.
-/

set_option autoImplicit false
namespace Gpy.SphereSamples
open Gpy.SampleSdf

noncomputable section
open Classical

variable {d : ℕ}

/-- the fields `U`, `S`, `U_batch`, `S_batch` of the state, `:211-340` -/
structure Samples (d : ℕ) where
  U : List (Pt d)
  S : List ℝ
  Ub : List (Pt d)
  Sb : List ℝ

/-- the fields before the first iteration, `:548-550, 582-585`, for given `U`; without `S` the function is evaluated -/
def start (sdf : Pt d → ℝ) (U : List (Pt d)) (S : Option (List ℝ)) : Samples d :=
  let S := S.getD (U.map sdf)
  ⟨U, S, U, S⟩

/-- the batch of an iteration, `:593-600`; `inds` is the result of `rng.choice(n,batch_size,replace=False)`.  `S` has as many entries as `U`. -/
def batch (bs : ℤ) (inds : List ℕ) (s : Samples d) : Samples d :=
  if 0 < bs ∧ bs < s.U.length then
    { s with
      Ub := inds.map (fun i => s.U.getD i 0) ++ ((s.U.zip s.S).filter (fun p => p.2 ≤ 0)).map (·.1)
      Sb := inds.map (fun i => s.S.getD i 0) ++ s.S.filter (fun x => x ≤ 0) }
  else s

/-- new samples, `:561-562, 707-714`: `nu_0` is the number of samples now, `nu_max` twice that, all samples so far are to be kept; `P` and `I` are the random trial points and their faces; `none`: an exception -/
def resample (order : List ℝ → List ℕ) (sdf : Pt d → ℝ) (P : List (Pt d)) (I : List ℕ) (newN : ℕ) (s : Samples d) : Option (Samples d) :=
  let nu0 := s.U.length
  let nuMax := 2 * nu0
  (sampleSdf order sdf s.U P I newN nuMax true (some (List.range nu0))).map (fun U => ⟨U, U.map sdf, U, U.map sdf⟩)

/-- what the random numbers and the flow bring to one iteration: the choice for the batch, and the trial points and the number of new samples if there is resampling -/
structure Event (d : ℕ) where
  inds : List ℕ
  new : Option (List (Pt d) × List ℕ × ℕ)

/-- one iteration: the samples it works with, and the samples after it; `none`: an exception -/
def round (order : List ℝ → List ℕ) (sdf : Pt d → ℝ) (bs : ℤ) (s : Samples d) (e : Event d) : Option (Samples d × Samples d) :=
  let b := batch bs e.inds s
  match e.new with
  | none => some (b, b)
  | some (P, I, newN) => (resample order sdf P I newN b).map (fun r => (b, r))

/-- the samples after the given iterations -/
def history (order : List ℝ → List ℕ) (sdf : Pt d → ℝ) (bs : ℤ) : Samples d → List (Event d) → Option (Samples d)
  | s, [] => some s
  | s, e :: l => (round order sdf bs s e).bind (fun r => history order sdf bs r.2 l)

/-- `resample_samples` if it is not given, `:490, 504`, for `n` samples in dimension 2 and 3 -/
def defaultNew (n : ℕ) : ℕ → ℕ
  | 2 => 2 * ⌈Real.sqrt n⌉₊
  | _ => 2 * ⌈(n : ℝ) ^ (1 / 3 : ℝ)⌉₊

/-- `min_h` if it is not given, `:551-557`; `nn` are the distances of the samples to the samples next to them -/
def defaultMinH (nn : List ℝ) : ℝ := min (max (2 * (nn.sum / nn.length)) (1 / 1000)) (1 / 10)

/-- `F_invalid`, `:617-619`: `np.unique` of the faces closest to a sample whose distance is off by `tol` or more; `I` are the closest faces and `g` the errors, `:601-604` -/
def invalidFaces (tol : ℝ) (g : List ℝ) (I : List ℕ) : List ℕ :=
  ((((g.zip I).filter (fun p => ¬ |p.1| < tol)).map (·.2)).dedup).mergeSort (· ≤ ·)

/-- `feature_vertices`, `:620-626`; `n` is the number of vertices -/
def features (aggressive : Bool) (n : ℕ) (F : List (List ℕ)) (Finv : List ℕ) : List ℕ :=
  if aggressive then
    let Vinv := Finv.flatMap (fun f => F.getD f [])                                        -- line 621
    (List.range n).filter (fun v => v ∉ Vinv)                                              -- line 622
  else
    let Fval := (List.range F.length).filter (fun f => f ∉ Finv)                           -- line 624
    ((Fval.flatMap (fun f => F.getD f [])).dedup).mergeSort (· ≤ ·)                        -- line 625

end

end Gpy.SphereSamples
