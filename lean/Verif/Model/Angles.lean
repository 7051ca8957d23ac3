import Verif.Model.Intrinsic
import Mathlib.Analysis.SpecialFunctions.Trigonometric.Inverse

/-! `tip_angles_intrinsic.py`, `tip_angles.py`, `angle_defect_intrinsic.py`, `angle_defect.py`. -/

set_option autoImplicit false
namespace Gpy
open Np

noncomputable section

/-- `np.clip(x,-1.,1.)` -/
def clip1 (x : ℝ) : ℝ := min (max x (-1)) 1

/-- `np.sqrt(np.finfo(np.float64).eps)`, i.e. `sqrt(2**-52)`. -/
def smallSq : ℝ := (2 : ℝ) ^ (-26 : ℤ)

/-- One entry of `cr`, `tip_angles_intrinsic.py:43-55`. -/
def crAngle (approx : Bool) (a b c : ℝ) : ℝ :=
  if approx ∧ c < smallSq then                                                              -- lines 46-50
    Real.sqrt (max ((c - (Real.sqrt a - Real.sqrt b) ^ 2) / (Real.sqrt a * Real.sqrt b)) 0)   -- lines 52-54
  else
    Real.arccos (clip1 ((a + b - c) / (2 * Real.sqrt (a * b))))                              -- lines 44-45

/-- One row of `tip_angles_intrinsic.py:56-60`. -/
def tipRow (approx : Bool) (r : Row3 ℝ) : Row3 ℝ :=
  ⟨crAngle approx r.x1 r.x2 r.x0, crAngle approx r.x2 r.x0 r.x1, crAngle approx r.x0 r.x1 r.x2⟩

/-- `tip_angles_intrinsic.py:38-62`.  `none`: a failed assert, or a side of length zero (numpy then produces `nan`, which is outside of
the model). -/
def tipAnglesIntrinsic (lsq : List (Row3 ℝ)) (F : List Tri) (approx : Bool) : Option (List (Row3 ℝ)) :=
  if lsqOk lsq F ∧ ∀ r ∈ lsq, r.x0 ≠ 0 ∧ r.x1 ≠ 0 ∧ r.x2 ≠ 0 then some (lsq.map (tipRow approx)) else none

/-- `tip_angles.py:34-35`. -/
def tipAngles (V : List (V3 ℝ)) (F : List Tri) (approx : Bool) : Option (List (Row3 ℝ)) := do
  let lsq ← halfedgeLengthsSquared V F
  tipAnglesIntrinsic lsq F approx

/-- `np.bincount(x, weights, minlength=n)`. -/
def bincount (x : List ℕ) (w : List ℝ) (n : ℕ) : List ℝ :=
  (List.range (max n (x.foldl (fun m y => max m (y + 1)) 0))).map (fun i => (((x.zip w).filter (fun p => p.1 = i)).map (·.2)).sum)

/-- `angle_defect_intrinsic.py:38-53`. -/
def angleDefectIntrinsic (lsq : List (Row3 ℝ)) (F : List Tri) (n : Option ℕ) (approx : Bool) : Option (List ℝ) := do
  let n := n.getD 0                                                                          -- lines 42-43
  let α ← tipAnglesIntrinsic lsq F approx                                                    -- lines 45-46
  let αsum := bincount (F.flatMap (fun t => [t.a, t.b, t.c])) (α.flatMap (fun r => [r.x0, r.x1, r.x2])) n   -- line 47
  let k := αsum.map (fun s => 2 * Real.pi - s)                                               -- line 49
  let b ← boundaryVertices F                                                                 -- line 50
  some (b.foldl (fun k i => k.set i 0) k)                                                    -- line 51

/-- `angle_defect.py:33-35`. -/
def angleDefect (V : List (V3 ℝ)) (F : List Tri) (approx : Bool) : Option (List ℝ) := do
  let lsq ← halfedgeLengthsSquared V F
  angleDefectIntrinsic lsq F (some V.length) approx

end
end Gpy
