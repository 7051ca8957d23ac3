import Verif.Model.CatmullRom
import Mathlib.Analysis.Quaternion
import Mathlib.Analysis.SpecialFunctions.Trigonometric.Inverse
import Mathlib.LinearAlgebra.Matrix.Notation

/-!
# The motion in `swept_volume`, `cpp/swept_volume/swept_volume.cpp:35-176,210-265`
-/

set_option autoImplicit false
namespace Gpy.Swept
open Quaternion Matrix

noncomputable section

/-- `tangents[mm]`, `swept_volume.cpp:66-80`, for the translations `X` of the keyframes -/
def tangentAt (X : List (Pt 3)) (mm : ℕ) : Option (Pt 3) :=
  if mm = 0 then do
    let x1 ← X[1]?
    let x0 ← X[0]?
    some ((1 / (1 : ℝ)) • (x1 - x0))
  else if mm = X.length - 1 then do
    let x1 ← X[X.length - 1]?
    let x0 ← X[X.length - 2]?
    some ((1 / (1 : ℝ)) • (x1 - x0))
  else do
    let x1 ← X[mm + 1]?
    let x0 ← X[mm - 1]?
    some ((1 / (2 : ℝ)) • (x1 - x0))

/-- access to an array of Eigen or of the standard library: an index out of range is undefined behaviour (`none`) -/
def cget? {α : Type} (l : List α) (i : ℤ) : Option α := if 0 ≤ i then l[i.toNat]? else none

/-- the segment for time `t`, `swept_volume.cpp:94-97` -/
def segOf (n : ℕ) (t : ℝ) : ℤ := open Classical in
  let b : ℤ := ⌊t * ((n : ℝ) - 1)⌋
  if t = 1 then b - 1 else b

/-- `xt` and `vt` of `interpolate_position`, `swept_volume.cpp:92-103` -/
def position (X : List (Pt 3)) (t : ℝ) : Option (Pt 3 × Pt 3) := do
  let tau ← (linspace01 X.length)[1]?                                        -- line 67
  let b := segOf X.length t
  let tb ← cget? (linspace01 X.length) b
  let tt := (t - tb) / tau                                                   -- line 98
  let x0 ← cget? X b
  let x1 ← cget? X (b + 1)
  let m0 ← if 0 ≤ b then tangentAt X b.toNat else none
  let m1 ← if 0 ≤ b + 1 then tangentAt X (b + 1).toNat else none
  let xt := (2 * tt ^ 3 - 3 * tt ^ 2 + 1) • x0 + (tt ^ 3 - 2 * tt ^ 2 + tt) • m0 + (-2 * tt ^ 3 + 3 * tt ^ 2) • x1 + (tt ^ 3 - tt ^ 2) • m1
  let vt := (6 * tt ^ 2 - 6 * tt) • x0 + (3 * tt ^ 2 - 4 * tt + 1) • m0 + (-6 * tt ^ 2 + 6 * tt) • x1 + (3 * tt ^ 2 - 2 * tt) • m1
  some (xt, (1 / tau) • vt)

/-- `Quaterniond::toRotationMatrix` of Eigen -/
def toRot (q : ℍ[ℝ]) : Matrix (Fin 3) (Fin 3) ℝ :=
  !![1 - 2 * (q.imJ ^ 2 + q.imK ^ 2), 2 * (q.imI * q.imJ - q.re * q.imK), 2 * (q.imI * q.imK + q.re * q.imJ);
     2 * (q.imI * q.imJ + q.re * q.imK), 1 - 2 * (q.imI ^ 2 + q.imK ^ 2), 2 * (q.imJ * q.imK - q.re * q.imI);
     2 * (q.imI * q.imK - q.re * q.imJ), 2 * (q.imJ * q.imK + q.re * q.imI), 1 - 2 * (q.imI ^ 2 + q.imJ ^ 2)]

/-- `q0.dot(q1)` -/
def qdot (p q : ℍ[ℝ]) : ℝ := p.re * q.re + p.imI * q.imI + p.imJ * q.imJ + p.imK * q.imK

open Classical in
/-- `q0.slerp(t,q1)` of Eigen; `ε` is the precision of `double` -/
def slerp (ε : ℝ) (q0 q1 : ℍ[ℝ]) (t : ℝ) : ℍ[ℝ] :=
  let d := qdot q0 q1
  let s0 := if 1 - ε ≤ |d| then 1 - t else Real.sin ((1 - t) * Real.arccos |d|) / Real.sin (Real.arccos |d|)
  let s1 := if 1 - ε ≤ |d| then t else Real.sin (t * Real.arccos |d|) / Real.sin (Real.arccos |d|)
  s0 • q0 + (if d < 0 then -s1 else s1) • q1

open Classical in
/-- `logq`, `swept_volume.cpp:35-49` -/
def logq (q : ℍ[ℝ]) : ℍ[ℝ] :=
  let e := ‖q‖
  let w := Real.log e
  let a := Real.arccos (q.re / e)
  if a = 0 then (w : ℍ[ℝ])
  else (w : ℍ[ℝ]) + (1 / e / (Real.sin a / a)) • q.im

open Classical in
/-- `qvt`, `swept_volume.cpp:129-135` -/
def qvel (ε : ℝ) (q0 q1 : ℍ[ℝ]) (t : ℝ) : ℍ[ℝ] :=
  let qt := slerp ε q0 q1 t
  let q1' := if qdot q0 q1 < 0 then -q1 else q1
  qt * logq (star q0 * q1')

/-- `Rr`, `Ri`, `Rj`, `Rk`, `swept_volume.cpp:144-155` -/
def dRr (q : ℍ[ℝ]) : Matrix (Fin 3) (Fin 3) ℝ := !![0, -2 * q.imK, 2 * q.imJ; 2 * q.imK, 0, -2 * q.imI; -2 * q.imJ, 2 * q.imI, 0]
def dRk (q : ℍ[ℝ]) : Matrix (Fin 3) (Fin 3) ℝ := !![-4 * q.imK, -2 * q.re, 2 * q.imI; 2 * q.re, -4 * q.imK, 2 * q.imJ; 2 * q.imI, 2 * q.imJ, 0]
def dRj (q : ℍ[ℝ]) : Matrix (Fin 3) (Fin 3) ℝ := !![-4 * q.imJ, 2 * q.imI, 2 * q.re; 2 * q.imI, 0, 2 * q.imK; -2 * q.re, 2 * q.imK, -4 * q.imJ]
def dRi (q : ℍ[ℝ]) : Matrix (Fin 3) (Fin 3) ℝ := !![0, 2 * q.imJ, 2 * q.imK; 2 * q.imJ, -4 * q.imI, -2 * q.re; 2 * q.imK, 2 * q.re, -4 * q.imI]

/-- `St`, `swept_volume.cpp:119` (the diagonal) -/
def scaleAt (s0 s1 : Pt 3) (tt : ℝ) : Pt 3 := s1 + (1 - tt) • (s0 - s1)

/-- `Rt` of `interpolate_position` within a segment: `tt` is the fraction of the segment, `q0, q1` the unit quaternions of the keyframes and `s0, s1` the scales (`swept_volume.cpp:106-130,161`) -/
def orient (ε : ℝ) (q0 q1 : ℍ[ℝ]) (s0 s1 : Pt 3) (tt : ℝ) : Matrix (Fin 3) (Fin 3) ℝ := toRot (slerp ε q0 q1 tt) * Matrix.diagonal (scaleAt s0 s1 tt)

/-- `VRt` of `interpolate_position`, `swept_volume.cpp:129-162`; in line 162 `Rt` has been multiplied by `St` already -/
def orientVel (ε τ : ℝ) (q0 q1 : ℍ[ℝ]) (s0 s1 : Pt 3) (tt : ℝ) : Matrix (Fin 3) (Fin 3) ℝ :=
  let qt := slerp ε q0 q1 tt
  let v := qvel ε q0 q1 tt
  let VR := (1 / τ) • (v.re • dRr qt + v.imI • dRi qt + v.imJ • dRj qt + v.imK • dRk qt)    -- lines 156-157
  let VS := Matrix.diagonal ((1 / τ) • (s1 - s0))                                          -- line 158
  let R := orient ε q0 q1 s0 s1 tt                                                         -- line 161
  VR * Matrix.diagonal (scaleAt s0 s1 tt) + R * VS                                         -- line 162

/-- `pos` of `f` and `gf`, `swept_volume.cpp:218,245`: the query point in the coordinates of the moving mesh -/
def localPos (P x : Pt 3) (R : Matrix (Fin 3) (Fin 3) ℝ) : Pt 3 := R⁻¹.mulVec (P - x)

/-- `point_velocity` of `gf`, `swept_volume.cpp:264` -/
def localVel (P x v : Pt 3) (R VR : Matrix (Fin 3) (Fin 3) ℝ) : Pt 3 := (-R⁻¹ * VR * R⁻¹).mulVec (P - x) - R⁻¹.mulVec v

end

end Gpy.Swept
