import Verif.Model.Matryoshka

/-! Specification for C98: what the result dictionary of `matryoshka` promises. -/

set_option autoImplicit false
namespace Gpy

/-- The documented transformation `T(x) = c + s R (x - B_center)`. -/
noncomputable def nestMap (s : ℝ) (Bc : Pt 3) (g : MCfg) (x : Pt 3) : Pt 3 := fun i => g.c i + s * ∑ j, g.R i j * (x j - Bc j)

/-- Signed distance of a point from the cut plane. -/
def planeSide (g : MCfg) (q : Pt 3) : ℝ := pdot (fun i => q i - g.cp i) g.n

/-- The copy of the points `B` scaled by `s` nests in `A`: every transformed point is inside `A` by the margin `1e-6`; going backwards along `a_plus`
the first hit of `A` is not above the cut plane (up to `1e-6`), so the upper part can be removed along `a_plus`; going backwards along
`a_minus` the first hit is not below the plane. -/
def Nested (o : MQuery) (B : List (Pt 3)) (s : ℝ) (Bc : Pt 3) (g : MCfg) : Prop :=
  ∀ x ∈ B, o.sd (nestMap s Bc g x) ≤ -(1 / 10 ^ 6) ∧
    (∀ t, o.ray (nestMap s Bc g x) (fun i => -g.ap i) = some t → planeSide g (fun i => nestMap s Bc g x i + t * -g.ap i) ≤ 1 / 10 ^ 6) ∧
    (∀ t, o.ray (nestMap s Bc g x) (fun i => -g.am i) = some t → -(1 / 10 ^ 6) ≤ planeSide g (fun i => nestMap s Bc g x i + t * -g.am i))

/-- A rotation matrix. -/
def IsRotation3 (R : M33) : Prop := R * R.transpose = 1 ∧ R.det = 1

/-- The scale that `matryoshka(…,optimize='scale_only')` returns for a configuration. -/
noncomputable def scaleOf (o : MQuery) (a : MArgs) (g : MCfg) : ℝ :=
  ((matryoshka o { a with R := some g.R, c := some g.c, cp := some g.cp, n := some g.n, ap := some g.ap, am := some g.am } .scaleOnly).map (fun r => r.s)).getD 0

/-- The random numbers are in the ranges from which they are drawn: the initial particles of the Python code lie in the box, those of the C++ code are
given by numbers between 0 and 1. -/
def SwarmRand.Ok {n : ℕ} (w : SwarmRand n) (lb ub : Pt n) : Prop :=
  (w.cpp = true → ∀ i j, 0 ≤ w.p0 i j ∧ w.p0 i j ≤ 1) ∧ (w.cpp = false → ∀ i j, lb j ≤ w.p0 i j ∧ w.p0 i j ≤ ub j)

/-- Every ray from a point inside `A` hits `A` (as for a closed mesh). -/
def RaysHit (o : MQuery) : Prop := ∀ q d : Pt 3, o.sd q ≤ -(1 / 10 ^ 6) → psq d = 1 → ∃ t, 0 ≤ t ∧ o.ray q d = some t

/-- The angle of a rotation, in `[0,π]`. -/
noncomputable def rotAngle (R : M33) : ℝ := Real.arccos (1 / 2 * (R.trace - 1))

/-- Rotations that survive the conversion to an axis-angle vector exactly: the identity, half turns, and rotations by an angle of at least `1e-12` and at
most `π - 1e-6`. -/
def ExactRotation (R : M33) : Prop :=
  IsRotation3 R ∧ (R = 1 ∨ 1 / 10 ^ 12 ≤ rotAngle R) ∧ (R * R = 1 ∨ 1 / 10 ^ 6 ≤ Real.pi - rotAngle R)

end Gpy
