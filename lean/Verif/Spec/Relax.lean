import Verif.Spec.EdgeMap

/-! What the relaxation pass is supposed to do. -/

set_option autoImplicit false
namespace Gpy

/-- the other ends of the feature edges at `v` -/
def featNbrs (fe : List Edge) (v : ℕ) : List ℕ :=
  fe.flatMap (fun e => (if e.s = v then [e.t] else []) ++ (if e.t = v then [e.s] else []))

/-- a vertex that must not move: a fixed vertex, or one on some number of feature edges other than two (a corner, or the end of a feature line) -/
def Pinned (feature : List ℕ) (fe : List Edge) (v : ℕ) : Prop := v ∈ feature ∨ ((featNbrs fe v).length ≠ 0 ∧ (featNbrs fe v).length ≠ 2)

instance (feature : List ℕ) (fe : List Edge) (v : ℕ) : Decidable (Pinned feature fe v) := by unfold Pinned; infer_instance

/-- a vertex that slides along the line formed by its two feature edges -/
def OnLine (feature : List ℕ) (fe : List Edge) (v : ℕ) : Prop := v ∉ feature ∧ (featNbrs fe v).length = 2

/-- any other vertex -/
def Free (feature : List ℕ) (fe : List Edge) (v : ℕ) : Prop := v ∉ feature ∧ featNbrs fe v = []

/-- the position that is used for a neighbour `j` of `v`: the vertices before `v` have been smoothed already -/
def before (V W : ℕ → V3 ℝ) (v j : ℕ) : V3 ℝ := if j < v then W j else V j

/-- the part of `x` orthogonal to `nrm` (for a unit vector `nrm`) -/
def tangential (nrm x : V3 ℝ) : V3 ℝ := x - V3.dot nrm x • nrm

/-- `W` are the smoothed positions: pinned vertices stay, a vertex on a feature line moves to the middle of its two neighbours on that line, all others move
tangentially towards the average of their neighbours. -/
structure Smoothed (n : ℕ) (F : List Tri) (feature : List ℕ) (fe : List Edge) (N : ℕ → V3 ℝ) (lam : ℕ → ℝ) (V W : ℕ → V3 ℝ) : Prop where
  pinned : ∀ v < n, Pinned feature fe v → W v = V v
  line : ∀ v < n, OnLine feature fe v → ∃ a b, featNbrs fe v = [a, b] ∧ W v = (1 / 2 : ℝ) • (before V W v a + before V W v b)
  free : ∀ v < n, Free feature fe v → ∃ L : List ℕ, L.Nodup ∧ (∀ j, j ∈ L ↔ ∃ e ∈ sides F, Undir ⟨v, j⟩ e) ∧
    W v = V v + lam v • tangential (N v) ((1 / (L.length : ℝ)) • (L.map (before V W v)).sum - V v)

/-- `c` is a point of the set closest to `p` -/
def ClosestIn (s : V3 ℝ → Prop) (p c : V3 ℝ) : Prop := s c ∧ ∀ y, s y → V3.normSq (p - c) ≤ V3.normSq (p - y)

/-- points of the segment `a b` -/
def OnSeg3 (a b x : V3 ℝ) : Prop := ∃ t : ℝ, 0 ≤ t ∧ t ≤ 1 ∧ x = a + t • (b - a)

/-- the points of a polyline -/
def OnPolyline (V : ℕ → V3 ℝ) (E : List Edge) (x : V3 ℝ) : Prop := ∃ e ∈ E, OnSeg3 (V e.s) (V e.t) x

end Gpy
