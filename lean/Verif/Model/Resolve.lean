import Verif.Np.Pt
import Mathlib.LinearAlgebra.Matrix.Notation

/-!
# `cpp/reach_for_the_arcs/resolve_collisions_on_sphere.cpp`

Exact arithmetic.  Where the code divides by a distance that is zero, the model follows what infinities and not-a-numbers do.
-/

set_option autoImplicit false
namespace Gpy.Arcs
open Classical

noncomputable section

/-- `std::numeric_limits<double>::epsilon()` -/
def eps : ℝ := 1 / 4503599627370496

/-- Eigen's `normalized()`: the zero vector stays as it is -/
def normalized {d : ℕ} (x : Pt d) : Pt d := if 0 < psq x then fun j => x j / pnorm x else x

/-- `unit_orthogonal`, `resolve_collisions_on_sphere.cpp:7-11` -/
def unitOrthogonal (v : Pt 2) : Pt 2 := normalized ![-v 1, v 0]

/-- `in_bounds`, `:13-22` -/
def InBounds {d : ℕ} (p : Pt d) : Prop := ∀ i, ¬ (p i < 0 ∨ p i > 1)

/-- `circle_circle_intersect`, `:25-53`.  `none`: returns `false`; `some none`: returns `true` with points that are not-a-number (`a = 0/0`); for circles with the same centre
and different radii `discr` is `-inf`. -/
def circleCircle (c1 : Pt 2) (r1 : ℝ) (c2 : Pt 2) (r2 : ℝ) : Option (Option (Pt 2 × Pt 2)) :=
  let d := pnorm (c1 - c2)
  if d = 0 then (if r1 * r1 - r2 * r2 = 0 then some none else none)
  else
    let a := (r1 * r1 - r2 * r2 + d * d) / (2 * d)
    let discr := r1 * r1 - a * a
    if discr < 0 then none
    else
      let h := Real.sqrt discr
      let point1 : Pt 2 := fun j => c1 j + a * (c2 j - c1 j) / d
      let uo := unitOrthogonal (c2 - c1)
      some (some (fun j => point1 j + h * uo j, fun j => point1 j - h * uo j))

/-- `sphere_sphere_intersect_closest_to_pt`, `:56-102` -/
def sphereSphere (p c1 : Pt 3) (r1 : ℝ) (c2 : Pt 3) (r2 : ℝ) : Pt 3 :=
  let d := pnorm (c1 - c2)
  if d ≤ 0 ∧ |r1 - r2| ≤ 0 then
    let N := p - c1
    let norm := pnorm N
    if norm ≤ 0 then p else fun j => c1 j + (r1 / norm) * N j
  else
    let N := normalized (c2 - c1)
    if d > r1 + r2 ∨ d < |r1 - r2| then fun j => c1 j + r1 * N j
    else
      let a := (r1 * r1 - r2 * r2 + d * d) / (2 * d)
      let discr := r1 * r1 - a * a
      if discr < 0 then fun j => c1 j + r1 * N j
      else
        let h := Real.sqrt discr
        let mid : Pt 3 := fun j => c1 j + a * N j
        let pp : Pt 3 := fun j => p j - pdot N (p - mid) * N j
        if pp = mid then p else
          let u := normalized (pp - mid)
          fun j => mid j + h * u j

/-- the cross product -/
def cross (a b : Pt 3) : Pt 3 := ![a 1 * b 2 - a 2 * b 1, a 2 * b 0 - a 0 * b 2, a 0 * b 1 - a 1 * b 0]

/-- `sphere_sphere_sphere_intersect`, `:110-150` -/
def sphereSphereSphere (c1 : Pt 3) (r1 : ℝ) (c2 : Pt 3) (r2 : ℝ) (c3 : Pt 3) (r3 : ℝ) : Option (Pt 3 × Pt 3) :=
  if psq (c2 - c1) < eps ∨ psq (c3 - c1) < eps ∨ psq (c3 - c2) < eps then none
  else
    let b2v := c2 - c1
    let b3v := c3 - c1
    let b2 := pnorm b2v
    let b3 := pnorm b3v
    if |(|pdot b2v b3v|) - b2 * b3| < eps then none
    else
      let i : Pt 3 := fun l => b2v l / b2
      let b3di := pdot b3v i
      let j : Pt 3 := normalized (fun l => b3v l - b3di * i l)
      let k := cross i j
      let X := (r1 * r1 - r2 * r2 + b2 * b2) / (2 * b2)
      let Y := (r1 * r1 - r3 * r3 + b3 * b3 - 2 * b3di * X) / (2 * pdot b3v j)
      let discr := r1 * r1 - X * X - Y * Y
      if discr < 0 then none
      else
        let Z := Real.sqrt discr
        some (fun l => c1 l + X * i l + Y * j l + Z * k l, fun l => c1 l + X * i l + Y * j l - Z * k l)

/-- `collision`, `:166-176` and `:225-236`: `x` is inside one of the spheres, other than those with the numbers `ignore` -/
def Collision {d : ℕ} (L : List (Pt d × ℝ)) (x : Pt d) (ignore : List ℕ) : Prop :=
  ∃ (i : ℕ) (e : Pt d × ℝ), L[i]? = some e ∧ i ∉ ignore ∧ psq (x - e.1) + eps ≤ e.2 * e.2

/-- what the code does with the two points of an intersection, `:180-187` and `:242-251`; outer `none`: go on -/
def pick {d : ℕ} (L : List (Pt d × ℝ)) (p p1 p2 : Pt d) (ignore : List ℕ) : Option (Pt d) :=
  if InBounds p1 ∧ ¬ Collision L p1 ignore then
    if InBounds p2 ∧ ¬ Collision L p2 ignore then some (if psq (p1 - p) < psq (p2 - p) then p1 else p2) else some p1
  else if InBounds p2 ∧ ¬ Collision L p2 ignore then some p2
  else none

/-- the loop of `resolve_collisions_on_sphere_2d`, `:178-199`, from number `i` on; `none` = not-a-number.  (`in_bounds` holds of a not-a-number, and it collides with
nothing.) -/
def loop2 (L : List (Pt 2 × ℝ)) (p c : Pt 2) (r : ℝ) : ℕ → List (Pt 2 × ℝ) → Option (Pt 2)
  | _, [] => some p
  | i, e :: rest =>
    match circleCircle c r e.1 e.2 with
    | some none => none
    | some (some (p1, p2)) =>
      match pick L p p1 p2 [i] with
      | some q => some q
      | none => loop2 L p c r (i + 1) rest
    | none =>
      let N := normalized (e.1 - c)
      let p1 : Pt 2 := fun j => c j + r * N j
      if ¬ Collision L p1 [i] then some p1 else loop2 L p c r (i + 1) rest

/-- the loop of `resolve_collisions_on_sphere_3d`, `:238-267`, over the remaining pairs `j < i` -/
def loop3 (L : List (Pt 3 × ℝ)) (p c : Pt 3) (r : ℝ) : List (ℕ × ℕ) → Pt 3
  | [] => p
  | (i, j) :: rest =>
    let e := L.getD i (0, 0)
    let f := L.getD j (0, 0)
    match sphereSphereSphere c r e.1 e.2 f.1 f.2 with
    | some (p1, p2) =>
      match pick L p p1 p2 [i, j] with
      | some q => q
      | none => loop3 L p c r rest
    | none =>
      let p1 := sphereSphere p c r e.1 e.2
      if ¬ Collision L p1 [i] then p1
      else
        let p2 := sphereSphere p c r f.1 f.2
        if ¬ Collision L p2 [j] then p2 else loop3 L p c r rest

/-- the pairs `j < i` in the order of the loops, `:238-239` -/
def pairs (n : ℕ) : List (ℕ × ℕ) := (List.range n).flatMap (fun i => (List.range i).map (fun j => (i, j)))

/-- `resolve_collisions_on_sphere_3d`, `:203-268` -/
def resolve3 (p c : Pt 3) (r : ℝ) (L : List (Pt 3 × ℝ)) : Pt 3 :=
  match L with
  | [] => p
  | [e] => sphereSphere p c r e.1 e.2
  | _ :: _ :: _ => loop3 L p c r (pairs L.length)

/-- `resolve_collisions_on_sphere`, `:271-289`; `L` has the centres and radii -/
def resolve : (d : ℕ) → Pt d → Pt d → ℝ → List (Pt d × ℝ) → Pt d
  | 2, p, c, r, L => (loop2 L p c r 0 L).getD p
  | 3, p, c, r, L => resolve3 p c r L
  | _, p, _, _, _ => p

end

end Gpy.Arcs
