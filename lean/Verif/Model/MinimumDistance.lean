import Verif.Model.Aabb
import Verif.Model.SquaredDistance
import Verif.Model.TriangleDistance

/-! `minimum_distance.py` and the Python branch of `approximate_hausdorff_distance.py`. -/

set_option autoImplicit false
namespace Gpy
open Np

noncomputable section
variable {d : ℕ}

/-- The three corners of triangle `t` (`minimum_distance.py:64`: `v1[f1[t1,0],:],v1[f1[t1,1],:],v1[f1[t1,2],:]`); `none` = `IndexError`, or a row
without exactly three entries (negative vertex indices, which would wrap around, are not modelled). -/
def triCorners (V : List (Pt 3)) (F : List (List ℕ)) (t : Int) : Option (Pt 3 × Pt 3 × Pt 3) := do
  let f ← npGet? F t
  match f with
  | [i, j, k] => do
    let x ← V[i]?
    let y ← V[j]?
    let z ← V[k]?
    some (x, y, z)
  | _ => none

/-- `np.max(np.abs(C1[q1,:] - C2[q2,:]) - (W1[q1,:] + W2[q2,:])/2)`, `minimum_distance.py:70`. -/
def boxGap (n1 n2 : AabbNode 3) : ℝ :=
  let g : Fin 3 → ℝ := fun j => |n1.C j - n2.C j| - (n1.W j + n2.W j) / 2
  max (max (g 0) (g 1)) (g 2)

/-- The loop of `minimum_distance.py:47-98`.  The list `queue` is a stack (`queue.pop()` takes the last entry); here the top comes first.  `best` is
`current_best_guess`, `⊤` is `np.inf`.  `none` = exception, or not done within `fuel` rounds. -/
def minDistLoop (V1 V2 : List (Pt 3)) (F1 F2 : List (List ℕ)) (T1 T2 : List (AabbNode 3)) :
    ℕ → List (Int × Int) → WithTop ℝ → Option (WithTop ℝ)
  | _, [], best => some best
  | 0, _ :: _, _ => none
  | fuel + 1, (q1, q2) :: queue, best => do
    let n1 ← npGet? T1 q1
    let n2 ← npGet? T2 q2
    if n1.ch1 = -1 ∧ n2.ch1 = -1 then                                                       -- lines 56-58
      let S ← triCorners V1 F1 n1.tri                                                       -- lines 60-64
      let T ← triCorners V2 F2 n2.tri
      let dd := triangleTriangleDistance S T
      minDistLoop V1 V2 F1 F2 T1 T2 fuel queue (if (dd : WithTop ℝ) < best then (dd : WithTop ℝ) else best)      -- lines 66-67
    else if (boxGap n1 n2 : WithTop ℝ) < best then                                          -- lines 70-72
      if n2.ch1 = -1 then                                                                   -- lines 75-77
        minDistLoop V1 V2 F1 F2 T1 T2 fuel ((n1.ch1, q2) :: (n1.ch0, q2) :: queue) best
      else if n1.ch1 = -1 then                                                              -- lines 85-87
        minDistLoop V1 V2 F1 F2 T1 T2 fuel ((q1, n2.ch1) :: (q1, n2.ch0) :: queue) best
      else                                                                                  -- lines 95-99
        minDistLoop V1 V2 F1 F2 T1 T2 fuel
          ((n1.ch1, n2.ch1) :: (n1.ch0, n2.ch1) :: (n1.ch1, n2.ch0) :: (n1.ch0, n2.ch0) :: queue) best
    else minDistLoop V1 V2 F1 F2 T1 T2 fuel queue best

/-- `minimum_distance(v1,f1,v2,f2)` (`minimum_distance.py:38-101`), all loops cut off after `fuel` rounds. -/
def minimumDistance (argsort : List ℝ → List ℕ) (V1 : List (Pt 3)) (F1 : List (List ℕ)) (V2 : List (Pt 3)) (F2 : List (List ℕ))
    (fuel : ℕ) : Option (WithTop ℝ) := do
  let T1 ← initializeAabbtree argsort V1 F1 none none fuel
  let T2 ← initializeAabbtree argsort V2 F2 none none fuel
  minDistLoop V1 V2 F1 F2 T1 T2 fuel [(0, 0)] ⊤

/-- `point_to_box_distance(p,C,W)`, `approximate_hausdorff_distance.py:215-222`. -/
def pointToBoxDistance (p C W : Pt d) : ℝ :=
  Real.sqrt (∑ i, if p i < C i - 0.5 * W i then (p i - C i + 0.5 * W i) ^ 2
    else if p i > C i + 0.5 * W i then (p i - C i - 0.5 * W i) ^ 2 else 0)

/-- The inner `while` of `approximate_hausdorff_distance.py:96-125` (and, with the meshes exchanged, `139-157`): `best` is `current_best_guess_dviB`,
`hd` is `current_best_guess_hd`. -/
def hdSearch (p : Pt d) (V : List (Pt d)) (F : List (List ℕ)) (T : List (AabbNode d)) (hd : ℝ) :
    ℕ → List Int → WithTop ℝ → Option (WithTop ℝ)
  | _, [], best => some best
  | fuel, q :: queue, best =>
    if (hd : WithTop ℝ) < best then
      match fuel with
      | 0 => none
      | fuel + 1 => do
        let n ← npGet? T q
        if n.ch1 = -1 then
          let f ← npGet? F n.tri
          let r ← squaredDistanceToElement p V f
          let dd := Real.sqrt r.1
          hdSearch p V F T hd fuel queue (if (dd : WithTop ℝ) < best then (dd : WithTop ℝ) else best)
        else if (pointToBoxDistance p n.C n.W : WithTop ℝ) < best then
          hdSearch p V F T hd fuel (n.ch1 :: n.ch0 :: queue) best
        else hdSearch p V F T hd fuel queue best
    else some best

/-- The loop over the vertices `P` of one mesh (`approximate_hausdorff_distance.py:91-129`, `136-160`), searching in the other.  `hd` can become
`np.inf` only if a search ends without reaching a leaf; the model then stops with `none`, which the theorems exclude. -/
def hdSide (V : List (Pt d)) (F : List (List ℕ)) (T : List (AabbNode d)) (fuel : ℕ) (P : List (Pt d)) (hd : ℝ) : Option ℝ :=
  P.foldlM (fun hd p => do
    let b ← hdSearch p V F T hd fuel [0] ⊤
    match b with
    | ⊤ => none
    | (r : ℝ) => some (if r > hd then r else hd)) hd

/-- `approximate_hausdorff_distance(v1,f1,v2,f2,use_cpp=False)` (`approximate_hausdorff_distance.py:82-163`), the loops cut off after `fuel` rounds. -/
def approximateHausdorffDistance (argsort : List ℝ → List ℕ) (V1 : List (Pt d)) (F1 : List (List ℕ)) (V2 : List (Pt d)) (F2 : List (List ℕ))
    (fuel : ℕ) : Option ℝ := do
  let T1 ← initializeAabbtree argsort V1 F1 none none fuel
  let T2 ← initializeAabbtree argsort V2 F2 none none fuel
  let hd ← hdSide V2 F2 T2 fuel V1 0
  hdSide V1 F1 T1 fuel V2 hd

end
end Gpy
