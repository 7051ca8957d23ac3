import Verif.Model.Aabb
import Verif.Model.SquaredDistance
import Verif.Model.TriangleDistance
import Verif.Model.MinimumDistance

/-! `ray_box_intersect.py`, `ray_triangle_intersect.py` and the Python branch of `ray_mesh_intersect.py`. -/

set_option autoImplicit false
namespace Gpy
open Np

noncomputable section
variable {d : ℕ}

/-- `quadrant`, `ray_box_intersect.py:54-64`. -/
def rbQuadrant (o minB maxB : Pt d) (i : Fin d) : ℕ := if o i < minB i then 1 else if o i > maxB i then 0 else 2

/-- `candidatePlane`, `ray_box_intersect.py:48,54-64`. -/
def rbPlane (o minB maxB : Pt d) (i : Fin d) : ℝ := if o i < minB i then minB i else if o i > maxB i then maxB i else -1

/-- `maxT`, `ray_box_intersect.py:71-75`. -/
def rbMaxT (o dir minB maxB : Pt d) (i : Fin d) : ℝ :=
  if rbQuadrant o minB maxB i ≠ 2 ∧ dir i ≠ 0 then (rbPlane o minB maxB i - o i) / dir i else -1

/-- `ray_box_intersect(origin,dir,center,width)`, `ray_box_intersect.py:43-93`: `some x` is `(True,x)`, `none` is `(False,·)` (the half filled array
that comes with `False` is not modelled). -/
def rayBoxIntersect [NeZero d] (o dir C W : Pt d) : Option (Pt d) :=
  let minB : Pt d := fun i => C i - 0.5 * W i                         -- line 50
  let maxB : Pt d := fun i => C i + 0.5 * W i                         -- line 51
  if ∀ i, rbQuadrant o minB maxB i = 2 then some o                    -- lines 67-69
  else
    let maxT := rbMaxT o dir minB maxB
    let w : Fin d := (List.finRange d).foldl (fun w i => if maxT w < maxT i then i else w) 0       -- lines 77-80
    if maxT w < 0 then none                                           -- lines 82-83
    else
      let x : Pt d := fun i => if w ≠ i then o i + maxT w * dir i else rbPlane o minB maxB i        -- lines 85-91
      if ∃ i, w ≠ i ∧ (x i < minB i ∨ x i > maxB i) then none
      else some x

/-- `ray_triangle_intersect(origin,dir,v0,v1,v2,return_negative)`, `ray_triangle_intersect.py:53-95`: `some (t,x)` is `(t,True,x)`, `none` is
`(inf,False,(inf,inf,inf))`. -/
def rayTriangleIntersect (o dir v0 v1 v2 : Pt 3) (returnNegative : Bool := false) : Option (ℝ × Pt 3) :=
  let e1 := v1 - v0                                                   -- line 57
  let e2 := v2 - v0                                                   -- line 58
  let pvec := pcross dir e2                                           -- line 59
  let det := pdot e1 pvec                                             -- line 60
  if |det| < 1e-6 then none                                           -- lines 62-66
  else
    let invDet := 1 / det
    let tvec := o - v0
    let u := pdot tvec pvec * invDet                                  -- line 70
    if u < 0 ∨ u > 1 then none                                        -- lines 72-76
    else
      let qvec := pcross tvec e1                                      -- line 78
      let v := pdot dir qvec * invDet                                 -- line 79
      if v < 0 ∨ u + v > 1 then none                                  -- lines 81-85
      else
        let t := pdot e2 qvec * invDet                                -- line 87
        if returnNegative = false ∧ t < 0 then none                   -- lines 90-94
        else some (t, fun i => o i + t * dir i)                       -- line 88

/-- The attributes of `ray_mesh_intersect_traversal` that change (`ray_mesh_intersect.py:17-19`). -/
structure RmState where
  t : WithTop ℝ
  id : Int
  lmbd : V3 ℝ

/-- `traversal_function`, `ray_mesh_intersect.py:20-43`.  The division of line 35 by a zero direction (`nan` in numpy, which compares false) is `0` here. -/
def rmVisit (o dir : Pt 3) (V : List (Pt 3)) (F : List (List ℕ)) (s : RmState) (n : AabbNode 3) (isLeaf : Bool) : Option (Bool × RmState) :=
  if isLeaf then do
    let S ← triCorners V F n.tri                                      -- lines 26-28
    match rayTriangleIntersect o dir S.1 S.2.1 S.2.2 with             -- line 29
    | none => some (false, s)
    | some (t, x) =>
      if (t : WithTop ℝ) < s.t then
        some (true, { t := (t : WithTop ℝ), id := n.tri,
                      lmbd := barycentric3 (toV3 rfl x) (toV3 rfl S.1) (toV3 rfl S.2.1) (toV3 rfl S.2.2) })     -- lines 38-41
      else some (false, s)
  else do
    let k ← npArgmax (fun i => |dir i|)                               -- line 13
    match rayBoxIntersect o dir n.C n.W with                          -- line 34
    | none => some (false, s)
    | some x => some (decide ((((x k - o k) / dir k : ℝ) : WithTop ℝ) < s.t), s)      -- lines 35-36

/-- `add_to_queue`, `ray_mesh_intersect.py:44-46`. -/
def rmAdd (_ : RmState) (queue : List Int) (n : AabbNode 3) : List Int := n.ch0 :: n.ch1 :: queue

/-- One ray of `ray_mesh_intersect(...,use_embree=False)` on the tree `T` (`ray_mesh_intersect.py:133-139`). -/
def rayMeshIntersect (o dir : Pt 3) (V : List (Pt 3)) (F : List (List ℕ)) (T : List (AabbNode 3)) (fuel : ℕ) : Option RmState :=
  traverse T (rmVisit o dir V F) rmAdd fuel [0] ⟨⊤, -1, ⟨0, 0, 0⟩⟩

end
end Gpy
