import Verif.Model.SquaredDistance
import Verif.Model.Winding

/-! `squared_distance.py` with `use_cpp=True`, `squared_distance_precompute.py`, and `unsigned_distance.py` on top of them.

The closest point search of libigl (`igl::point_mesh_squared_distance`, `igl::AABB::squared_distance`) is a parameter `lib V F p`, the triple
(squared distance, element, closest point). -/

set_option autoImplicit false
namespace Gpy
open Np

variable {d : ℕ}

/-- the answers of the library: squared distance, row of `F`, closest point -/
abbrev ClosestLib (d : ℕ) := List (Pt d) → List (List ℕ) → Pt d → ℝ × ℕ × Pt d

/-- the object made by `squared_distance_precompute`; the C++ side owns copies of both arrays (`binding_aabb_tree.cpp:21-23`, `63`) -/
structure AabbObj (d : ℕ) where
  V : List (Pt d)
  F : List (List ℕ)

/-- `squared_distance_precompute.__init__`, lines 52-63; `none`: dimension other than two and three (`binding_aabb_tree.cpp:24-32`) -/
def aabbPrecompute (V : List (Pt d)) (F : Option (List (List ℕ))) : Option (AabbObj d) :=
  let F := match F with
    | some F => F
    | none => if d = 2 then edgeIndices V.length true else pointElements V     -- lines 54-58
  if d = 2 ∨ d = 3 then some ⟨V, F⟩ else none

/-- a row of a two-column array as a pair -/
def toV2 (h : d = 2) (x : Pt d) : ℝ × ℝ := (x ⟨0, by omega⟩, x ⟨1, by omega⟩)

noncomputable section

/-- `squared_distance.py:162-172`: the weights of the closest point `c`, which lies in row `i` of `F`.  The number of columns of `F` is that of
its first row.  `none`: an index out of range.  numpy's `0/0` on an edge of length zero and on degenerate triangles is `0` here; the theorems exclude the case. -/
def cppLambda (V : List (Pt d)) (F : List (List ℕ)) (i : ℕ) (c : Pt d) : Option (List ℝ) :=
  match F.head? with
  | some [_] => some [1]                                                     -- lines 163-164
  | some [_, _] =>
    match F[i]? with
    | some [a, b] => do
      let x ← V[a]?
      let y ← V[b]?
      let l0 := pnorm (x - c)                                                -- line 167
      let l1 := pnorm (y - c)                                                -- line 168
      some [l1 / (l0 + l1), l0 / (l0 + l1)]                                  -- lines 169-170
    | _ => none
  | some [_, _, _] =>
    match F[i]? with
    | some [a, b, e] => do
      let x ← V[a]?
      let y ← V[b]?
      let z ← V[e]?
      if h : d = 3 then
        let q := barycentric3 (toV3 h c) (toV3 h x) (toV3 h y) (toV3 h z)    -- line 172
        some [q.x, q.y, q.z]
      else if h : d = 2 then
        let q := barycentric2 (toV2 h c) (toV2 h x) (toV2 h y) (toV2 h z)
        some [q.x, q.y, q.z]
      else none
    | _ => none
  | some es => some (es.map (fun _ => 0))                                    -- line 162
  | none => none

/-- `squared_distance.py:147-175` with `use_cpp=True`; `tree` is the argument `cpp_aabb` -/
def squaredDistanceCpp (lib : ClosestLib d) (P V : List (Pt d)) (F : Option (List (List ℕ))) (tree : Option (AabbObj d)) : Option (List (ℝ × ℕ × List ℝ)) :=
  let F := F.getD (pointElements V)                                   -- lines 147-148
  P.mapM (fun p => do
    let r := match tree with
      | some t => lib t.V t.F p                                              -- line 155
      | none => lib V F p                                                    -- line 161
    let w ← cppLambda V F r.2.1 r.2.2
    some (r.1, r.2.1, w))

/-- `unsigned_distance.py:39-49` with `use_cpp=True`, the default -/
def unsignedDistanceCpp (lib : ClosestLib d) (Q V : List (Pt d)) (F : Option (List (List ℕ))) (tree : Option (AabbObj d)) : Option (List (ℝ × ℕ × List ℝ)) := do
  let F ← match F with
    | some F => some F
    | none => if d = 2 then some (edgeIndices V.length true) else none       -- lines 40-43
  let r ← squaredDistanceCpp lib Q V (some F) tree                           -- line 44
  some (r.map (fun x => (Real.sqrt x.1, x.2.1, x.2.2)))                      -- lines 47-49

end
end Gpy
