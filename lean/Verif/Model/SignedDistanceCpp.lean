import Verif.Model.SquaredDistanceCpp

/-! `signed_distance.py` with `use_cpp=True` (the default), `winding_number.py` in space, `fast_winding_number.py`, `fast_winding_number_precompute.py`.

libigl's fast winding number is a parameter `fwn order V F accuracy q`. -/

set_option autoImplicit false
namespace Gpy
open Np

noncomputable section

/-- libigl's approximation of the winding number: expansion order, mesh, accuracy, query -/
abbrev FwnLib := ℕ → List (Pt 3) → List (List ℕ) → ℝ → Pt 3 → ℝ

/-- the object made by `fast_winding_number_precompute` (`binding_fast_winding_number_bvh.cpp:17-39`) -/
structure FwnObj where
  V : List (Pt 3)
  F : List (List ℕ)
  order : ℕ

/-- `fast_winding_number_precompute.__init__`, lines 53-63; `none`: the `ValueError` of lines 55-58 (the number of columns is that of the first row) -/
def fwnPrecompute (V : List (Pt 3)) (F : List (List ℕ)) (order : ℕ := 2) : Option FwnObj :=
  if (F.head?.map List.length).getD 0 = 3 then some ⟨V, F, order⟩ else none

/-- `fast_winding_number.py:58-69` for one query.  Without a precomputed object libigl uses order 2 and accuracy 2; with one the accuracy is the default 2
of `fast_winding_number_precompute.py:77`. -/
def fastWindingNumber (fwn : FwnLib) (V : List (Pt 3)) (F : List (List ℕ)) (bvh : Option FwnObj) (q : Pt 3) : ℝ :=
  match bvh with
  | some b => fwn b.order b.V b.F 2 q                                        -- line 59
  | none => fwn 2 V F 2 q                                                    -- line 67

variable {d : ℕ}

/-- `signed_distance.py:80-86` for one query: `W` the winding number, `r` the answer of `squared_distance` -/
def signOne (W : ℝ) (r : ℝ × ℕ × List ℝ) : ℝ × ℕ × List ℝ := (npSign (-2 * W + 1) * Real.sqrt r.1, r.2.1, r.2.2)

/-- `signed_distance.py:71-86` in the plane -/
def signedDistanceCpp2 (lib : ClosestLib 2) (Q V : List (Pt 2)) (F : Option (List (List ℕ))) (tree : Option (AabbObj 2)) : Option (List (ℝ × ℕ × List ℝ)) := do
  let F := F.getD (edgeIndices V.length true)                                -- lines 72-75
  let r ← squaredDistanceCpp lib Q V (some F) tree                           -- line 76
  let W ← Q.mapM (fun q => windingNumber2 q V F)                             -- line 79
  some (List.zipWith signOne W r)

/-- `signed_distance.py:71-86` in space; without elements the assertion of line 74 fails -/
def signedDistanceCpp3 (lib : ClosestLib 3) (fwn : FwnLib) (Q V : List (Pt 3)) (F : Option (List (List ℕ))) (tree : Option (AabbObj 3)) (bvh : Option FwnObj) :
    Option (List (ℝ × ℕ × List ℝ)) := do
  let F ← F
  let r ← squaredDistanceCpp lib Q V (some F) tree
  some (List.zipWith signOne (Q.map (fastWindingNumber fwn V F bvh)) r)

end
end Gpy
