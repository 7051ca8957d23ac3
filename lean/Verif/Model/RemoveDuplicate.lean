import Verif.Np.Basic
import Mathlib.Data.List.Lex
import Mathlib.Algebra.Order.Floor.Ring
import Mathlib.Data.Rat.Floor
import Mathlib.Algebra.Order.Field.Basic
import Mathlib.Algebra.Ring.Int.Parity

/-! `remove_duplicate_vertices.py`. -/

set_option autoImplicit false
namespace Gpy
open Np

variable {K : Type} [Field K] [LinearOrder K] [IsStrictOrderedRing K] [FloorRing K]

/-- `np.round`: round to the nearest integer, halves to the even one. -/
def npRound (x : K) : K :=
  let f := ⌊x⌋
  let r := x - (f : K)
  if r < 1/2 then (f : K) else if 1/2 < r then (f : K) + 1 else if Even f then (f : K) else (f : K) + 1

/-- `remove_duplicate_vertices(V,epsilon)`, `remove_duplicate_vertices.py:41-48`: `(SV,SVI,SVJ)`.  Rows of `V` are lists of
coordinates, which `np.unique(axis=0)` sorts lexicographically. -/
def removeDuplicateVertices (V : List (List K)) (epsilon : K) : Option (List (List K) × List ℕ × List ℕ) :=
  if epsilon = 0 then some (npUnique V, npUniqueIndex V, npUniqueInverse V)                    -- line 42
  else
    let R := V.map (fun x => x.map (fun t => npRound (t / epsilon)))                           -- line 44
    (npTake V ((npUniqueIndex R).map (fun k : ℕ => (k : Int)))).map                            -- line 45
      (fun SV => (SV, npUniqueIndex R, npUniqueInverse R))

/-- Lines 49-50: with `faces` (as the flat list of its entries), also `SVJ[faces]`. -/
def removeDuplicateVerticesFaces (V : List (List K)) (epsilon : K) (faces : List Int) :
    Option (List (List K) × List ℕ × List ℕ × List ℕ) :=
  (removeDuplicateVertices V epsilon).bind (fun r =>
    (npTake r.2.2 faces).map (fun SF => (r.1, r.2.1, r.2.2, SF)))

end Gpy
