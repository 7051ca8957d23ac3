import Verif.Model.Quadtree
import Verif.Model.RemoveDuplicate

/-!
# `bad_quad_mesh_from_quadtree.py`
-/

set_option autoImplicit false
namespace Gpy.BadQuad
open Np

variable {K : Type} [Field K] [LinearOrder K] [IsStrictOrderedRing K] [FloorRing K] {dim : ℕ}

/-- the signs of the corners, `bad_quad_mesh_from_quadtree.py:61-64` and `:74-81` -/
def signs (dim : ℕ) : List (List Int) :=
  if dim = 2 then [[-1, -1], [-1, 1], [1, 1], [1, -1]]
  else [[-1, -1, -1], [-1, 1, -1], [1, 1, -1], [1, -1, -1], [-1, -1, 1], [-1, 1, 1], [1, 1, 1], [1, -1, 1]]

/-- which corners the quads have, `:66-71` and `:84-91` -/
def quadTable (dim : ℕ) : List (List ℕ) :=
  if dim = 2 then [[0, 1, 2, 3]] else [[0, 1, 2, 3], [4, 5, 6, 7], [2, 1, 5, 6], [3, 0, 4, 7], [1, 0, 4, 5], [3, 2, 6, 7]]

/-- `V` before merging, `:60-65` and `:73-82`: `np.vstack` of one block for each corner -/
def blockV (L : List (QuadCell K dim)) : List (List K) :=
  (signs dim).flatMap (fun s => L.map (fun c => (List.finRange dim).map (fun j => c.C j + 1 / 2 * c.W * ((s.getD j.val 0 : Int) : K))))

/-- `Q` before merging, `:66-71` and `:84-91`; `m` is the number of leaves -/
def blockQ (dim m : ℕ) : List (List ℕ) := (quadTable dim).flatMap (fun q => (List.range m).map (fun i => q.map (fun k => i + k * m)))

/-- `H` before merging, `:83` -/
def blockH (m : ℕ) : List (List ℕ) := (List.range m).map (fun i => (List.range 8).map (fun k => i + k * m))

/-- an array with `n` rows of `k` entries, from its entries -/
def chunks (k : ℕ) : ℕ → List ℕ → List (List ℕ)
  | 0, _ => []
  | n + 1, l => l.take k :: chunks k n (l.drop k)

/-- `bad_quad_mesh_from_quadtree`, `:52-96`.  `none` = exception (`np.amin` of nothing).  For a quadtree `H` is still `None` in line 95, and `SVJ[None]` is an array
with the one row `SVJ`. -/
def badQuadMesh (cells : List (QuadCell K dim)) : Option (List (List K) × List (List ℕ) × List (List ℕ)) :=
  let L := cells.filter isLeafCell
  match L.map (fun c => c.W) with
  | [] => none
  | w :: ws =>
    let eps := ws.foldl min w / 100
    let Q := blockQ dim L.length
    (removeDuplicateVerticesFaces (blockV L) eps (Q.flatten.map (fun k : ℕ => (k : Int)))).bind (fun r =>
      (if dim = 2 then some [r.2.2.1]
        else (npTake r.2.2.1 ((blockH L.length).flatten.map (fun k : ℕ => (k : Int)))).map (chunks 8 L.length)).map (fun H =>
          (r.1, chunks 4 Q.length r.2.2.2, H)))

end Gpy.BadQuad
