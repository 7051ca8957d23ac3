import Verif.Model.RemoveDuplicate
import Verif.Model.Edges

/-!
# `_merge_meshes`, `reach_for_the_spheres.py:1047-1072`
-/

set_option autoImplicit false
namespace Gpy.Merge
open Np

variable {K : Type} [Field K] [LinearOrder K] [IsStrictOrderedRing K] [FloorRing K]

/-- the entries of an array of triangles -/
def flat3 (F : List Tri) : List ℕ := F.flatMap (fun f => [f.a, f.b, f.c])

/-- `_merge_meshes` for triangles, `:1051-1067`: the vertices and the entries of the face array.  Rows of vertex arrays are lists of coordinates; `epsilon` is the square root of the machine
epsilon; `none`: an exception. -/
def merge3 (epsilon : K) (Va : List (List K)) (Fa : List Tri) (Vi : List (List K)) (Fi : List Tri) : Option (List (List K) × List ℕ) :=
  (boundaryVertices Fa).bind (fun bd =>                                                                       -- line 1052
    let interior := (List.range Va.length).filter (fun v => v ∉ bd)                                           -- line 1053
    (npTake Va (bd.map (fun k : ℕ => (k : Int)))).bind (fun Vbd =>
      let W := Vi ++ Vbd                                                                                      -- line 1054
      let R := W.map (fun x => x.map (fun t => npRound (t / epsilon)))                                        -- line 1057
      let num := (npUniqueIndex R).length                                                                     -- line 1059
      let zi := npUniqueIndex R ++ interior.map (fun v => v + Vi.length)                                      -- line 1060
      let inv := npUniqueInverse R ++ (List.range interior.length).map (fun v => v + num)                     -- line 1062
      (npTake inv ((flat3 Fi ++ (flat3 Fa).map (fun v => v + Vi.length)).map (fun k : ℕ => (k : Int)))).bind (fun F =>      -- lines 1065-1066
        (npTake (Vi ++ Va) (zi.map (fun k : ℕ => (k : Int)))).map (fun V => (V, F)))))                        -- lines 1064, 1067

/-- `_merge_meshes` for segments (and the entries of the edge arrays), `:1068-1071` -/
def merge2 (epsilon : K) (Va : List (List K)) (Fa : List ℕ) (Vi : List (List K)) (Fi : List ℕ) : Option (List (List K) × List ℕ) :=
  (removeDuplicateVerticesFaces (Vi ++ Va) epsilon ((Fi ++ Fa.map (fun v => v + Vi.length)).map (fun k : ℕ => (k : Int)))).map (fun r => (r.1, r.2.2.2))

end Gpy.Merge
