import Verif.Model.MergeMeshes
import Verif.Model.RemoveUnreferenced

/-!
# The remeshing step of `reach_for_the_spheres`, `reach_for_the_spheres.py:726-769`, with output-sensitive remeshing, for triangle meshes
-/

set_option autoImplicit false
namespace Gpy.Local
open Np Gpy.Merge

variable {K : Type} [Field K] [LinearOrder K] [IsStrictOrderedRing K] [FloorRing K]

/-- `F[idx,:]`; `none`: IndexError -/
def rows (F : List Tri) (idx : List ℕ) : Option (List Tri) := idx.mapM (fun f => F[f]?)

/-- `_one_ring(F,active_faces)`, `reach_for_the_spheres.py:824-827` -/
def oneRing (F : List Tri) (active : List ℕ) : Option (List ℕ) :=
  (rows F active).map (fun A =>                                                                                 -- line 826
    let verts := flat3 A
    (List.range F.length).filter (fun f => ((F[f]?).toList.flatMap (fun t => [t.a, t.b, t.c])).any (fun v => decide (v ∈ verts))))      -- line 827

/-- an array of entries as triangles -/
def chunk3 : List ℕ → List Tri
  | a :: b :: c :: l => ⟨a, b, c⟩ :: chunk3 l
  | _ => []

/-- `remove_unreferenced(V,F[idx,:])`, `:741-742, 750-751` -/
def part (V : List (List K)) (F : List Tri) (idx : List ℕ) : Option (List (List K) × List Tri) :=
  (rows F idx).bind (fun G =>
    (removeUnreferenced (some V) ((flat3 G).map (fun v : ℕ => (v : Int)))).bind (fun r =>
      r.1.map (fun V' => (V', chunk3 (r.2.1.map Int.toNat)))))

/-- `:729-761`, when there are invalid faces `inv`; `remesh` is `_remesh` without feature vertices.  The computation of `TT` (line 731) and of the neighbours from it (line 733) is left out: the
result is not used.  `none`: an exception. -/
def localRemesh (epsilon : K) (remesh : List (List K) → List Tri → Option (List (List K) × List Tri)) (V : List (List K)) (F : List Tri) (inv : List ℕ) : Option (List (List K) × List Tri) :=
  (oneRing F inv).bind (fun act1 =>                                                                             -- line 736
    (oneRing F act1).bind (fun act =>                                                                           -- line 738
      (part V F act).bind (fun A =>                                                                             -- lines 741-742
        if A.2.length < F.length ∧ 0 < A.2.length then                                                          -- lines 744-745
          (part V F ((List.range F.length).filter (fun f => f ∉ act))).bind (fun I =>                           -- lines 747-751
            (remesh A.1 A.2).bind (fun A' =>                                                                    -- lines 753-755
              (merge3 epsilon A'.1 A'.2 I.1 I.2).map (fun r => (r.1, chunk3 r.2))))                             -- line 757
        else remesh V F)))                                                                                      -- lines 760-761

end Gpy.Local
