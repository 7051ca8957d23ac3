import Verif.Model.Edges
import Verif.Model.ArrayCorrespondence

namespace Gpy
open Np

/-- A row of an `(m,3)` array. -/
structure Row3 (α : Type*) where
  x0 : α
  x1 : α
  x2 : α
deriving DecidableEq, Repr

/-- entry `i` of a row -/
def Row3.get {α : Type*} (r : Row3 α) : Fin 3 → α
  | 0 => r.x0
  | 1 => r.x1
  | 2 => r.x2

/-- entry `i` of a row of the halfedge array -/
def Halfedges3.get (h : Halfedges3) : Fin 3 → Edge
  | 0 => h.h0
  | 1 => h.h1
  | 2 => h.h2

/-- `halfedge_edge_map.py:75-76`, `unflat_he`: Python's `%` and `//` (floor) on a possibly negative index. -/
def unflatHe (m : ℕ) (k : Int) : Int × Int := (k % (m : Int), k / (m : Int))

/-- Value of `a[f,c]` after the assignments `a[r_k,c_k] = e_k` in order, on an array of three columns initially filled with
`-1` (`halfedge_edge_map.py:97,103,106`).  A negative column index wraps around. When the same entry is assigned twice,
the last assignment counts. -/
def scatterLookup (writes : List ((Int × Int) × Int)) (f : ℕ) (c : ℕ) : Int :=
  (((writes.filter (fun w => decide (w.1.1 = (f : Int) ∧ (if w.1.2 < 0 then w.1.2 + 3 else w.1.2) = (c : Int)))).getLast?).map
    (fun w => w.2)).getD (-1)

/-- Output of `halfedge_edge_map(F, assume_manifold=True)`. `EToHe[e]` is `((f0,i0),(f1,i1))`. -/
structure HEMap where
  he : List Halfedges3
  E : List Edge
  heToE : List (Row3 Int)
  EToHe : List ((Int × Int) × (Int × Int))
deriving DecidableEq, Repr

/-- `halfedge_edge_map.py:50-109` with `assume_manifold=True`.  `none` models the asserts (lines 51, 72, 107) and
`IndexError`s. -/
def halfedgeEdgeMap (F : List Tri) : Option HEMap := do
  let m := F.length
  let he ← halfedges F                                                        -- lines 50-54
  let flat := flattenHe he                                                    -- line 55
  let sorted := flat.map Edge.sort                                            -- line 56
  let uniqueHe := npUnique sorted                                             -- lines 57-58
  let uniqueIndices := npUniqueIndex sorted
  let uniqueCount := npUniqueCounts sorted
  let bdryIdx := npMask uniqueIndices (uniqueCount.map (fun c => c == 1))      -- line 61
  let bdryE ← npTakeN flat bdryIdx                                            -- line 63
  let intIdx := npMask uniqueIndices (uniqueCount.map (fun c => decide (c > 1))) -- line 66
  let intE ← npTakeN flat intIdx                                              -- line 68
  let E := bdryE ++ intE                                                      -- line 71
  let first ← arrayCorrespondence intE flat                                   -- line 83
  let second ← arrayCorrespondence intE (flat.map Edge.flip)                  -- line 85
  let EToHe := bdryIdx.map (fun k : ℕ => (unflatHe m (k : Int), ((-1 : Int), (-1 : Int))))  -- lines 78-80
    ++ List.zipWith (fun a b => (unflatHe m a, unflatHe m b)) first second    -- lines 81-85
  let writes := (EToHe.zipIdx.flatMap (fun p => [(p.1.1, (p.2 : Int)), (p.1.2, (p.2 : Int))])).filter
    (fun w => decide (0 ≤ w.1.1))                                             -- lines 99-102
  let heToE := (List.range m).map (fun f =>
    Row3.mk (scatterLookup writes f 0) (scatterLookup writes f 1) (scatterLookup writes f 2))  -- lines 97, 103
  if E.length ≠ uniqueHe.length then none else                                -- line 72
  if heToE.any (fun r => r.x0 == -1 || r.x1 == -1 || r.x2 == -1) then none else -- line 107
  some { he := he, E := E, heToE := heToE, EToHe := EToHe }

/-- Output of `halfedge_edge_map(F, assume_manifold=False)`: `EToHe[e]` is the list of all `(f,i)` on edge `e`. -/
structure HEMapNM where
  he : List Halfedges3
  E : List Edge
  heToE : List (Row3 Int)
  EToHe : List (List (Int × Int))
deriving DecidableEq, Repr

/-- `halfedge_edge_map.py:50-109` with `assume_manifold=False`. -/
def halfedgeEdgeMapNM (F : List Tri) : Option HEMapNM := do
  let m := F.length
  let he ← halfedges F                                                        -- lines 50-54
  let flat := flattenHe he                                                    -- line 55
  let sorted := flat.map Edge.sort                                            -- line 56
  let uniqueHe := npUnique sorted                                             -- lines 57-58
  let uniqueIndices := npUniqueIndex sorted
  let uniqueCount := npUniqueCounts sorted
  let bdryIdx := npMask uniqueIndices (uniqueCount.map (fun c => c == 1))      -- line 61
  let bdryE ← npTakeN flat bdryIdx                                            -- line 63
  let intIdx := npMask uniqueIndices (uniqueCount.map (fun c => decide (c > 1))) -- line 66
  let intE ← npTakeN flat intIdx                                              -- line 68
  let E := bdryE ++ intE                                                      -- line 71
  let EToHe := bdryIdx.map (fun k : ℕ => [unflatHe m (k : Int)])               -- lines 88-90
    ++ intE.map (fun e => ((npWhere (flat.map (fun h => decide (e = h) || decide (e.flip = h)))).map
        (fun k : ℕ => unflatHe m (k : Int))))                                 -- lines 91-94
  let writes := EToHe.zipIdx.flatMap (fun p => p.1.map (fun q => (q, (p.2 : Int))))  -- lines 105-106
  let heToE := (List.range m).map (fun f =>
    Row3.mk (scatterLookup writes f 0) (scatterLookup writes f 1) (scatterLookup writes f 2))  -- lines 97, 106
  if E.length ≠ uniqueHe.length then none else                                -- line 72
  if heToE.any (fun r => r.x0 == -1 || r.x1 == -1 || r.x2 == -1) then none else -- line 107
  some { he := he, E := E, heToE := heToE, EToHe := EToHe }

/-- `triangle_triangle_adjacency.py:39-51`; the Fortran-order reshape of a flat array `x` of length `3m` has entry `(f,i)`
equal to `x[i*m+f]`. -/
def triangleTriangleAdjacency (F : List Tri) : Option (List (Row3 Int) × List (Row3 Int)) := do
  let m := F.length
  let he ← halfedges F                                                        -- lines 39-43
  let flat := flattenHe he                                                    -- line 44
  let mapToFlip ← arrayCorrespondence flat (flat.map Edge.flip)               -- lines 45-47
  let tt := mapToFlip.map (fun k => if k < 0 then (-1 : Int) else k % (m : Int))    -- line 48
  let tti := mapToFlip.map (fun k => if k < 0 then (-1 : Int) else k / (m : Int))   -- line 49
  let reshape := fun (x : List Int) => (List.range m).mapM (fun f => do
    let a ← x[0 * m + f]?
    let b ← x[1 * m + f]?
    let c ← x[2 * m + f]?
    some (Row3.mk a b c))
  let TT ← reshape tt
  let TTi ← reshape tti
  return (TT, TTi)                                                            -- line 51

end Gpy
