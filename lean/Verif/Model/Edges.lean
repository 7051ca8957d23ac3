import Verif.Np.Basic
import Verif.Np.EdgeOrder

namespace Gpy
open Np

/-- `a[idx]` for an array of non-negative indices (`none` = `IndexError`). -/
def npTakeN {β : Type*} (l : List β) (idx : List Nat) : Option (List β) := idx.mapM (fun i => l[i]?)

/-- One row of the array returned by `halfedges.py:36-42`: `he[f] = [[F1,F2],[F2,F0],[F0,F1]]`. -/
structure Halfedges3 where
  h0 : Edge
  h1 : Edge
  h2 : Edge
deriving DecidableEq, Repr

/-- `halfedges.py:36-42`. `none` models the failed `assert F.shape[0] > 0` (line 36). -/
def halfedges (F : List Tri) : Option (List Halfedges3) :=
  if F.length = 0 then none
  else some (F.map (fun f => ⟨⟨f.b, f.c⟩, ⟨f.c, f.a⟩, ⟨f.a, f.b⟩⟩))

/-- `edges.py:52`, `halfedge_edge_map.py:55`, `triangle_triangle_adjacency.py:44`: `np.concatenate([he[:,0,:],he[:,1,:],he[:,2,:]])`. -/
def flattenHe (he : List Halfedges3) : List Edge := he.map (·.h0) ++ he.map (·.h1) ++ he.map (·.h2)

/-- `np.sort(., axis=1)` on a row of length two. -/
def Edge.sort (e : Edge) : Edge := if e.s ≤ e.t then e else ⟨e.t, e.s⟩

/-- All outputs of `edges` (`edges.py:47-77`); which of the index lists are returned depends on the flags. -/
structure EdgesOut where
  E : List Edge
  boundaryIndices : List Nat
  interiorIndices : List Nat
  nonmanifoldIndices : List Nat
deriving DecidableEq, Repr

/-- `edges.py:47-77`. `none` models the asserts in lines 47 and 64 and an `IndexError`. -/
def edges (F : List Tri) : Option EdgesOut := do
  let he ← halfedges F                                                   -- lines 47-51
  let flat := flattenHe he                                               -- line 52
  let sorted := flat.map Edge.sort                                       -- line 53
  let uniqueHe := npUnique sorted                                        -- lines 54-55
  let uniqueIndices := npUniqueIndex sorted
  let uniqueCount := npUniqueCounts sorted
  let bdry ← npTakeN flat (npMask uniqueIndices (uniqueCount.map (fun c => c == 1)))  -- line 60
  let interior := npMask uniqueHe (uniqueCount.map (fun c => decide (c > 1)))           -- line 62
  let E := bdry ++ interior                                              -- line 63
  if E.length ≠ uniqueHe.length then none else                           -- line 64
  some {
    E := E
    boundaryIndices := List.range bdry.length                            -- line 69
    interiorIndices := npWhere (uniqueCount.map (fun c => decide (c > 1)))      -- line 71
    nonmanifoldIndices := npWhere (uniqueCount.map (fun c => decide (c > 2))) } -- line 74

/-- `boundary_edges.py:27-28`. -/
def boundaryEdges (F : List Tri) : Option (List Edge) := do
  let r ← edges F
  npTakeN r.E r.boundaryIndices

/-- `boundary_vertices.py:29`: `np.unique` of the flattened edge list. -/
def boundaryVertices (F : List Tri) : Option (List Nat) := do
  let E ← boundaryEdges F
  return npUnique (E.flatMap (fun e => [e.s, e.t]))

/-- `non_manifold_edges.py:33-42`; line 35 reshapes `(m,3,2)` to `(3m,2)` in row-major order. -/
def nonManifoldEdges (F : List Tri) : Option (List Edge) := do
  let he ← halfedges F
  let flat := he.flatMap (fun h => [h.h0, h.h1, h.h2])                    -- line 35
  let sorted := flat.map Edge.sort                                        -- line 36
  return npMask (npUnique sorted) ((npUniqueCounts sorted).map (fun c => decide (c > 2)))  -- lines 38-40

end Gpy
