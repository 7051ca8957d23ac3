import Verif.Spec.Mesh

set_option autoImplicit false
namespace Gpy

/-- The edges between cyclically consecutive vertices of a loop. -/
def cyclicEdges (l : List ℕ) : List Edge := List.zipWith Edge.mk l (l.rotate 1)

/-- number of edges of the list that start, resp. end, at `v` -/
def outDeg (E : List Edge) (v : ℕ) : ℕ := (E.filter (fun e => e.s = v)).length
def inDeg (E : List Edge) (v : ℕ) : ℕ := (E.filter (fun e => e.t = v)).length

end Gpy
