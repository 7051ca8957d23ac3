import Mathlib.Order.Basic
import Mathlib.Data.List.Basic
import Mathlib.Data.Nat.Notation

/-! Triangles, (directed) edges, and elementary incidence notions, written without reference to the algorithms. -/

namespace Gpy

/-- A row of a triangle list `F`. -/
structure Tri where
  a : ℕ
  b : ℕ
  c : ℕ
deriving DecidableEq, Repr

/-- A directed edge: a row `[s,t]` of an `(e,2)` integer array. -/
structure Edge where
  s : ℕ
  t : ℕ
deriving DecidableEq, Repr

/-- The same edge, traversed backwards. -/
def Edge.flip (e : Edge) : Edge := ⟨e.t, e.s⟩

/-- The same undirected edge. -/
def Undir (e e' : Edge) : Prop := e' = e ∨ e' = e.flip

instance (e e' : Edge) : Decidable (Undir e e') := by unfold Undir; infer_instance

/-- Corner `i` (0, 1, 2) of a triangle. -/
def Tri.corner (t : Tri) : Fin 3 → ℕ
  | 0 => t.a
  | 1 => t.b
  | 2 => t.c

/-- Side `i` of a triangle: the side opposite to corner `i`, oriented along the triangle. -/
def Tri.side (t : Tri) : Fin 3 → Edge
  | 0 => ⟨t.b, t.c⟩
  | 1 => ⟨t.c, t.a⟩
  | 2 => ⟨t.a, t.b⟩

/-- All directed sides of all triangles (with multiplicity). -/
def sides (F : List Tri) : List Edge := F.flatMap (fun t => [t.side 0, t.side 1, t.side 2])

/-- Number of triangle sides that lie on the undirected edge of `e`. -/
def incid (F : List Tri) (e : Edge) : ℕ := ((sides F).filter (fun h => Undir e h)).length

/-- Number of triangle sides equal to the directed edge `e`. -/
def dirIncid (F : List Tri) (e : Edge) : ℕ := ((sides F).filter (fun h => h = e)).length

/-- Consistently oriented edge-manifold mesh (possibly with boundary): no directed edge is the side of two triangles
(or twice the side of one), and no triangle has a repeated corner. -/
def OrientedManifold (F : List Tri) : Prop :=
  (sides F).Nodup ∧ ∀ t ∈ F, t.a ≠ t.b ∧ t.b ≠ t.c ∧ t.c ≠ t.a

instance (F : List Tri) : Decidable (OrientedManifold F) := by unfold OrientedManifold; infer_instance

end Gpy
