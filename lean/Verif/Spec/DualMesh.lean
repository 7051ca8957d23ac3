import Verif.Model.DualExtract
import Mathlib.Data.Sym.Sym2
import Mathlib.Data.Set.Function

/-!
# What a dual mesh of a sampled grid is

Independent of how the mesh is made: one vertex in every cell of the grid with samples of both signs, and one quad around every inner edge of the grid whose ends have opposite signs.
-/

set_option autoImplicit false
namespace Gpy.Dual

/-- a grid vertex or a cell (named by its lowest vertex) -/
abbrev Ijk := ℕ × ℕ × ℕ

/-- an edge of the grid: from vertex `v` one step along the axis `ax` -/
structure GEdge where
  ax : Fin 3
  v : Ijk
deriving DecidableEq

/-- one step up along an axis -/
def up (ax : Fin 3) (v : Ijk) : Ijk := match ax with
  | 0 => (v.1 + 1, v.2.1, v.2.2)
  | 1 => (v.1, v.2.1 + 1, v.2.2)
  | 2 => (v.1, v.2.1, v.2.2 + 1)

/-- one step down along an axis -/
def down (ax : Fin 3) (v : Ijk) : Ijk := match ax with
  | 0 => (v.1 - 1, v.2.1, v.2.2)
  | 1 => (v.1, v.2.1 - 1, v.2.2)
  | 2 => (v.1, v.2.1, v.2.2 - 1)

/-- the two axes across an axis, in increasing order -/
def across (ax : Fin 3) : Fin 3 × Fin 3 := match ax with
  | 0 => (1, 2)
  | 1 => (0, 2)
  | 2 => (0, 1)

/-- the cells around an edge, in cyclic order -/
def around (e : GEdge) : Fin 4 → Ijk :=
  let p := (across e.ax).1
  let q := (across e.ax).2
  ![down p (down q e.v), down q e.v, e.v, down p e.v]

/-- the sample at a grid vertex -/
def Grid.at (g : Grid) (v : Ijk) : ℝ := g.s v.1 v.2.1 v.2.2

/-- a vertex of the grid -/
def Grid.Vert (g : Grid) (v : Ijk) : Prop := v.1 < g.nx ∧ v.2.1 < g.ny ∧ v.2.2 < g.nz

/-- a vertex on the boundary of the grid -/
def Grid.Bdry (g : Grid) (v : Ijk) : Prop := g.Vert v ∧ (v.1 = 0 ∨ v.1 + 1 = g.nx ∨ v.2.1 = 0 ∨ v.2.1 + 1 = g.ny ∨ v.2.2 = 0 ∨ v.2.2 + 1 = g.nz)

/-- the corner of a cell with offset 0 or 1 along every axis -/
def corner (c : Ijk) (a b d : Fin 2) : Ijk := (c.1 + a, c.2.1 + b, c.2.2 + d)

/-- a cell of the grid with a negative and a positive corner -/
def Grid.Active (g : Grid) (c : Ijk) : Prop :=
  c.1 + 1 < g.nx ∧ c.2.1 + 1 < g.ny ∧ c.2.2 + 1 < g.nz ∧ (∃ a b d, g.at (corner c a b d) < 0) ∧ ∃ a b d, 0 < g.at (corner c a b d)

/-- an edge of the grid that has cells on all sides -/
def Grid.Inner (g : Grid) (e : GEdge) : Prop := match e.ax with
  | 0 => e.v.1 + 1 < g.nx ∧ (1 ≤ e.v.2.1 ∧ e.v.2.1 + 1 < g.ny) ∧ 1 ≤ e.v.2.2 ∧ e.v.2.2 + 1 < g.nz
  | 1 => (1 ≤ e.v.1 ∧ e.v.1 + 1 < g.nx) ∧ e.v.2.1 + 1 < g.ny ∧ 1 ≤ e.v.2.2 ∧ e.v.2.2 + 1 < g.nz
  | 2 => (1 ≤ e.v.1 ∧ e.v.1 + 1 < g.nx) ∧ (1 ≤ e.v.2.1 ∧ e.v.2.1 + 1 < g.ny) ∧ e.v.2.2 + 1 < g.nz

/-- the samples at the ends of the edge have opposite signs -/
def Grid.Changes (g : Grid) (e : GEdge) : Prop := (g.at e.v < 0 ∧ 0 < g.at (up e.ax e.v)) ∨ (0 < g.at e.v ∧ g.at (up e.ax e.v) < 0)

/-- `q` is the quad through the cells around `e`, numbered by `num`, in one of the two directions -/
def IsRing (num : Ijk → ℕ) (e : GEdge) (q : Quad) : Prop :=
  q = ⟨num (around e 0), num (around e 1), num (around e 2), num (around e 3)⟩ ∨ q = ⟨num (around e 0), num (around e 3), num (around e 2), num (around e 1)⟩

/-- a mesh with `n` vertices and the quads `F` is a dual mesh of the grid: its vertices are the active cells, its quads the inner edges with a sign change, each once -/
def IsDualMesh (g : Grid) (n : ℕ) (F : List Quad) : Prop :=
  ∃ num : Ijk → ℕ, Set.BijOn num {c | g.Active c} (Set.Iio n) ∧
    ∃ L : List GEdge, L.Nodup ∧ (∀ e, e ∈ L ↔ g.Inner e ∧ g.Changes e) ∧ List.Forall₂ (IsRing num) L F

/-- the sides of a quad, without direction -/
def Quad.sides (q : Quad) : List (Sym2 ℕ) := [s(q.a, q.b), s(q.b, q.c), s(q.c, q.d), s(q.d, q.a)]

end Gpy.Dual
