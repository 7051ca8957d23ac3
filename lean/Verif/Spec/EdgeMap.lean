import Verif.Model.SplitEdges
import Verif.Spec.Subdivide
import Mathlib.Algebra.BigOperators.Group.List.Basic
import Mathlib.Analysis.SpecialFunctions.Pow.Real

/-! The edge data structure of libigl (`igl::unique_edge_map`), closed meshes, and the surface that a mesh describes. -/

set_option autoImplicit false
namespace Gpy

/-- the triangles of a matrix of indices with three columns -/
def triList (F : IMat) : List Tri := (List.range F.rows).map (fun f => ⟨F.val f 0, F.val f 1, F.val f 2⟩)

/-- row `i` of a matrix of indices with two columns -/
def edgeRow (A : IMat) (i : ℕ) : Edge := ⟨A.val i 0, A.val i 1⟩

/-- The arrays `E`, `uE`, `EMAP`, `uE2E` are what `igl::unique_edge_map` documents: `E` lists the directed sides of the triangles (all sides opposite
to corner 0, then all sides opposite to corner 1, ...), `uE` lists every undirected edge once, `EMAP` says on which undirected edge a side lies and
`uE2E` lists the sides on an undirected edge. -/
structure IsEdgeMap (S : SplitState) : Prop where
  fcols : S.F.cols = 3
  erows : S.E.rows = 3 * S.F.rows
  ecols : S.E.cols = 2
  esize : S.EMAP.size = 3 * S.F.rows
  ucols : S.uE.cols = 2
  psize : S.uE2E.size = S.uE.rows
  side : ∀ f < S.F.rows, ∀ c : Fin 3, edgeRow S.E (f + c.val * S.F.rows) = (⟨S.F.val f 0, S.F.val f 1, S.F.val f 2⟩ : Tri).side c
  lab : ∀ h < 3 * S.F.rows, S.EMAP.val h < S.uE.rows ∧ Undir (edgeRow S.E h) (edgeRow S.uE (S.EMAP.val h))
  uniq : ∀ u < S.uE.rows, ∀ u' < S.uE.rows, Undir (edgeRow S.uE u) (edgeRow S.uE u') → u = u'
  occ : ∀ u < S.uE.rows, (S.uE2E.val u).Nodup ∧ S.uE2E.val u ≠ [] ∧ ∀ h, h ∈ S.uE2E.val u ↔ (h < 3 * S.F.rows ∧ S.EMAP.val h = u)

/-- A consistently oriented closed mesh with `n` vertices: a consistently oriented edge-manifold mesh in which every side is also traversed in the
other direction, and no two triangles have the same three corners. -/
structure ClosedOriented (n : ℕ) (F : List Tri) : Prop where
  manifold : OrientedManifold F
  closed : ∀ e ∈ sides F, e.flip ∈ sides F
  simple : NoTwin F
  range : InRange F n

/-- `p` is a point of the triangle with corners `a`, `b`, `c` -/
def InTri3 (p a b c : V3 ℝ) : Prop := ∃ u v w : ℝ, 0 ≤ u ∧ 0 ≤ v ∧ 0 ≤ w ∧ u + v + w = 1 ∧ p = u • a + v • b + w • c

/-- (twice the area times) the oriented normal of a triangle -/
def triNrm (a b c : V3 ℝ) : V3 ℝ := V3.cross (b - a) (c - a)

/-- Area of a triangle. -/
noncomputable def triArea3 (a b c : V3 ℝ) : ℝ := Real.sqrt (V3.normSq (triNrm a b c)) / 2

/-- Signed volume of the tetrahedron spanned by a triangle and the origin. -/
noncomputable def triVolume (a b c : V3 ℝ) : ℝ := V3.dot a (V3.cross b c) / 6

/-- sum of `φ` over the triangles of a mesh -/
noncomputable def meshSum (φ : V3 ℝ → V3 ℝ → V3 ℝ → ℝ) (V : ℕ → V3 ℝ) (F : List Tri) : ℝ := (F.map (fun t => φ (V t.a) (V t.b) (V t.c))).sum

/-- `p` is a point of the surface -/
def OnSurface (V : ℕ → V3 ℝ) (F : List Tri) (p : V3 ℝ) : Prop := ∃ t ∈ F, InTri3 p (V t.a) (V t.b) (V t.c)

end Gpy
