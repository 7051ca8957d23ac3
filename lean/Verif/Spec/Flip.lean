import Verif.Spec.EdgeMap
import Mathlib.Logic.Relation
import Mathlib.Algebra.BigOperators.Group.Finset.Basic

/-! Edge flips, and the contract of `igl::flip_edge`. -/

set_option autoImplicit false
namespace Gpy

/-- `t` is the triangle `a b c`, starting from any of its corners -/
def IsCyc (t : Tri) (a b c : ℕ) : Prop := t = ⟨a, b, c⟩ ∨ t = ⟨b, c, a⟩ ∨ t = ⟨c, a, b⟩

/-- `F'` is `F` with the common edge `v1 v2` of two triangles replaced by the other diagonal `v3 v4` of the quadrilateral `v1 v3 v2 v4`. -/
def IsFlip (v1 v2 v3 v4 : ℕ) (F F' : List Tri) : Prop :=
  ∃ i j t t', i ≠ j ∧ F[i]? = some t ∧ F[j]? = some t' ∧ IsCyc t v1 v2 v4 ∧ IsCyc t' v2 v1 v3 ∧
    F' = (F.set i ⟨v1, v3, v4⟩).set j ⟨v2, v4, v3⟩

/-- total deviation of the valences (number of triangles at a vertex) from six -/
def totalDeviation (n : ℕ) (F : List Tri) : ℤ := ∑ v ∈ Finset.range n, |(cornerCount F v : ℤ) - 6|

/-- the angle between the vectors is at most 60 degrees (and they are not zero) -/
def Within60 (p q : V3 ℝ) : Prop := 0 < V3.normSq p ∧ 0 < V3.normSq q ∧ Real.sqrt (V3.normSq p) * Real.sqrt (V3.normSq q) / 2 ≤ V3.dot p q

/-- A flip that the remesher may make: the flipped edge is no feature edge, none of the four vertices is fixed, the new edge was no edge of the mesh before, the
valences get closer to six, and the normals of the new triangles are within 60 degrees of those of the old ones. -/
structure GoodFlip (V : ℕ → V3 ℝ) (feature : List ℕ) (fe : List Edge) (v1 v2 v3 v4 : ℕ) (F F' : List Tri) : Prop where
  flip : IsFlip v1 v2 v3 v4 F F'
  noFeatureEdge : ¬ ∃ e ∈ fe, Undir ⟨v1, v2⟩ e
  notFixed : v1 ∉ feature ∧ v2 ∉ feature ∧ v3 ∉ feature ∧ v4 ∉ feature
  newEdge : v3 ≠ v4 ∧ ¬ ∃ e ∈ sides F, Undir ⟨v3, v4⟩ e
  better : ∀ n, (∀ v ∈ [v1, v2, v3, v4], v < n) → totalDeviation n F' < totalDeviation n F
  normals : ∀ old ∈ [(v1, v2, v4), (v2, v1, v3)], ∀ new ∈ [(v1, v3, v4), (v2, v4, v3)],
    Within60 (triNrm (V old.1) (V old.2.1) (V old.2.2)) (triNrm (V new.1) (V new.2.1) (V new.2.2))

/-- The contract of `igl::flip_edge(F,E,uE,EMAP,uE2E,u)`: for an edge `u` that is shared by two triangles of a consistently oriented mesh whose opposite corners `v3 ≠ v4` are
not joined by an edge, the two triangles (rows `f1`, `f2` of `F`) are replaced by `v1 v3 v4` and `v2 v4 v3`, row `u` of the list of edges becomes `v3 v4`, and the
edge data structure is kept up to date. -/
def FlipSpec (flip : SplitState → ℕ → Option SplitState) : Prop :=
  ∀ (S : SplitState) (u e0 e1 v1 v2 v3 v4 : ℕ), IsEdgeMap S → OrientedManifold (triList S.F) → u < S.uE.rows → S.uE2E.val u = [e0, e1] →
    S.F.val (e0 % S.F.rows) ((e0 / S.F.rows + 1) % 3) = v1 → S.F.val (e0 % S.F.rows) ((e0 / S.F.rows + 2) % 3) = v2 →
    S.F.val (e0 % S.F.rows) (e0 / S.F.rows) = v4 → S.F.val (e1 % S.F.rows) (e1 / S.F.rows) = v3 →
    v3 ≠ v4 → (¬ ∃ e ∈ sides (triList S.F), Undir ⟨v3, v4⟩ e) →
    ∃ S', flip S u = some S' ∧ IsEdgeMap S' ∧ S'.V = S.V ∧ S'.uE.rows = S.uE.rows ∧ edgeRow S'.uE u = ⟨v3, v4⟩ ∧
      (∀ u' < S.uE.rows, u' ≠ u → edgeRow S'.uE u' = edgeRow S.uE u') ∧
      triList S'.F = ((triList S.F).set (e0 % S.F.rows) ⟨v1, v3, v4⟩).set (e1 % S.F.rows) ⟨v2, v4, v3⟩

end Gpy
