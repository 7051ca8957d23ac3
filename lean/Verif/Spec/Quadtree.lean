import Verif.Model.Quadtree

/-! What the quadtree functions are supposed to do, in terms of boxes. -/

set_option autoImplicit false
namespace Gpy

variable {K : Type} [Field K] {dim : ℕ}

/-- The two ends of a cell along axis `j`. -/
def QuadCell.lo (c : QuadCell K dim) (j : Fin dim) : K := c.C j - c.W / 2
def QuadCell.hi (c : QuadCell K dim) (j : Fin dim) : K := c.C j + c.W / 2

/-- A cell without children. -/
def QuadCell.Childless (c : QuadCell K dim) : Prop := ∀ x ∈ c.CH, x = -1

variable [LinearOrder K]

/-- The closed box and its interior. -/
def QuadCell.Contains (c : QuadCell K dim) (p : Fin dim → K) : Prop := ∀ j, c.lo j ≤ p j ∧ p j ≤ c.hi j
def QuadCell.Interior (c : QuadCell K dim) (p : Fin dim → K) : Prop := ∀ j, c.lo j < p j ∧ p j < c.hi j

/-- `y` lies next to `x` in the direction `code` (1 left, 2 right, 3 bottom, 4 top, 5 back, 6 front: two codes per axis, the lower side first) and
the two boxes share a facet of positive measure. -/
def Touches (x y : QuadCell K dim) (code : ℕ) : Prop :=
  ∃ j : Fin dim, ((code = 2 * j.val + 1 ∧ y.hi j = x.lo j) ∨ (code = 2 * j.val + 2 ∧ x.hi j = y.lo j)) ∧
    ∀ i, i ≠ j → x.lo i < y.hi i ∧ y.lo i < x.hi i

/-- The trees that arise from a root cell by any sequence of successful `subdivide_quad` calls. -/
inductive QuadReach (c0 : Fin dim → K) (w0 : K) : Quad K dim → Prop
  | init : QuadReach c0 w0 (quadInit c0 w0)
  | step (Q Q' : Quad K dim) (graded : Bool) (ind : ℕ) : QuadReach c0 w0 Q → subdivideQuadTop graded Q ind = some Q' → QuadReach c0 w0 Q'

/-- The same with `graded=True` in every call. -/
inductive GradedReach (c0 : Fin dim → K) (w0 : K) : Quad K dim → Prop
  | init : GradedReach c0 w0 (quadInit c0 w0)
  | step (Q Q' : Quad K dim) (ind : ℕ) : GradedReach c0 w0 Q → subdivideQuadTop true Q ind = some Q' → GradedReach c0 w0 Q'

end Gpy
