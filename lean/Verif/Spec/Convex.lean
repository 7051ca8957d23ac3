import Verif.Np.Pt

/-! Convex combinations of the vertices of an element. -/

set_option autoImplicit false
namespace Gpy
variable {d : ℕ}

/-- `w` is a list of `n` non-negative weights that sum to one -/
def IsWeights (w : List ℝ) (n : ℕ) : Prop := w.length = n ∧ (∀ x ∈ w, 0 ≤ x) ∧ w.sum = 1

/-- the point with weights `w` with respect to the points `X` -/
def comb (w : List ℝ) (X : List (Pt d)) : Pt d := fun j => ((w.zip X).map (fun q => q.1 * q.2 j)).sum

/-- `(2·area)²` of the triangle `x y z`, in any dimension -/
def gram (x y z : Pt d) : ℝ := pdot (y - x) (y - x) * pdot (z - x) (z - x) - pdot (y - x) (z - x) * pdot (y - x) (z - x)

/-- The points `X` of an element are a single point, a segment no shorter than the threshold `1e-10` of the code, or a triangle of
positive area in space. -/
inductive GoodElem : List (Pt d) → Prop
  | point (x : Pt d) : GoodElem [x]
  | segment (x y : Pt d) (h : 1e-10 ≤ pnorm (y - x)) : GoodElem [x, y]
  | triangle (x y z : Pt d) (hd : d = 3) (h : 0 < gram x y z) : GoodElem [x, y, z]

/-- As `GoodElem`, with segments of any length. -/
inductive ElemShape : List (Pt d) → Prop
  | point (x : Pt d) : ElemShape [x]
  | segment (x y : Pt d) : ElemShape [x, y]
  | triangle (x y z : Pt d) (hd : d = 3) (h : 0 < gram x y z) : ElemShape [x, y, z]

/-- `x` is a point of one of the elements `F` (points, segments, triangles, ...) over the vertices `V`. -/
def MeshPoint (V : List (Pt d)) (F : List (List ℕ)) (x : Pt d) : Prop :=
  ∃ f ∈ F, ∃ X, f.mapM (fun i => V[i]?) = some X ∧ ∃ w, IsWeights w X.length ∧ x = comb w X

end Gpy
