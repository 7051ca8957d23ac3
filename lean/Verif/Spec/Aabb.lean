import Verif.Model.Aabb

/-! What it means for the arrays `C, W, CH, tri_indices` to be a bounding volume hierarchy of the elements `F` over the
vertices `V`.  Only the fields that the traversals read are mentioned (not `tris`, `PAR`, `D`). -/

namespace Gpy
variable {d : ℕ}

/-- `x` lies in the closed box with centre `C` and side lengths `W`. -/
def InBox (C W x : Pt d) : Prop := ∀ j, C j - W j / 2 ≤ x j ∧ x j ≤ C j + W j / 2

/-- all vertices of element `e` lie in the box of the node -/
def ElemIn (V : List (Pt d)) (F : List (List ℕ)) (n : AabbNode d) (e : ℕ) : Prop :=
  ∀ es, F[e]? = some es → ∀ i ∈ es, ∀ x, V[i]? = some x → InBox n.C n.W x

/-- `Covers V F T q es`: the nodes below row `q` form a finite binary tree whose leaves, from left to right, hold the elements
`es`, and the box of each of its nodes contains all the vertices of the elements below it. -/
inductive Covers (V : List (Pt d)) (F : List (List ℕ)) (T : List (AabbNode d)) : ℕ → List ℕ → Prop
  | leaf {q e : ℕ} {n : AabbNode d} (h : T[q]? = some n) (h1 : n.ch1 = -1) (h0 : n.ch0 = -1) (ht : n.tri = e)
      (hb : ElemIn V F n e) : Covers V F T q [e]
  | node {q c0 c1 : ℕ} {n : AabbNode d} {l r : List ℕ} (h : T[q]? = some n) (h0 : n.ch0 = c0) (h1 : n.ch1 = c1)
      (hl : Covers V F T c0 l) (hr : Covers V F T c1 r) (hb : ∀ e ∈ l ++ r, ElemIn V F n e) : Covers V F T q (l ++ r)

/-- The tree under row `0` has exactly the elements of `F` at its leaves. -/
def ValidTree (V : List (Pt d)) (F : List (List ℕ)) (T : List (AabbNode d)) : Prop :=
  ∃ es, Covers V F T 0 es ∧ ∀ e, e ∈ es ↔ e < F.length

/-- the split directions of the inner nodes are coordinate indices -/
def SplitOk (T : List (AabbNode d)) : Prop := ∀ n ∈ T, n.ch1 ≠ -1 → 0 ≤ n.split ∧ n.split < d

/-- every index of every element is a row of `V` -/
def ElemsInRange (F : List (List ℕ)) (n : ℕ) : Prop := ∀ es ∈ F, ∀ i ∈ es, i < n

end Gpy
