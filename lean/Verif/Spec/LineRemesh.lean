import Verif.Model.LineRemesh
import Mathlib.Logic.Relation

/-!
# Curves: what remeshing should keep
-/

set_option autoImplicit false
namespace Gpy.LineRemesh

/-- a curve starts (ends) in `v` -/
def Starts (F : List (ℕ × ℕ)) (v : ℕ) : Prop := (∃ w, (v, w) ∈ F) ∧ ¬ ∃ u, (u, v) ∈ F
def Ends (F : List (ℕ × ℕ)) (v : ℕ) : Prop := (∃ u, (u, v) ∈ F) ∧ ¬ ∃ w, (v, w) ∈ F

/-- `v` is a vertex of an edge -/
def Used (F : List (ℕ × ℕ)) (v : ℕ) : Prop := (∃ w, (v, w) ∈ F) ∨ ∃ u, (u, v) ∈ F

/-- `v` is reached from `u` along the edges -/
def Reaches (F : List (ℕ × ℕ)) : ℕ → ℕ → Prop := Relation.ReflTransGen (fun u v => (u, v) ∈ F)

/-- open and closed curves, without branching: at most one edge starts, and at most one ends, in each vertex; all vertex numbers are below `n` -/
structure IsCurve (n : ℕ) (F : List (ℕ × ℕ)) : Prop where
  out : ∀ (i j u v w : ℕ), F[i]? = some (u, v) → F[j]? = some (u, w) → i = j
  into : ∀ (i j u v w : ℕ), F[i]? = some (v, u) → F[j]? = some (w, u) → i = j
  below : ∀ e ∈ F, e.1 < n ∧ e.2 < n

/-- `p` is on the curve -/
def OnCurve (V : List (Pt 2)) (F : List (ℕ × ℕ)) (p : Pt 2) : Prop := ∃ e ∈ F, ∃ t : ℝ, 0 ≤ t ∧ t ≤ 1 ∧ p = fun j => (1 - t) * pos V e.1 j + t * pos V e.2 j

/-- vertices `f` of one curve and the corresponding vertices `f'` of another: same places, same ends, same connections -/
structure Kept (V : List (Pt 2)) (F : List (ℕ × ℕ)) (f : List Int) (V' : List (Pt 2)) (F' : List (ℕ × ℕ)) (f' : List Int) : Prop where
  len : f'.length = f.length
  same : ∀ (i u : ℕ), f[i]? = some (u : Int) → ∃ u' : ℕ, f'[i]? = some (u' : Int) ∧ u' < V'.length ∧ pos V' u' = pos V u ∧ (Starts F' u' ↔ Starts F u) ∧ (Ends F' u' ↔ Ends F u) ∧
    ∀ (j v : ℕ), f[j]? = some (v : Int) → ∃ v' : ℕ, f'[j]? = some (v' : Int) ∧ (Reaches F' u' v' ↔ Reaches F u v)

/-- `order` sorts: `np.argsort` -/
def Sorts (order : List ℝ → List ℕ) : Prop := ∀ l, (order l).Perm (List.range l.length) ∧ (order l).Pairwise (fun i j => l.getD i 0 ≤ l.getD j 0)

/-- `proj` gives a closest point of the curve -/
def Closest (proj : List (Pt 2) → List (ℕ × ℕ) → Pt 2 → Foot) : Prop :=
  ∀ V F p, F ≠ [] → (proj V F p).I < F.length ∧ 0 ≤ (proj V F p).b0 ∧ 0 ≤ (proj V F p).b1 ∧ (proj V F p).b0 + (proj V F p).b1 = 1 ∧
    ∀ q, OnCurve V F q → pnorm (footPoint V F (proj V F p) - p) ≤ pnorm (q - p)

end Gpy.LineRemesh
