import Verif.Model.UpperEnvelope
import Mathlib.Algebra.BigOperators.Fin

/-!
# What `upper_envelope` should return
-/

set_option autoImplicit false
namespace Gpy

variable {m : ℕ}

/-- Barycentric coordinates of a point of a tetrahedron. -/
def Bary (w : Fin 4 → ℝ) : Prop := (∀ i, 0 ≤ w i) ∧ ∑ i, w i = 1

/-- The `i`-th corner of a tetrahedron. -/
def UTet.at (t : UTet) : Fin 4 → ℕ := ![t.a, t.b, t.c, t.d]

/-- `Σ w_i x_i` -/
def bary {n : ℕ} (w : Fin 4 → ℝ) (x : Fin 4 → Pt n) : Pt n := fun k => ∑ i, w i * x i k

/-- The vertices with their labels: `p` is a point of the tetrahedron `t0` of the input mesh and `l` are the labels interpolated there. -/
def PointOf (V : List (UVert m)) (t0 : UTet) (p : Pt 3) (l : Pt m) : Prop :=
  ∃ (w : Fin 4 → ℝ) (y : Fin 4 → UVert m), Bary w ∧ (∀ i, V[t0.at i]? = some (y i)) ∧ p = bary w (fun i => (y i).1) ∧ l = bary w (fun i => (y i).2)

/-- The material `mid` wins with labels `l`, up to the code's threshold. -/
def Wins (mid : Fin m) (l : Pt m) : Prop := ∀ j, l j ≤ l mid + 1 / 10 ^ 5

/-- The volume enclosed by a list of tets over vertices `U`, each counted with its absolute value. -/
noncomputable def totalVol (U : List (Pt 3)) (G : List UTet) : ℝ :=
  (G.map (fun t => |vol6 (U.getD t.a (fun _ => 0)) (U.getD t.b (fun _ => 0)) (U.getD t.c (fun _ => 0)) (U.getD t.d (fun _ => 0))| / 6)).sum

/-- The signed volume of one tet. -/
noncomputable def signedVol (U : List (Pt 3)) (t : UTet) : ℝ :=
  vol6 (U.getD t.a (fun _ => 0)) (U.getD t.b (fun _ => 0)) (U.getD t.c (fun _ => 0)) (U.getD t.d (fun _ => 0)) / 6

end Gpy
