import Verif.Spec.MinL1
import Verif.Model.MinL1Mosek

/-! C97: the contract of MOSEK. -/

set_option autoImplicit false
namespace Gpy
open Finset

noncomputable section

def MoBound.Holds : MoBound → ℝ → Prop
  | .free, _ => True
  | .lo v, t => v ≤ t
  | .up v, t => t ≤ v
  | .fx v, t => t = v

/-- the value of an affine expression -/
def MoRow.eval (r : MoRow) (n m : ℕ) (x : ℕ → ℝ) : ℝ := ∑ j ∈ range n, r.u j * x j + ∑ i ∈ range m, r.z i * x (n + i) + r.w * x (n + m) + r.g

/-- the quadratic cone: the first entry is at least the norm of the others -/
def InQuad : List ℝ → Prop
  | [] => False
  | t :: s => Real.sqrt ((s.map (fun t => t ^ 2)).sum) ≤ t

/-- the rotated quadratic cone: twice the product of the first two entries, which are not negative, is at least the sum of the squares of the others -/
def InRQuad : List ℝ → Prop
  | t1 :: t2 :: s => 0 ≤ t1 ∧ 0 ≤ t2 ∧ (s.map (fun t => t ^ 2)).sum ≤ 2 * t1 * t2
  | _ => False

def MosekTask.Feasible (T : MosekTask) (x : ℕ → ℝ) : Prop :=
  (∀ j < T.vars, (T.bound j).Holds (x j)) ∧ (∀ p ∈ T.con, p.2.Holds (p.1.eval T.n T.m x)) ∧
  (∀ I ∈ T.quad, InQuad (I.map (fun i => (T.F i).eval T.n T.m x))) ∧ ∀ I ∈ T.rquad, InRQuad (I.map (fun i => (T.F i).eval T.n T.m x))

def MosekTask.obj (T : MosekTask) (x : ℕ → ℝ) : ℝ := ∑ j ∈ range T.vars, T.c j * x j

def MosekTask.Optimal (T : MosekTask) (x : ℕ → ℝ) : Prop := T.Feasible x ∧ ∀ x', T.Feasible x' → T.obj x ≤ T.obj x'

/-- exact arithmetic: what is reported as optimal is optimal, an optimum is found if there is one, and the factorisation of a matrix, if there is one, is one: `|Lt u|² = uᵀQu` for symmetric `Q` -/
structure IsMosek (lib : MosekLib) : Prop where
  sound : ∀ T x, lib.opt T = some x → T.Optimal x
  complete : ∀ T x, T.Optimal x → ∃ x', lib.opt T = some x'
  chol : ∀ Q Lt, lib.chol Q = some Lt → (∀ i j, Q.get i j = Q.get j i) → Lt.ncols = Q.ncols ∧
    ∀ u : ℕ → ℝ, ∑ t ∈ range Lt.nrows, (∑ i ∈ range Q.ncols, Lt.get t i * u i) ^ 2 = ∑ i ∈ range Q.ncols, ∑ j ∈ range Q.ncols, u i * Q.get i j * u j

end
end Gpy
