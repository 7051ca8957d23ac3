import Verif.Np.Pt
import Verif.Spec.Kernels
import Mathlib.LinearAlgebra.Matrix.Defs

/-! Observations and linear prediction. -/

set_option autoImplicit false
namespace Gpy

/-- the observations at the points `X`: the values, followed (if gradients are used) by the derivatives in the first, second, … coordinate -/
def obs {d : ℕ} (X : List (Pt d)) (g : Bool) : List (Pt d × Option (Fin d)) :=
  if g then (none :: (List.finRange d).map some).flatMap (fun a => X.map (fun x => (x, a))) else X.map (fun x => (x, none))

/-- the observed values, in the order of `obs`: the values, then the first entries of the gradients, … -/
def obsVals {d : ℕ} (y : List ℝ) : Option (List (Pt d)) → List ℝ
  | none => y
  | some g => y ++ (List.finRange d).flatMap (fun a => g.map (fun r => r a))

/-- the covariance of two observations, according to a kernel with derivative flags -/
def obsKer {d : ℕ} (ker : Option (Fin d) → Option (Fin d) → Pt d → Pt d → ℝ) (p q : Pt d × Option (Fin d)) : ℝ := ker p.2 q.2 p.1 q.1

/-- The mean squared error of predicting the combination `Σ c_t·(test observation t)` by `Σ w_i·(noisy training observation i)`, when `k` is the covariance of the observations and every training
observation carries independent noise of variance `s2`. -/
def predError {α : Type} (k : α → α → ℝ) (s2 : ℝ) (train test : List α) (c : Fin test.length → ℝ) (w : Fin train.length → ℝ) : ℝ :=
  (∑ t, ∑ u, c t * c u * k test[t] test[u]) - 2 * (∑ i, ∑ t, w i * c t * k train[i] test[t]) + (∑ i, ∑ j, w i * w j * k train[i] train[j]) + s2 * ∑ i, w i ^ 2

/-- the kernel is a covariance function of the observations in use: of values and derivatives if gradients are given, otherwise of values -/
def CovFor {d : ℕ} (ker : Option (Fin d) → Option (Fin d) → Pt d → Pt d → ℝ) (g : Bool) : Prop :=
  if g then PsdKernel (obsKer ker) else PsdKernel (ker none none)

/-- entry of a list of rows -/
def rowEntry (A : List (List ℝ)) (i j : ℕ) : ℝ := (A.getD i []).getD j 0

end Gpy
