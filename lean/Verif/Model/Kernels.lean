import Verif.Np.Pt
import Mathlib.Analysis.SpecialFunctions.Exp

/-! `squared_exponential_kernel.py`, `compactly_supported_normal_kernel.py`: kernels, one pair of rows at a time.

Both functions work on arrays of rows and treat every row on its own; `length` is the entry of the (broadcast) array of lengths that belongs to the row.  An entry of `derivatives` is a coordinate or
`none` (`-1`). -/

set_option autoImplicit false
namespace Gpy

/-- an entry of `derivatives` as an integer -/
def derivIdx {d : ℕ} : Option (Fin d) → ℤ
  | none => -1
  | some i => i.val

noncomputable section

/-- `squared_exponential_kernel.py:41-60`: without derivatives -/
def sqExpValue {d : ℕ} (length scale : ℝ) (x y : Pt d) : ℝ :=
  scale * Real.exp (-0.5 * (∑ k, (x k - y k) * (x k - y k)) / length ^ 2)

/-- `squared_exponential_kernel.py:41-69`.  In the second and third case `ind` is the coordinate that is given. -/
def sqExp {d : ℕ} (length scale : ℝ) (indi indj : Option (Fin d)) (x y : Pt d) : ℝ :=
  let gamma := 1 / length ^ 2                                                   -- line 56
  let sgn : ℝ := ((derivIdx indi - derivIdx indj).sign : ℤ)                     -- line 65
  match indi, indj with
  | none, none => sqExpValue length scale x y
  | some ind, none => -sgn * gamma * (x ind - y ind) * sqExpValue length scale x y      -- lines 62-66
  | none, some ind => -sgn * gamma * (x ind - y ind) * sqExpValue length scale x y
  | some i, some j => ((if i = j then 1 else 0) * gamma - gamma * gamma * (x i - y i) * (x j - y j)) * sqExpValue length scale x y  -- line 69

/-- a condition as a number -/
def cond01 (p : Prop) [Decidable p] : ℝ := if p then 1 else 0

/-- `compactly_supported_normal_kernel.py:66` -/
def signGe (x : ℝ) : ℝ := cond01 (x ≥ 0) * 1 + cond01 (x < 0) * -1

/-- `compactly_supported_normal_kernel.py:69` -/
def cubicB (x : ℝ) : ℝ :=
  cond01 (|x| < 1) * (3 * |x| ^ 3 - 6 * |x| ^ 2 + 4) * (1 / 6) + cond01 (|x| ≤ 2) * cond01 (|x| ≥ 1) * (-(|x| ^ 3) + 6 * |x| ^ 2 - 12 * |x| + 8) * (1 / 6)

/-- `compactly_supported_normal_kernel.py:72` -/
def cubicB1 (x : ℝ) : ℝ :=
  cond01 (|x| < 1) * (9 * signGe x * |x| ^ 2 - 12 * x) * (1 / 6) + cond01 (|x| ≤ 2) * cond01 (|x| ≥ 1) * (-3 * signGe x * x ^ 2 + 12 * x - 12 * signGe x) * (1 / 6)

/-- `compactly_supported_normal_kernel.py:80` -/
def cubicB2 (x : ℝ) : ℝ :=
  cond01 (|x| < 1) * (3 * 3 * 2 * |x| - 12) * (1 / 6) + cond01 (|x| ≤ 2) * cond01 (|x| ≥ 1) * (-3 * 2 * |x| + 12) * (1 / 6)

/-- `compactly_supported_normal_kernel.py:67-81`: the factor of coordinate `k` -/
def csnFactor {d : ℕ} (indi indj : Option (Fin d)) (k : Fin d) (x : ℝ) : ℝ :=
  if indi ≠ some k ∧ indj ≠ some k then cubicB x
  else if indi = some k ∧ indj ≠ some k then cubicB1 x
  else if indi ≠ some k ∧ indj = some k then -cubicB1 x
  else -cubicB2 x

/-- `compactly_supported_normal_kernel.py:39-94` -/
def csnKernel {d : ℕ} (length scale : ℝ) (indi indj : Option (Fin d)) (x y : Pt d) : ℝ :=
  let val := (∏ k, csnFactor indi indj k ((x k - y k) / length)) / length ^ d * scale   -- lines 55, 64-86
  match indi, indj with
  | none, none => val
  | some _, none => val / length
  | none, some _ => val / length
  | some _, some _ => val / length ^ 2

end
end Gpy
