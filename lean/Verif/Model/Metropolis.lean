import Mathlib.Data.Real.Basic

/-! # `metropolis_hastings.py`.  Random numbers are parameters. -/

set_option autoImplicit false
namespace Gpy

variable {X : Type}

/-- The variables of the loop; `S`, `F` are the rows filled so far (`sample_num - 1` many). -/
structure MH (X : Type) where
  x0 : X
  f0 : ℝ
  S : List X
  F : List ℝ

/-- `r<(f1/f0)`, `metropolis_hastings.py:69`, with the numpy rules for a vanishing denominator (`±inf`, and `nan` for `0/0`). -/
noncomputable def mhAccept (r f1 f0 : ℝ) : Bool := open Classical in if f0 = 0 then decide (0 < f1) else decide (r < f1 / f0)

/-- The body of the loop, `metropolis_hastings.py:61-76`; `prop` and `r` are this call's proposal function and random number. -/
noncomputable def mhStep (p : X → ℝ) (prop : X → X) (r : ℝ) (s : MH X) : MH X :=
  let x1 := prop s.x0
  let f1 := p x1
  if mhAccept r f1 s.f0 then ⟨x1, f1, s.S ++ [x1], s.F ++ [f1]⟩ else s

/-- `while sample_num<(num_samples+1)`, `metropolis_hastings.py:59-77`.  `k` counts the iterations; the first argument bounds their number, `none` if
the loop has not ended by then. -/
noncomputable def mhLoop (p : X → ℝ) (prop : ℕ → X → X) (r : ℕ → ℝ) (num : ℕ) : ℕ → ℕ → MH X → Option (List X × List ℝ)
  | 0, _, s => if s.S.length < num then none else some (s.S, s.F)
  | fuel + 1, k, s => if s.S.length < num then mhLoop p prop r num fuel (k + 1) (mhStep p (prop k) (r k) s) else some (s.S, s.F)

/-- `metropolis_hastings(unnorm_distr,next_sample,x0,num_samples,rng)`, `metropolis_hastings.py:52-77`; `prop k` is the `k`-th call of
`next_sample` and `r k` the `k`-th random number.  Without samples `S[0,:] = x0` raises (`none`).  The first row of `S` is `x0`, that of `F` zero. -/
noncomputable def metropolisHastings (p : X → ℝ) (prop : ℕ → X → X) (x0 : X) (num : ℕ) (r : ℕ → ℝ) (fuel : ℕ) : Option (List X × List ℝ) :=
  if num = 0 then none else mhLoop p prop r num fuel 0 ⟨x0, p x0, [x0], [0]⟩

end Gpy
