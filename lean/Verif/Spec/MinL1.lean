import Verif.Model.MinL1
import Mathlib.Analysis.SpecialFunctions.Pow.Real

/-! C97: the problem `min_l1_with_fixed` documents, and the contract of the cone solver. -/

set_option autoImplicit false
namespace Gpy
open Finset

noncomputable section

/-! ### the documented problem -/

/-- `G u`; without `G` the identity -/
def gTimes (a : L1Args) (n : ℕ) (u : ℕ → ℝ) (r : ℕ) : ℝ :=
  match a.G with
  | some G => ∑ l ∈ range n, G.get r l * u l
  | none => u r

/-- number of rows of `G` -/
def gRows (a : L1Args) (n : ℕ) : ℕ :=
  match a.G with
  | some G => G.nrows
  | none => n

/-- `1/2 uᵀQu`; with a factor `L` it is `1/2 |Lᵀu|²` -/
def l1Quad (a : L1Args) (n : ℕ) (u : ℕ → ℝ) : ℝ :=
  match a.Q, a.L with
  | some Q, _ => 1 / 2 * ∑ i ∈ range n, ∑ j ∈ range n, u i * Q.get i j * u j
  | none, some L => 1 / 2 * ∑ t ∈ range L.ncols, (∑ i ∈ range n, L.get i t * u i) ^ 2
  | none, none => 0

/-- `cᵀu` -/
def l1Lin (a : L1Args) (n : ℕ) (u : ℕ → ℝ) : ℝ :=
  match a.c with
  | some c => ∑ i ∈ range n, c.getD i 0 * u i
  | none => 0

/-- `|Gu|_{d,1} + 1/2 uᵀQu + cᵀu`: the norm of every `d` adjacent entries of `Gu`, summed -/
def l1Energy (a : L1Args) (n : ℕ) (u : ℕ → ℝ) : ℝ :=
  ∑ i ∈ range (gRows a n / a.d), Real.sqrt (∑ j ∈ range a.d, gTimes a n u (a.d * i + j) ^ 2) + l1Quad a n u + l1Lin a n u

/-- `u[k] = y` and `A u = b` -/
def l1Feasible (a : L1Args) (n : ℕ) (u : ℕ → ℝ) : Prop :=
  (∀ k y, a.k = some k → a.y = some y → ∀ (i j : ℕ) (v : ℝ), k[i]? = some j → y[i]? = some v → u j = v) ∧
  (∀ A b, a.A = some A → a.b = some b → ∀ (r : ℕ) (v : ℝ), b[r]? = some v → ∑ l ∈ range n, A.get r l * u l = v)

/-- arguments of fitting sizes for `n` unknowns -/
structure L1Args.Ok (a : L1Args) (n : ℕ) : Prop where
  infer : inferN a = some n
  d : 1 ≤ a.d
  G : ∀ G, a.G = some G → G.ncols = n
  mult : a.d ∣ gRows a n
  Q : ∀ Q, a.Q = some Q → a.L = none ∧ Q.nrows = n ∧ Q.ncols = n
  L : ∀ L, a.L = some L → L.nrows = n
  c : ∀ c, a.c = some c → c.length = n
  ky : (a.k = none ∧ a.y = none) ∨ ∃ k y, a.k = some k ∧ a.y = some y ∧ k.length = y.length ∧ ∀ i ∈ k, i < n
  Ab : (a.A = none ∧ a.b = none) ∨ ∃ A b, a.A = some A ∧ a.b = some b ∧ A.ncols = n ∧ A.nrows = b.length

/-! ### the cone solver -/

/-- `Ax` in one row -/
def ScsRow.dot (r : ScsRow) (n m : ℕ) (x : ℕ → ℝ) : ℝ := ∑ j ∈ range n, r.u j * x j + ∑ i ∈ range m, r.z i * x (n + i)

/-- second order cones one after the other: the first entry of each is at least the norm of the others -/
def InSocs : List ℕ → List ℝ → Prop
  | [], _ => True
  | w :: q, s => Real.sqrt (((s.take w).tail.map (fun t => t ^ 2)).sum) ≤ s.headD 0 ∧ InSocs q (s.drop w)

/-- the product of cones -/
def InCones (z l : ℕ) (q : List ℕ) (s : List ℝ) : Prop :=
  (∀ t ∈ s.take z, t = 0) ∧ (∀ t ∈ (s.drop z).take l, 0 ≤ t) ∧ InSocs q (s.drop (z + l))

/-- `b - Ax` is in the cones -/
def ScsData.Feasible (D : ScsData) (x : ℕ → ℝ) : Prop :=
  InCones D.zlen D.llen D.q (List.zipWith (fun r b => b - r.dot D.n D.m x) D.A D.b)

/-- `1/2 xᵀPx + cᵀx` -/
def ScsData.obj (D : ScsData) (x : ℕ → ℝ) : ℝ :=
  1 / 2 * ∑ i ∈ range (D.n + D.m), ∑ j ∈ range (D.n + D.m), x i * D.P i j * x j + ∑ j ∈ range (D.n + D.m), D.c.getD j 0 * x j

def ScsData.Optimal (D : ScsData) (x : ℕ → ℝ) : Prop := D.Feasible x ∧ ∀ x', D.Feasible x' → D.obj x ≤ D.obj x'

/-- exact arithmetic: what the solver reports as a solution is optimal, and it reports one if there is one -/
structure IsScs (scs : ScsData → Option (ℕ → ℝ)) : Prop where
  sound : ∀ D x, scs D = some x → D.Optimal x
  complete : ∀ D x, D.Optimal x → ∃ x', scs D = some x'

end
end Gpy
