import Verif.Np.Pt
import Verif.Model.MinQuad
import Mathlib.LinearAlgebra.Matrix.NonsingularInverse
import Mathlib.Data.Matrix.Mul
import Mathlib.Data.Sign.Basic

/-!
# `reach_for_the_spheres.py:601-664`: one step of the flow

Exact arithmetic.  `n` vertices, `nf` simplices with `d` corners in dimension `d`, `m` samples.  Parameters: the simplex `I k` closest to sample `k` and the barycentric
coordinates `b k` of the closest point (`squared_distance`, `:601`), the normals of the simplices and, in space, the masses.  In the sparse matrix entries with the same place are added.
-/

set_option autoImplicit false
namespace Gpy.Spheres
open Classical

noncomputable section

variable {d n nf m : ℕ}

/-- a mesh and the result of the closest point query -/
structure Hit (d n nf m : ℕ) where
  V : Fin n → Pt d
  F : Fin nf → Fin d → Fin n
  I : Fin m → Fin nf
  b : Fin m → Fin d → ℝ

/-- the samples of the batch -/
structure Smp (d m : ℕ) where
  U : Fin m → Pt d
  S : Fin m → ℝ

/-- `pe`, `:607` -/
def Hit.pe (q : Hit d n nf m) (k : Fin m) : Pt d := fun j => ∑ c, q.V (q.F (q.I k) c) j * q.b k c

/-- `d`, the square root of what `squared_distance` returns, `:601-603` -/
def Hit.dist (q : Hit d n nf m) (u : Smp d m) (k : Fin m) : ℝ := pnorm (q.pe k - u.U k)

/-- `g`, `:604` -/
def Hit.g (q : Hit d n nf m) (u : Smp d m) (k : Fin m) : ℝ := |u.S k| - q.dist u k

/-- `np.sign` -/
def npSign (x : ℝ) : ℝ := if x < 0 then -1 else if 0 < x then 1 else 0

/-- `s`, `:609-614`; `N` are the normals -/
def Hit.s (q : Hit d n nf m) (u : Smp d m) (N : Fin nf → Pt d) (inout : Bool) (k : Fin m) : ℝ :=
  if inout then (if ∃ c, q.b k c < 1 / 1000 then npSign (u.S k) else -npSign (∑ j, (q.pe k j - u.U k j) * N (q.I k) j)) else npSign (u.S k)

/-- `_normals(V,F)` of a curve, `:799-804` -/
def lineNormal (V : Fin n → Pt 2) (F : Fin nf → Fin 2 → Fin n) (f : Fin nf) : Pt 2 :=
  fun j => if j = 0 then V (F f 1) 1 - V (F f 0) 1 else -(V (F f 1) 0 - V (F f 0) 0)

/-- `ps`, `:616` -/
def Hit.ps (q : Hit d n nf m) (u : Smp d m) (tol : ℝ) (s : Fin m → ℝ) (k : Fin m) : Pt d :=
  fun j => u.U k j + (q.pe k j - u.U k j) * (s k * u.S k / max (1 / 2 * tol) (q.dist u k))

/-- `F_invalid`, `:617-619` -/
def Hit.invalidF (q : Hit d n nf m) (u : Smp d m) (tol : ℝ) : Finset (Fin nf) := (Finset.univ.filter (fun k => ¬ |q.g u k| < tol)).image q.I

/-- `wu`, `:628-632`; `clamp = none`: infinite -/
def Hit.wu (q : Hit d n nf m) (u : Smp d m) (clamp : Option ℝ) (pseudo : Bool) (k : Fin m) : ℝ :=
  if pseudo then (if 0 < u.S k ∧ q.g u k < 0 then 0 else 1) else (if clamp = some |u.S k| ∧ q.g u k < 0 then 0 else 1)

/-- `A`, `:633-637` -/
def Hit.A (q : Hit d n nf m) (w : Fin m → ℝ) : Matrix (Fin m) (Fin n) ℝ := fun k v => ∑ c, if q.F (q.I k) c = v then w k * q.b k c else 0

/-- `M` for curves, `:815-820` -/
def lineMass (V : Fin n → Pt 2) (F : Fin nf → Fin 2 → Fin n) (v : Fin n) : ℝ :=
  ∑ f, ∑ c : Fin 2, if F f c = v then max (pnorm (V (F f 1) - V (F f 0))) (Real.sqrt (100 * (1 / 4503599627370496))) / 2 else 0

/-- `t`, `:644-654`; `C` is `c`, `A*V-c` is computed row by row.  A division by zero gives zero, through `nan_to_num`. -/
def stepSize (A : Matrix (Fin m) (Fin n) ℝ) (V : Fin n → Pt d) (C : Fin m → Pt d) (linesearch : Bool) (minT maxT dt : ℝ) : ℝ :=
  if linesearch then
    let ρ : ℝ := 1 / m
    let r : Fin m → Pt d := fun k j => (∑ v, A k v * V v j) - C k j
    let np : Fin n → Pt d := fun v j => -∑ k, A k v * (ρ * r k j)
    let Anp : Fin m → Pt d := fun k j => ∑ v, A k v * np v j
    let num := -((∑ k, ∑ j, r k j * (ρ * Anp k j)) + 1 / 100 * ∑ v, ∑ j, np v j ^ 2)
    let den := ∑ k, ∑ j, Anp k j * (ρ * Anp k j)
    min maxT (max (if den = 0 then 0 else num / den) minT)
  else dt

/-- `Q`, `:640-641` and `:657` -/
def flowQ (M : Fin n → ℝ) (A : Matrix (Fin m) (Fin n) ℝ) (t : ℝ) : Matrix (Fin n) (Fin n) ℝ :=
  Matrix.diagonal M + t • (A.transpose * Matrix.diagonal (fun _ => (1 : ℝ) / m) * A)

/-- `b`, `:658`, column `j` -/
def flowRhs (M : Fin n → ℝ) (A : Matrix (Fin m) (Fin n) ℝ) (t : ℝ) (V : Fin n → Pt d) (C : Fin m → Pt d) (j : Fin d) : Fin n → ℝ :=
  fun v => M v * V v j + t * ∑ k, A k v * (1 / m * C k j)

/-- the arguments of the iteration that matter here -/
structure FlowArgs where
  tol : ℝ
  linesearch : Bool
  minT : ℝ
  maxT : ℝ
  dt : ℝ
  inout : Bool
  clamp : Option ℝ
  pseudo : Bool

/-- the targets `c`, `:638` -/
def Hit.C (q : Hit d n nf m) (u : Smp d m) (N : Fin nf → Pt d) (a : FlowArgs) (k : Fin m) : Pt d :=
  fun j => q.wu u a.clamp a.pseudo k * q.ps u a.tol (q.s u N a.inout) k j

/-- the matrix, step size and system of the step -/
def Hit.matA (q : Hit d n nf m) (u : Smp d m) (a : FlowArgs) : Matrix (Fin m) (Fin n) ℝ := q.A (q.wu u a.clamp a.pseudo)
def Hit.t (q : Hit d n nf m) (u : Smp d m) (N : Fin nf → Pt d) (a : FlowArgs) : ℝ := stepSize (q.matA u a) q.V (q.C u N a) a.linesearch a.minT a.maxT a.dt

/-- the new vertices without fixed boundary, `:664`; `none`: the matrix is singular, the result is not-a-number -/
def flow (q : Hit d n nf m) (u : Smp d m) (N : Fin nf → Pt d) (M : Fin n → ℝ) (a : FlowArgs) : Option (Fin n → Pt d) :=
  let Q := flowQ M (q.matA u a) (q.t u N a)
  if IsUnit Q then some (fun v j => (Q⁻¹).mulVec (flowRhs M (q.matA u a) (q.t u N a) q.V (q.C u N a) j) v) else none

/-- the new vertices with fixed boundary vertices `bd`, `:659-662`: the columns of the solution -/
def flowFixed (solve : LinSolver ℝ) (garbage : ℕ → ℝ) (q : Hit d n nf m) (u : Smp d m) (N : Fin nf → Pt d) (M : Fin n → ℝ) (a : FlowArgs) (bd : List (Fin n)) : Option (List (Fin n → ℝ)) :=
  fixedDofSolve solve garbage (flowQ M (q.matA u a) (q.t u N a))
    (.mat d ((List.finRange n).map (fun v => (List.finRange d).map (fun j => flowRhs M (q.matA u a) (q.t u N a) q.V (q.C u N a) j v))))
    (some (bd.map (fun v : Fin n => ((v : ℕ) : ℤ)))) (.mat d (bd.map (fun v => (List.finRange d).map (q.V v))))

end

end Gpy.Spheres
