import Verif.Model.StochasticPoisson
import Verif.Model.GridEigen

/-!
# The subspace solver of `stochastic_poisson_surface_reconstruction.py`

`solve_subspace_dim > 0`, lines 316-347.  Numbers are exact (the code rounds the projected covariance to `float32`).  `scipy.sparse.linalg.spsolve` is a `LinSolver`.
-/

set_option autoImplicit false
namespace Gpy.Spsr
open Np

noncomputable section
open Classical

variable {d : ℕ}

/-- the variance of the scalar field from the subspace with the columns of `U`, lines 312, 328-347 and 359.  (With one column `spsolve` returns a vector, and the broadcast in line 345 multiplies the sums by the number of nodes;
the one column of `grid_laplacian_eigenfunctions` is constant and the sums are then zero.) -/
def varSubspace (solve : LinSolver ℝ) (sigmaN : ℝ) {m n s : ℕ} (G : Matrix (Fin m) (Fin n) ℝ) (C : Matrix (Fin m) (Fin m) ℝ) (U : Matrix (Fin n) (Fin s) ℝ) : Option (Fin n → ℝ) := do
  let vals : Fin s → ℝ := fun t => ∑ j, (U.transpose * system G) t j * U.transpose t j                   -- line 330
  let B := U.transpose * (G.transpose * C * G) * U                                                        -- line 335
  let D ← solveCols solve (Matrix.diagonal vals) B                                                        -- line 340
  let S ← solveCols solve (Matrix.diagonal vals) D.transpose                                              -- line 343
  let var : Fin n → ℝ := fun j => ∑ t, (U * S) j t * U j t                                                -- line 347
  let lo ← ((List.ofFn var).min?)
  some (fun j => var j - lo + sigmaN * sigmaN + eps)                                                      -- line 359

/-- `grid_laplacian_eigenfunctions` in two and three dimensions, line 323 -/
def modes (argsort : List ℝ → List ℕ) (num : ℕ) : {d : ℕ} → (Fin d → ℕ) → Pt d → Option Mat
  | 2, gs, l => gridEig2 argsort num gs l
  | 3, gs, l => gridEig3 argsort num gs l
  | _, _, _ => none

/-- `stochastic_poisson_surface_reconstruction` with `output_variance=True` and `solve_subspace_dim=num > 0`, lines 128-370: the mean and the variance; `none`: an exception -/
def spsrSubspace (blur : (Fin d → ℕ) → (ℕ → ℝ) → ℕ → ℝ) (bicg : BicgSolver) (solve : LinSolver ℝ) (argsort : List ℝ → List ℕ) (num : ℕ) (prior : Option (Pt d → Pt d)) (sigmaN sigma : ℝ)
    (P N : List (Pt d)) (gs : Option (Fin d → ℕ)) (h corner : Option (Pt d)) : Option (List ℝ × List ℝ) := do
  let (gs, h, corner) ← grid P gs h corner
  let dens ← density blur gs h corner P
  let comps ← (List.finRange d).mapM (component prior sigmaN dens gs h corner P N)
  let v := comps.flatMap (fun c => c.1)                                                                   -- line 277
  let G ← gradient gs h
  let W ← interp P gs h corner
  if v.length = G.nrows then do
    let Gm : Matrix (Fin G.nrows) (Fin (size gs)) ℝ := Matrix.of (fun i j => G.get i j)
    let Wm : Matrix (Fin P.length) (Fin (size gs)) ℝ := Matrix.of (fun i j => W.get i j)
    let mean ← meanField bicg Gm Wm (fun i => v.getD i 0)
    let C : Matrix (Fin G.nrows) (Fin G.nrows) ℝ := Matrix.of (fun i j => sigma * sigma * blockDiag (comps.map (fun c => (c.1.length, c.2))) i j)   -- line 279
    let M ← modes argsort num gs (fun k => gs k * h k)                                                    -- lines 148, 323
    let var ← varSubspace solve sigmaN Gm C (Matrix.of (fun (i : Fin (size gs)) (j : Fin num) => M.get i j))
    some (List.ofFn mean, List.ofFn var)
  else none

end

end Gpy.Spsr
