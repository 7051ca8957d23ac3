import Mathlib.Data.Matrix.Block
import Mathlib.LinearAlgebra.Matrix.Notation
import Mathlib.Algebra.Order.Field.Basic

/-! # `min_quad_with_fixed.py`, `fixed_dof_solve.py`

Matrices are functions of their indices; a numpy array of shape `(l,)` is a list, one of shape `(l,p)` a list of rows.  Sparse
matrices are assumed to be of the `*_matrix` classes (`*` is the matrix product).  The factorisations (`sksparse` Cholesky,
`scipy` `splu`) are a parameter. -/

set_option autoImplicit false
namespace Gpy

variable {K : Type} [Field K]

/-- An optional argument of `solve`: `None`, a number, an array of shape `(l,)` or an array of shape `(l,p)` (list of rows). -/
inductive QArg (K : Type) where
  | none
  | scalar (x : K)
  | vec (l : List K)
  | mat (p : ℕ) (rows : List (List K))

/-- `cp`, `min_quad_with_fixed.py:314-319`, `fixed_dof_solve.py:214-219`. -/
def QArg.cp : QArg K → ℕ
  | .none => 0
  | .scalar _ => 0
  | .vec _ => 0
  | .mat p _ => p

/-- The shape assertions, `min_quad_with_fixed.py:322-324`, `fixed_dof_solve.py:222-223`; `sc`: a number is admissible. -/
def QArg.shapeOk (x : QArg K) (len p : ℕ) (sc : Bool) : Bool :=
  match x with
  | .none => true
  | .scalar _ => sc
  | .vec l => p == 0 && l.length == len
  | .mat p' rows => decide (0 < p) && (rows.length == len && p' == p)

/-- The entry in row `i`, column `q` of the array after `None` and numbers have been expanded,
    `min_quad_with_fixed.py:327-347`, `fixed_dof_solve.py:226-239`. -/
def QArg.entry (x : QArg K) (i q : ℕ) : K :=
  match x with
  | .none => 0
  | .scalar v => v
  | .vec l => l.getD i 0
  | .mat _ rows => (rows.getD i []).getD q 0

/-- A linear solver: factor a square matrix and solve for one right hand side; `none`: it raises (e.g. exactly singular). -/
abbrev LinSolver (K : Type) := ∀ (ι : Type) [Fintype ι], Matrix ι ι K → (ι → K) → Option (ι → K)

/-- `u[idx] = v`: sequential assignment -/
def scatter {n : ℕ} (idx : List (Fin n)) (v : Fin idx.length → K) (u0 : Fin n → K) : Fin n → K :=
  (List.finRange idx.length).foldl (fun u j => Function.update u (idx.get j) (v j)) u0

/-- `np.setdiff1d(np.arange(0,n),k)`, `min_quad_with_fixed.py:206` -/
def complementIdx {n : ℕ} (k : List (Fin n)) : List (Fin n) := (List.finRange n).filter (fun i => decide (i ∉ k))

/-- The checks of the index array `k`, `min_quad_with_fixed.py:180-188`, `fixed_dof_solve.py:131-139`: `None` is no index; an
    empty array raises in `np.min`; entries must be in range and distinct. -/
def checkIdx (n : ℕ) : Option (List ℤ) → Option (List (Fin n))
  | .none => some []
  | .some [] => none
  | .some ks => do
    let k ← ks.mapM (fun (z : ℤ) => if h : 0 ≤ z ∧ z < (n : ℤ) then some (⟨z.toNat, by omega⟩ : Fin n) else none)
    if k.Nodup then some k else none

/-- One column of `min_quad_with_fixed_precompute.__init__` and `.solve`, `min_quad_with_fixed.py:200-241, 350-382`: `Q` is already
    symmetrised, `k` checked.  `garbage` is the content of `np.empty`. -/
def qpColumn (solve : LinSolver K) (garbage : ℕ → K) {n m : ℕ} (Q : Matrix (Fin n) (Fin n) K) (A : Matrix (Fin m) (Fin n) K)
    (k : List (Fin n)) (c : Fin n → K) (b : Fin m → K) (y : Fin k.length → K) : Option (Fin n → K) :=
  if k = [] then
    if m = 0 then solve (Fin n) Q (fun i => -c i)
    else (solve (Fin n ⊕ Fin m) (Matrix.fromBlocks Q A.transpose A 0) (Sum.elim (fun i => -c i) b)).map (fun u i => u (Sum.inl i))
  else
    let ki := complementIdx k
    if ki.length ≠ n - k.length then none
    else
      let Qred : Matrix (Fin ki.length) (Fin ki.length) K := Q.submatrix ki.get ki.get
      let Qextra : Matrix (Fin ki.length) (Fin k.length) K := Q.submatrix ki.get k.get
      let cmod := fun i => c (ki.get i) + Qextra.mulVec y i
      if m = 0 then do
        let ured ← solve (Fin ki.length) Qred (fun i => -cmod i)
        some (scatter k y (scatter ki ured (fun i => garbage i)))
      else
        let Amod : Matrix (Fin m) (Fin ki.length) K := A.submatrix id ki.get
        let Aextra : Matrix (Fin m) (Fin k.length) K := A.submatrix id k.get
        let bmod := fun i => b i - Aextra.mulVec y i
        do
          let ured ← solve (Fin ki.length ⊕ Fin m) (Matrix.fromBlocks Qred Amod.transpose Amod 0) (Sum.elim (fun i => -cmod i) bmod)
          some (scatter k y (scatter ki (fun i => ured (Sum.inl i)) (fun i => garbage i)))

open Classical in
/-- The symmetrisation, `min_quad_with_fixed.py:192-193`. -/
noncomputable def symmetrize {n : ℕ} (Q : Matrix (Fin n) (Fin n) K) : Matrix (Fin n) (Fin n) K :=
  if Q ≠ Q.transpose then (1 / 2 : K) • (Q + Q.transpose) else Q

/-- `min_quad_with_fixed(Q,c,A,b,k,y)`, `min_quad_with_fixed.py:87`, `:167-241`, `:314-382`.  `A=None` is the matrix with no rows.
    The result is the list of columns (one column when all arguments are one-dimensional). -/
noncomputable def minQuadWithFixed (solve : LinSolver K) (garbage : ℕ → K) {n m : ℕ} (Q : Matrix (Fin n) (Fin n) K) (c : QArg K)
    (A : Matrix (Fin m) (Fin n) K) (b : QArg K) (k : Option (List ℤ)) (y : QArg K) : Option (List (Fin n → K)) :=
  if n = 0 then none
  else do
    let k ← checkIdx n k
    let Q := symmetrize Q
    let p := max (max c.cp b.cp) y.cp
    if c.shapeOk n p true && b.shapeOk m p (decide (0 < m)) && y.shapeOk k.length p (decide (0 < k.length)) then
      (List.range (max p 1)).mapM (fun q =>
        qpColumn solve garbage Q A k (fun i => c.entry i q) (fun i => b.entry i q) (fun i => y.entry i q))
    else none

/-- One column of `fixed_dof_solve_precompute`, `fixed_dof_solve.py:142-155, 242-261`. -/
def dofColumn (solve : LinSolver K) (garbage : ℕ → K) {n : ℕ} (A : Matrix (Fin n) (Fin n) K)
    (k : List (Fin n)) (b : Fin n → K) (y : Fin k.length → K) : Option (Fin n → K) :=
  if k = [] then solve (Fin n) A b
  else
    let ki := complementIdx k
    if ki.length ≠ n - k.length then none
    else
      let Ared : Matrix (Fin ki.length) (Fin ki.length) K := A.submatrix ki.get ki.get
      let Aextra : Matrix (Fin ki.length) (Fin k.length) K := A.submatrix ki.get k.get
      do
        let ured ← solve (Fin ki.length) Ared (fun i => b (ki.get i) - Aextra.mulVec y i)
        some (scatter k y (scatter ki ured (fun i => garbage i)))

/-- `fixed_dof_solve(A,b,k,y)`, `fixed_dof_solve.py:64`, `:126-155`, `:214-261`. -/
def fixedDofSolve (solve : LinSolver K) (garbage : ℕ → K) {n : ℕ} (A : Matrix (Fin n) (Fin n) K) (b : QArg K) (k : Option (List ℤ))
    (y : QArg K) : Option (List (Fin n → K)) :=
  if n = 0 then none
  else do
    let k ← checkIdx n k
    let p := max b.cp y.cp
    if b.shapeOk n p true && y.shapeOk k.length p (decide (0 < k.length)) then
      (List.range (max p 1)).mapM (fun q =>
        dofColumn solve garbage A k (fun i => b.entry i q) (fun i => y.entry i q))
    else none

end Gpy
