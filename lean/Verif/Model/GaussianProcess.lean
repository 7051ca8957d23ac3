import Verif.Np.Sparse
import Verif.Model.MinQuad
import Verif.Model.Kernels
import Mathlib.LinearAlgebra.Matrix.Defs
import Mathlib.Data.Matrix.Mul

/-! `matrix_from_function.py`, `gaussian_process.py`.

Matrices that the code keeps in `scipy.sparse` form are `Csr`; their entries are used as `Matrix`.  Numbers are exact.  `scipy.sparse.linalg.splu` is a `LinSolver`, `scipy.sparse.linalg.cg` a
parameter, `scipy.spatial.KDTree.query_ball_point` a parameter.  `verbose` only prints and is left out. -/

set_option autoImplicit false
namespace Gpy
open Np

noncomputable section

/-- `M.eliminate_zeros()` on a matrix in compressed form: one entry for every position whose (summed) value is not zero -/
def eliminateZeros (M : Csr ℝ) : Csr ℝ :=
  ⟨M.nrows, M.ncols, ((M.trip.map (fun t => (t.1, t.2.1))).dedup.filter (fun p => decide (M.get p.1 p.2 ≠ 0))).map (fun p => (p.1, p.2, M.get p.1 p.2))⟩

/-- `X[I,:]`, for non-negative indices; `none`: IndexError -/
def takeRows {α : Type} (X : List α) (I : List ℕ) : Option (List α) := I.mapM (fun i => X[i]?)

/-- `matrix_from_function.py:38-63` with `sparse=True` -/
def matrixFromFunction {α : Type} (f : List α → List α → List ℝ) (X1 X2 : List α) (pattern : Option (List ℕ × List ℕ)) : Option (Csr ℝ) :=
  let n1 := X1.length
  let n2 := X2.length
  match pattern with
  | some (I, J) =>
    match takeRows X1 I, takeRows X2 J with
    | some all1, some all2 =>                                                    -- lines 44-45
      (csrMatrix (f all1 all2) I J n1 n2).map eliminateZeros                     -- lines 50, 54-55, 59-60
    | _, _ => none
  | none =>
    let all1 := (List.replicate n2 X1).flatten                                   -- line 47: `np.kron(np.ones((n2,1)),X1)`
    let all2 := X2.flatMap (fun x => List.replicate n1 x)                        -- line 48: `np.kron(X2,np.ones((n1,1)))`
    let J := (List.range n2).flatMap (fun j => List.replicate n1 j)              -- line 57
    let I := (List.replicate n2 (List.range n1)).flatten                         -- line 58
    (csrMatrix (f all1 all2) I J n1 n2).map eliminateZeros

/-- `matrix_from_function.py:38-63` with `sparse=False`: the entries of `np.reshape(vals,(n1,n2),order='F')`; `none`: the number of values does not fit -/
def matrixFromFunctionDense {α : Type} (f : List α → List α → List ℝ) (X1 X2 : List α) : Option (Matrix (Fin X1.length) (Fin X2.length) ℝ) :=
  let n1 := X1.length
  let n2 := X2.length
  let vals := f (List.replicate n2 X1).flatten (X2.flatMap (fun x => List.replicate n1 x))
  if vals.length = n1 * n2 then some (fun i j => vals.getD (i.val + n1 * j.val) 0) else none

/-- `scipy.sparse.hstack`: blocks side by side; `none`: the numbers of rows differ (or no block) -/
def hstackCsr : List (Csr ℝ) → Option (Csr ℝ)
  | [] => none
  | M :: Ms => Ms.foldlM (fun acc B => if B.nrows = acc.nrows then some ⟨acc.nrows, acc.ncols + B.ncols, acc.trip ++ B.trip.map (fun t => (t.1, acc.ncols + t.2.1, t.2.2))⟩ else none) M

/-- `scipy.sparse.vstack`: blocks above each other -/
def vstackCsr : List (Csr ℝ) → Option (Csr ℝ)
  | [] => none
  | M :: Ms => Ms.foldlM (fun acc B => if B.ncols = acc.ncols then some ⟨acc.nrows + B.nrows, acc.ncols, acc.trip ++ B.trip.map (fun t => (acc.nrows + t.1, t.2.1, t.2.2))⟩ else none) M

/-- `i-1` as an entry of `derivatives`: `-1` is none -/
def derivOf {d : ℕ} (i : Fin (d + 1)) : Option (Fin d) := i.cases none some

/-- a kernel function: derivative flags, then two points.  On arrays it works row by row. -/
abbrev Kernel (d : ℕ) := Option (Fin d) → Option (Fin d) → Pt d → Pt d → ℝ

/-- `KDTree(X2).query_ball_point(X1,r)` -/
abbrev BallQuery (d : ℕ) := List (Pt d) → List (Pt d) → ℝ → List (List ℕ)

/-- `gaussian_process.py:302-331` (`sparse=True`) -/
def covMatrix {d : ℕ} (query : BallQuery d) (ker : Kernel d) (X1 X2 : List (Pt d)) (useGradients : Bool) (support : Option ℝ) : Option (Csr ℝ) :=
  let pattern := support.map (fun r =>
    let indLists := query X2 X1 r                                                -- line 308
    ((indLists.zipIdx.flatMap (fun p => List.replicate p.1.length p.2)), indLists.flatten))   -- lines 311-314
  if pattern.isSome ∧ X1 = [] then none                                          -- line 312: nothing to concatenate
  else if useGradients then
    match (List.finRange (d + 1)).mapM (fun i =>
        match (List.finRange (d + 1)).mapM (fun j => matrixFromFunction (List.zipWith (ker (derivOf i) (derivOf j))) X1 X2 none) with   -- lines 322-327
        | some mats => hstackCsr mats
        | none => none) with
    | some bigMats => vstackCsr bigMats
    | none => none
  else matrixFromFunction (List.zipWith (ker none none)) X1 X2 pattern

/-- the entries of a sparse matrix -/
def csrMat (M : Csr ℝ) : Matrix (Fin M.nrows) (Fin M.ncols) ℝ := fun i j => M.get i.val j.val

/-- `cg(A,b)[0]` -/
abbrev CgSolver := ∀ n : ℕ, Matrix (Fin n) (Fin n) ℝ → (Fin n → ℝ) → Fin n → ℝ

/-- `LU.solve` of a matrix: column by column -/
def solveCols (solve : LinSolver ℝ) {n m : ℕ} (A : Matrix (Fin n) (Fin n) ℝ) (B : Matrix (Fin n) (Fin m) ℝ) : Option (Matrix (Fin n) (Fin m) ℝ) :=
  ((List.finRange m).mapM (fun j => solve (Fin n) A (fun i => B i j))).map (fun cols => Matrix.of (fun i j => (cols.map (fun c => c i)).getD j.val 0))

/-- one bisection step, `gaussian_process.py:162-171`; `x1`, `x2` have equal coordinates -/
def supportStep {d : ℕ} (ker : Kernel d) (p : ℝ × ℝ) : ℝ × ℝ :=
  let mid := 0.5 * (p.1 + p.2)
  if ker none none (fun _ => 0) (fun _ => mid) > 1e-10 then (mid, p.2) else (p.1, mid)

/-- `gaussian_process.py:156-173` -/
def compactSupport {d : ℕ} (ker : Kernel d) : ℝ := ((supportStep ker)^[10] (0, 1)).2

/-- the training data: points, values followed by the gradients column by column (`gaussian_process.py:136-144`) -/
def trainValues {d : ℕ} (y : List ℝ) (grad : Option (List (Pt d))) : List ℝ :=
  match grad with
  | none => y
  | some g => y ++ (List.finRange d).flatMap (fun k => g.map (fun r => r k))

/-- a list as a vector of given length; `none`: shape mismatch -/
def vecOf (l : List ℝ) (n : ℕ) : Option (Fin n → ℝ) := if l.length = n then some (fun i => l.getD i.val 0) else none

/-- the default kernel: `squared_exponential_kernel` with `scale=1`, `length=0.2`, `squared_exponential_kernel.py:4` -/
def defaultKernel (d : ℕ) : Kernel d := fun a b x y => sqExp 0.2 1 a b x y

/-- the constructor's choice of kernel and support, `gaussian_process.py:148-173` -/
def gpKernel {d : ℕ} (kernel : Option (Kernel d)) (compact : Bool) : Kernel d × Option ℝ :=
  match kernel with
  | none => (defaultKernel d, none)
  | some k => (k, if compact then some (compactSupport k) else none)

/-- the system matrix `K3 + sigma^2 I` (`gaussian_process.py:205-208`), `K3` lumped or not -/
def gpSystem (lump : Bool) (sigma : ℝ) (K3 : Csr ℝ) : Matrix (Fin K3.nrows) (Fin K3.nrows) ℝ := fun i j =>
  (if lump then (if i = j then ∑ k ∈ Finset.range K3.ncols, K3.get i.val k else 0) else K3.get i.val j.val) + sigma ^ 2 * (if i = j then 1 else 0)

/-- `gaussian_process.py:204-212` and `268-286`: no inducing points -/
def gpPlain {d : ℕ} (solve : LinSolver ℝ) (cg : CgSolver) (query : BallQuery d) (ker : Kernel d) (support : Option ℝ) (X : List (Pt d)) (y : List ℝ) (grad : Option (List (Pt d)))
    (Xt : List (Pt d)) (lump : Bool) (sigma : ℝ) : Option (List ℝ × List (List ℝ)) := do
  let K3 ← covMatrix query ker X X grad.isSome support
  if lump = true ∧ K3.nrows = 1 then none else do                                -- line 206: `np.squeeze` leaves no list of diagonals
  let yv ← vecOf (trainValues y grad) K3.nrows
  let A := gpSystem lump sigma K3
  let K3invY := cg K3.nrows A yv
  let K2 ← covMatrix query ker X Xt grad.isSome support
  if h : K2.nrows = K3.nrows then do
    let B : Matrix (Fin K3.nrows) (Fin K2.ncols) ℝ := fun i j => K2.get i.val j.val
    let mean := B.transpose.mulVec K3invY                                        -- line 275
    let K1 ← covMatrix query ker Xt Xt grad.isSome none
    let S ← solveCols solve A B
    let cov : Matrix (Fin K2.ncols) (Fin K2.ncols) ℝ := fun i j => K1.get i.val j.val - (B.transpose * S) i j   -- line 286
    some (List.ofFn mean, List.ofFn (fun i => List.ofFn (cov i)))
  else none

/-- `gaussian_process.py:185-198` and `254-262`: inducing points `Z` -/
def gpInduced {d : ℕ} (solve : LinSolver ℝ) (cg : CgSolver) (query : BallQuery d) (ker : Kernel d) (support : Option ℝ) (X : List (Pt d)) (y : List ℝ) (grad : Option (List (Pt d)))
    (Z Xt : List (Pt d)) (sigma : ℝ) : Option (List ℝ × List (List ℝ)) := do
  if ¬ sigma > 0 then none else do                                               -- line 185
  let Kmm ← covMatrix query ker Z Z grad.isSome none
  let Kmn ← covMatrix query ker Z X grad.isSome none
  let yv ← vecOf (trainValues y grad) Kmn.ncols
  let m := Kmm.nrows
  let Km : Matrix (Fin m) (Fin m) ℝ := fun i j => Kmm.get i.val j.val
  let Kx : Matrix (Fin m) (Fin Kmn.ncols) ℝ := fun i j => Kmn.get i.val j.val
  let SigmaInv := Km + (1 / sigma ^ 2) • (Kx * Kx.transpose)                      -- line 189
  let mu := (1 / sigma ^ 2) • Km.mulVec (cg m SigmaInv (Kx.mulVec yv))            -- line 194
  let KmmInvMu := cg m Km mu                                                      -- line 198
  let K2 ← covMatrix query ker Z Xt grad.isSome support
  let B : Matrix (Fin m) (Fin K2.ncols) ℝ := fun i j => K2.get i.val j.val
  let mean := B.transpose.mulVec KmmInvMu                                         -- line 255
  let S ← solveCols solve Km B                                                    -- line 256
  let K1 ← covMatrix query ker Xt Xt grad.isSome none
  let T ← solveCols solve SigmaInv (Km * S)
  let cov : Matrix (Fin K2.ncols) (Fin K2.ncols) ℝ := fun i j =>
    K1.get i.val j.val - (B.transpose * S) i j + (S.transpose * Km * T) i j       -- line 262
  some (List.ofFn mean, List.ofFn (fun i => List.ofFn (cov i)))

/-- `gaussian_process`, `gaussian_process.py:8-70`: construct and predict at `Xt`; result: means, rows of the covariance matrix -/
def gaussianProcess {d : ℕ} (solve : LinSolver ℝ) (cg : CgSolver) (query : BallQuery d) (X : List (Pt d)) (y : List ℝ) (Xt : List (Pt d)) (kernel : Option (Kernel d)) (Z : Option (List (Pt d)))
    (grad : Option (List (Pt d))) (lump compact : Bool) (sigma : ℝ) : Option (List ℝ × List (List ℝ)) :=
  if X.length ≠ y.length then none                                                -- line 138
  else
    match Z with
    | some Z => gpInduced solve cg query (gpKernel kernel compact).1 (gpKernel kernel compact).2 X y grad Z Xt sigma
    | none => gpPlain solve cg query (gpKernel kernel compact).1 (gpKernel kernel compact).2 X y grad Xt lump sigma

end
end Gpy
