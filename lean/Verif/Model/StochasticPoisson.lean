import Verif.Model.Fd
import Verif.Model.GridNeighbors
import Verif.Model.CompactNormal
import Verif.Model.GaussianProcess
import Mathlib.Algebra.Order.Floor.Ring

/-!
# `stochastic_poisson_surface_reconstruction.py`

In two and three dimensions (`Pt d`, `d = 2` or `3`).  Numbers are exact.  `scipy.ndimage.gaussian_filter`, `scipy.sparse.linalg.bicg` and `splu` are parameters.  A vector over the nodes of a grid is a
function of the index of the node, the first coordinate runs fastest.  The subspace solver (`solve_subspace_dim > 0`, lines 316-347) is in `SpsrSubspace`; `verbose` only prints.
-/

set_option autoImplicit false
namespace Gpy.Spsr
open Np

noncomputable section
open Classical

variable {d : ℕ}

/-- the number of nodes, `np.prod(gs)` -/
def size (gs : Fin d → ℕ) : ℕ := (List.ofFn gs).prod

/-- the node with index `n`: `np.linspace(corner, corner+(gs-1)*h, gs)` in every coordinate, lines 183-187.  (In 2D `np.meshgrid` with the default `indexing='xy'` and a reshape in C order lets the
first coordinate run fastest; in 3D `indexing='ij'` and Fortran order.) -/
def node (gs : Fin d → ℕ) (h corner : Pt d) (n : ℕ) : Pt d := fun k => corner k + ((unravelF (List.ofFn gs) n).getD k.val 0 : ℕ) * h k

/-- `staggered_grid_vertices`, lines 182-187 -/
def nodes (gs : Fin d → ℕ) (h corner : Pt d) : List (Pt d) := (List.range (size gs)).map (node gs h corner)

/-- `gs_dd`, lines 179-180 -/
def gsOff (gs : Fin d → ℕ) (dd : Fin d) : Fin d → ℕ := Function.update gs dd (gs dd - 1)

/-- `corner_dd`, lines 177-178 -/
def cornerOff (h corner : Pt d) (dd : Fin d) : Pt d := Function.update corner dd (corner dd + 0.5 * h dd)

/-- `np.min(h)` -/
def minH (h : Pt d) : ℝ := ((List.ofFn h).min?).getD 0

/-- `kernel_fun` on one pair of rows, lines 153-154 -/
def kern (h : Pt d) (x y : Pt d) : ℝ := (compactNormal 3 (1.5 * minH h) none none (fun k => x k - y k)).getD 0

/-- `k1`, lines 198-218, for the grid `gs` (that is `gs_dd`); `none`: no cell has all its neighbours (`IndexError` in line 201) -/
def k1 (gs : Fin d → ℕ) (h corner : Pt d) : Option (Csr ℝ) := do
  let rows ← gridNeighbors (List.ofFn gs) 2 true true true                                              -- line 198
  let c ← (List.range (size gs)).find? (fun c => rows.all (fun f => decide (0 ≤ f c)))                  -- lines 200-201
  let value : (ℕ → ℤ) → ℝ := fun f => kern h (node gs h corner c) (node gs h corner (f c).toNat)          -- lines 203-208
  let entries := rows.flatMap (fun f => (List.range (size gs)).map (fun i => if f i < 0 then (i, 0, 0) else (i, (f i).toNat, value f)))   -- lines 210-215
  csrMatrix (entries.map (fun t => t.2.2)) (entries.map (fun t => t.1)) (entries.map (fun t => t.2.1)) (size gs) (size gs)              -- line 217

/-- `P_cells` for one point, lines 229-233; `none`: `ravel_multi_index` raises because the point is not in a cell of the grid -/
def cellOf (gs : Fin d → ℕ) (h corner : Pt d) (p : Pt d) : Option ℕ :=
  let idx : Fin d → ℤ := fun k => ⌊(p k - corner k) / h k⌋
  if ∀ k, 0 ≤ idx k ∧ idx k < gs k then some (ravelWrapF (List.ofFn gs) (List.ofFn idx)) else none

/-- `np.arange(-order_neighbors,order_neighbors+1)` with `order_neighbors = 3`, lines 236-237 -/
def seven : List ℤ := [-3, -2, -1, 0, 1, 2, 3]

/-- `neighbors`, lines 237-242 -/
def offsets (gs : Fin d → ℕ) : List ℤ :=
  (List.range (d - 1)).foldl (fun nb k => nb.flatMap (fun a => seven.map (fun b => a + b * (((List.ofFn gs).take (k + 1)).prod : ℕ)))) seven

/-- `I`, `J`, lines 244-248 -/
def pattern (gs : Fin d → ℕ) (cells : List ℕ) : List (ℕ × ℕ) :=
  cells.zipIdx.flatMap (fun c => (offsets gs).filterMap (fun o => if 0 ≤ (c.1 : ℤ) + o ∧ (c.1 : ℤ) + o < size gs then some (c.2, ((c.1 : ℤ) + o).toNat) else none))

/-- `k2`, lines 229-252 -/
def k2 (gs : Fin d → ℕ) (h corner : Pt d) (P : List (Pt d)) : Option (Csr ℝ) := do
  let cells ← P.mapM (cellOf gs h corner)
  matrixFromFunction (List.zipWith (kern h)) P (nodes gs h corner) (some ((pattern gs cells).map (fun p => p.1), (pattern gs cells).map (fun p => p.2)))

/-- the grid, lines 132-145; `none`: an assertion fails or there are no points -/
def grid (P : List (Pt d)) (gs : Option (Fin d → ℕ)) (h corner : Option (Pt d)) : Option ((Fin d → ℕ) × Pt d × Pt d) :=
  let gs := if gs.isNone ∧ h.isNone ∧ corner.isNone then some (fun _ => 100) else gs                      -- lines 132-134
  let Q := P.map (fun p k => 1.5 * p k)
  match gs with
  | none =>
    match h, corner, npAmax Q with
    | some h, some corner, some hi => some (fun k => (⌊(hi k - corner k) / h k⌋).toNat, h, corner)        -- lines 137-140
    | _, _, _ => none
  | some gs =>
    match h, corner with
    | some h, some corner => some (gs, h, corner)
    | _, _ =>
      match npAmin Q, npAmax Q with
      | some lo, some hi => some (gs, fun k => (hi k - lo k) / gs k, lo)                                  -- lines 144-145
      | _, _ => none

/-- `fd_interpolate` in two and three dimensions -/
def interp : {d : ℕ} → List (Pt d) → (Fin d → ℕ) → Pt d → Pt d → Option (Csr ℝ)
  | 2, P, gs, h, corner => fdInterpolate2 (P.map (fun p => (p 0, p 1))) (gs 0, gs 1) (h 0, h 1) (some (corner 0, corner 1))
  | 3, P, gs, h, corner => fdInterpolate3 (P.map (fun p => ⟨p 0, p 1, p 2⟩)) (gs 0, gs 1, gs 2) ⟨h 0, h 1, h 2⟩ (some ⟨corner 0, corner 1, corner 2⟩)
  | _, _, _, _, _ => none

/-- `fd_grad` in two and three dimensions -/
def gradient : {d : ℕ} → (Fin d → ℕ) → Pt d → Option (Csr ℝ)
  | 2, gs, h => fdGrad2 (gs 0, gs 1) (h 0, h 1)
  | 3, gs, h => fdGrad3 (gs 0, gs 1, gs 2) ⟨h 0, h 1, h 2⟩
  | _, _, _ => none

/-- `sampling_density`, lines 160-164; `blur` is `gaussian_filter(.,sigma=3)` on a grid -/
def density (blur : (Fin d → ℕ) → (ℕ → ℝ) → ℕ → ℝ) (gs : Fin d → ℕ) (h corner : Pt d) (P : List (Pt d)) : Option (ℕ → ℝ) := do
  let W ← interp P (fun k => gs k + 1) h (fun k => corner k - 0.5 * h k)
  let image : ℕ → ℝ := fun j => (∑ i ∈ Finset.range W.nrows, W.get i j) / ∏ k, h k
  some (fun i => W.mulVec (blur (fun k => gs k + 1) image) i)

/-- one entry of `means` and one of `covs`, lines 175-273: the mean of the `dd`-th component of the vector field and its covariance -/
def component (prior : Option (Pt d → Pt d)) (sigmaN : ℝ) (dens : ℕ → ℝ) (gs : Fin d → ℕ) (h corner : Pt d) (P N : List (Pt d)) (dd : Fin d) : Option (List ℝ × (ℕ → ℕ → ℝ)) := do
  let g := gsOff gs dd
  let c := cornerOff h corner dd
  let K1 ← k1 g h c
  let K2 ← k2 g h c P
  let w : ℕ → ℝ := fun i => 1 / (dens i + sigmaN * sigmaN)                                               -- line 261
  let f : Pt d → ℝ := fun x => match prior with | none => 0 | some p => p x dd
  let mean : ℕ → ℝ := fun j => f (node g h c j) + ∑ i ∈ Finset.range P.length, K2.get i j * (w i * (N.getD i 0 dd - f (P.getD i 0)))    -- lines 265-271
  some ((List.range (size g)).map mean, fun j l => K1.get j l - ∑ i ∈ Finset.range P.length, K2.get i j * (w i * K2.get i l))           -- line 273

/-- `block_diag`, line 279, of square blocks with the given sizes -/
def blockDiag : List (ℕ × (ℕ → ℕ → ℝ)) → ℕ → ℕ → ℝ
  | [], _, _ => 0
  | (n, M) :: t, i, j => if i < n ∧ j < n then M i j else if n ≤ i ∧ n ≤ j then blockDiag t (i - n) (j - n) else 0

/-- `eps`, line 157 -/
def eps : ℝ := 1 / 10 ^ 6

/-- `L + eps*eye(L.shape[0])`, lines 296-298 -/
def system {m n : ℕ} (G : Matrix (Fin m) (Fin n) ℝ) : Matrix (Fin n) (Fin n) ℝ := G.transpose * G + eps • (1 : Matrix (Fin n) (Fin n) ℝ)

/-- `bicg(A,b,atol=1e-10)`; `none`: `info != 0` -/
abbrev BicgSolver := ∀ n : ℕ, Matrix (Fin n) (Fin n) ℝ → (Fin n → ℝ) → Option (Fin n → ℝ)

/-- the mean of the scalar field, lines 292-303; `W` is `fd_interpolate(P,gs,h,corner)` as a matrix -/
def meanField (bicg : BicgSolver) {m n p : ℕ} (G : Matrix (Fin m) (Fin n) ℝ) (W : Matrix (Fin p) (Fin n) ℝ) (v : Fin m → ℝ) : Option (Fin n → ℝ) := do
  let x ← bicg n (system G) (G.transpose.mulVec v)
  let shift := (∑ i, W.mulVec x i) / p                                                                    -- line 302
  some (fun j => x j - shift)

/-- the variance of the scalar field, lines 310-314 and 353-359; `C` is `vector_cov` -/
def varField (solve : LinSolver ℝ) (sigmaN : ℝ) {m n : ℕ} (G : Matrix (Fin m) (Fin n) ℝ) (C : Matrix (Fin m) (Fin m) ℝ) : Option (Fin n → ℝ) := do
  let D ← solveCols solve (system G) (G.transpose * C * G)                                                -- lines 312, 354
  let S ← solveCols solve (system G) D.transpose                                                          -- line 355
  let lo ← ((List.ofFn (fun j => S j j)).min?)
  some (fun j => S j j - lo + sigmaN * sigmaN + eps)                                                      -- lines 356-359

/-- `stochastic_poisson_surface_reconstruction` with `solve_subspace_dim=0`, lines 128-370: the mean and (if asked for) the variance; `none`: an exception -/
def spsr (blur : (Fin d → ℕ) → (ℕ → ℝ) → ℕ → ℝ) (bicg : BicgSolver) (solve : LinSolver ℝ) (prior : Option (Pt d → Pt d)) (variance : Bool) (sigmaN sigma : ℝ)
    (P N : List (Pt d)) (gs : Option (Fin d → ℕ)) (h corner : Option (Pt d)) : Option (List ℝ × Option (List ℝ)) := do
  let (gs, h, corner) ← grid P gs h corner
  let dens ← density blur gs h corner P
  let comps ← (List.finRange d).mapM (component prior sigmaN dens gs h corner P N)
  let v := comps.flatMap (fun c => c.1)                                                                   -- line 277
  let G ← gradient gs h
  let W ← interp P gs h corner
  if v.length = G.nrows then do
    let Gm : Matrix (Fin G.nrows) (Fin (size gs)) ℝ := Matrix.of (fun i j => G.get i j)
    let Wm : Matrix (Fin P.length) (Fin (size gs)) ℝ := Matrix.of (fun i j => W.get i j)
    let mean ← meanField bicg Gm Wm (fun i => v.getD i 0)
    if variance then do
      let C : Matrix (Fin G.nrows) (Fin G.nrows) ℝ := Matrix.of (fun i j => sigma * sigma * blockDiag (comps.map (fun c => (c.1.length, c.2))) i j)   -- line 279
      let var ← varField solve sigmaN Gm C
      some (List.ofFn mean, some (List.ofFn var))
    else some (List.ofFn mean, none)
  else none

/-- `grid_vertices`, line 150, in C order: in two dimensions -/
def gridVertices2 (gs : Fin 2 → ℕ) (h corner : Pt 2) : List (Pt 2) :=
  (List.range (gs 1)).flatMap (fun j : ℕ => (List.range (gs 0)).map (fun i : ℕ => ![corner 0 + i * h 0, corner 1 + j * h 1]))

/-- `grid_vertices`, line 150: in three dimensions the arrays have the shape `(gs[1],gs[0],gs[2])`; in C order -/
def gridVertices3 (gs : Fin 3 → ℕ) (h corner : Pt 3) : List (Pt 3) :=
  (List.range (gs 1)).flatMap (fun j : ℕ => (List.range (gs 0)).flatMap (fun i : ℕ => (List.range (gs 2)).map (fun k : ℕ => ![corner 0 + i * h 0, corner 1 + j * h 1, corner 2 + k * h 2])))

/-- the same in Fortran order -/
def gridVertices3F (gs : Fin 3 → ℕ) (h corner : Pt 3) : List (Pt 3) :=
  (List.range (gs 2)).flatMap (fun k : ℕ => (List.range (gs 0)).flatMap (fun i : ℕ => (List.range (gs 1)).map (fun j : ℕ => ![corner 0 + i * h 0, corner 1 + j * h 1, corner 2 + k * h 2])))

end

end Gpy.Spsr
