import Verif.Np.Sparse
import Verif.Np.Vec3
import Mathlib.Algebra.Order.Floor.Ring
import Mathlib.Data.Real.Archimedean

/-! `fd_interpolate.py`, `fd_partial_derivative.py`, `fd_grad.py`. -/

set_option autoImplicit false
namespace Gpy
open Np

/-- `x[(J>=0)*(J<mat_dim)]` -/
def maskBy {α : Type} (J : List ℤ) (dim : ℕ) (x : List α) : List α :=
  ((J.zip x).filter (fun p => decide (0 ≤ p.1 ∧ p.1 < (dim : ℤ)))).map (·.2)

/-- `fd_interpolate.py:103-106`. -/
def fdAssemble (n dim : ℕ) (I : List ℕ) (J : List ℤ) (vals : List ℝ) : Option (Csr ℝ) :=
  csrMatrix (maskBy J dim vals) (maskBy J dim I) ((maskBy J dim J).map Int.toNat) n dim

noncomputable section

/-- One coordinate of `indeces` (line 65) and of the local coordinate `vij` (lines 77-79). -/
def fdIndex (p h corner : ℝ) : ℤ := ⌊(p - corner) / h⌋
def fdLocal (p h corner : ℝ) : ℝ := (p - (corner + fdIndex p h corner * h)) / h

/-- `fd_interpolate(P,gs,h,corner)` in 2D, `fd_interpolate.py:60-107`. -/
def fdInterpolate2 (P : List (ℝ × ℝ)) (gs : ℕ × ℕ) (h : ℝ × ℝ) (corner : Option (ℝ × ℝ)) : Option (Csr ℝ) :=
  let c := corner.getD (0, 0)                                         -- lines 62-63
  let iv : ℝ × ℝ → ℤ := fun p => fdIndex p.1 h.1 c.1 + gs.1 * fdIndex p.2 h.2 c.2         -- line 68
  let v0 : ℝ × ℝ → ℝ := fun p => fdLocal p.1 h.1 c.1
  let v1 : ℝ × ℝ → ℝ := fun p => fdLocal p.2 h.2 c.2
  let I := List.range P.length
  let J := P.map iv ++ P.map (fun p => iv p + gs.1) ++ P.map (fun p => iv p + 1) ++ P.map (fun p => iv p + 1 + gs.1)   -- line 70
  let vals := P.map (fun p => (1 - v1 p) * (1 - v0 p)) ++ P.map (fun p => v1 p * (1 - v0 p)) ++ P.map (fun p => (1 - v1 p) * v0 p) ++
    P.map (fun p => v1 p * v0 p)                                      -- lines 82-87
  fdAssemble P.length (gs.1 * gs.2) (I ++ I ++ I ++ I) J vals

/-- `fd_interpolate(P,gs,h,corner)` in 3D, `fd_interpolate.py:60-107`. -/
def fdInterpolate3 (P : List (V3 ℝ)) (gs : ℕ × ℕ × ℕ) (h : V3 ℝ) (corner : Option (V3 ℝ)) : Option (Csr ℝ) :=
  let c := corner.getD 0
  let iv : V3 ℝ → ℤ := fun p => (fdIndex p.y h.y c.y + gs.2.1 * fdIndex p.z h.z c.z) * gs.1 + fdIndex p.x h.x c.x        -- line 72
  let v0 : V3 ℝ → ℝ := fun p => fdLocal p.x h.x c.x
  let v1 : V3 ℝ → ℝ := fun p => fdLocal p.y h.y c.y
  let v2 : V3 ℝ → ℝ := fun p => fdLocal p.z h.z c.z
  let I := List.range P.length
  let J := P.map iv ++ P.map (fun p => iv p + gs.1) ++ P.map (fun p => iv p + 1) ++ P.map (fun p => iv p + 1 + gs.1) ++
    P.map (fun p => iv p + gs.2.1 * gs.1) ++ P.map (fun p => iv p + gs.1 + gs.2.1 * gs.1) ++ P.map (fun p => iv p + 1 + gs.2.1 * gs.1) ++
    P.map (fun p => iv p + 1 + gs.1 + gs.2.1 * gs.1)                  -- line 74
  let vals := P.map (fun p => (1 - v1 p) * (1 - v0 p) * (1 - v2 p)) ++ P.map (fun p => v1 p * (1 - v0 p) * (1 - v2 p)) ++
    P.map (fun p => (1 - v1 p) * v0 p * (1 - v2 p)) ++ P.map (fun p => v1 p * v0 p * (1 - v2 p)) ++
    P.map (fun p => (1 - v1 p) * (1 - v0 p) * v2 p) ++ P.map (fun p => v1 p * (1 - v0 p) * v2 p) ++
    P.map (fun p => (1 - v1 p) * v0 p * v2 p) ++ P.map (fun p => v1 p * v0 p * v2 p)        -- lines 90-99
  fdAssemble P.length (gs.1 * gs.2.1 * gs.2.2) (I ++ I ++ I ++ I ++ I ++ I ++ I ++ I) J vals

/-- `fd_partial_derivative.py:75-91` once `new_grid` and `next_ind` are known: `idx` lists `vectorized_indeces`. -/
def fdDiff (idx : List ℕ) (nextInd ncols : ℕ) (h : ℝ) : Option (Csr ℝ) :=
  let num := idx.length                                               -- line 75: `np.prod(new_grid)`
  let J := idx ++ idx.map (· + nextInd)                               -- line 85
  let I := List.range num ++ List.range num                           -- line 86
  let vals := List.replicate num (-1 : ℝ) ++ List.replicate num 1     -- line 89
  csrMatrix (vals.map (· / h)) I J num ncols                          -- line 91

/-- `vectorized_indeces` in 2D, lines 79-80 (`x` runs fastest). -/
def fdIdx2 (ng gs : ℕ × ℕ) : List ℕ := (List.range ng.2).flatMap (fun y => (List.range ng.1).map (fun x => x + gs.1 * y))

/-- `vectorized_indeces` in 3D, lines 82-83 (Fortran order: `x` runs fastest). -/
def fdIdx3 (ng gs : ℕ × ℕ × ℕ) : List ℕ :=
  (List.range ng.2.2).flatMap (fun z => (List.range ng.2.1).flatMap (fun y => (List.range ng.1).map (fun x => x + gs.1 * (y + gs.2.1 * z))))

/-- `fd_partial_derivative(gs,h,direction)` in 2D; `none` for a direction that is not 0 or 1 (`IndexError`/`UnboundLocalError`).  A grid
size of zero in the direction (a negative number of rows) is excluded by the callers' `gs >= 1`; here natural subtraction is used. -/
def fdPartial2 (gs : ℕ × ℕ) (h : ℝ × ℝ) : ℕ → Option (Csr ℝ)
  | 0 => fdDiff (fdIdx2 (gs.1 - 1, gs.2) gs) 1 (gs.1 * gs.2) h.1      -- lines 65-67
  | 1 => fdDiff (fdIdx2 (gs.1, gs.2 - 1) gs) gs.1 (gs.1 * gs.2) h.2   -- lines 68-70
  | _ => none

/-- `fd_partial_derivative(gs,h,direction)` in 3D. -/
def fdPartial3 (gs : ℕ × ℕ × ℕ) (h : V3 ℝ) : ℕ → Option (Csr ℝ)
  | 0 => fdDiff (fdIdx3 (gs.1 - 1, gs.2.1, gs.2.2) gs) 1 (gs.1 * gs.2.1 * gs.2.2) h.x
  | 1 => fdDiff (fdIdx3 (gs.1, gs.2.1 - 1, gs.2.2) gs) gs.1 (gs.1 * gs.2.1 * gs.2.2) h.y
  | 2 => fdDiff (fdIdx3 (gs.1, gs.2.1, gs.2.2 - 1) gs) (gs.1 * gs.2.1) (gs.1 * gs.2.1 * gs.2.2) h.z    -- lines 71-73
  | _ => none

/-- `scipy.sparse.vstack` -/
def csrVstack (A B : Csr ℝ) : Csr ℝ := ⟨A.nrows + B.nrows, A.ncols, A.trip ++ B.trip.map (fun t => (t.1 + A.nrows, t.2.1, t.2.2))⟩

/-- `fd_grad(gs,h)` in 2D and 3D, `fd_grad.py:40-46`. -/
def fdGrad2 (gs : ℕ × ℕ) (h : ℝ × ℝ) : Option (Csr ℝ) := do
  let Dx ← fdPartial2 gs h 0
  let Dy ← fdPartial2 gs h 1
  some (csrVstack Dx Dy)

def fdGrad3 (gs : ℕ × ℕ × ℕ) (h : V3 ℝ) : Option (Csr ℝ) := do
  let Dx ← fdPartial3 gs h 0
  let Dy ← fdPartial3 gs h 1
  let Dz ← fdPartial3 gs h 2
  some (csrVstack (csrVstack Dx Dy) Dz)

end
end Gpy
