import Verif.Model.Dec
import Verif.Np.Vec3
import Mathlib.Analysis.Real.Sqrt

/-! Intrinsic (edge-length based) operators. Real numbers stand for floats. -/

namespace Gpy
open Np

noncomputable section

/-- assert `F.shape == l_sq.shape` and `np.all(l_sq >= 0)` (`doublearea_intrinsic.py:33-35` and elsewhere) -/
def lsqOk (lsq : List (Row3 ℝ)) (F : List Tri) : Prop :=
  lsq.length = F.length ∧ ∀ r ∈ lsq, 0 ≤ r.x0 ∧ 0 ≤ r.x1 ∧ 0 ≤ r.x2

instance (lsq : List (Row3 ℝ)) (F : List Tri) : Decidable (lsqOk lsq F) := Classical.dec _

/-- One row of `doublearea_intrinsic.py:37-45` (Kahan's formula with a guard against rounding). -/
def dblArea (r : Row3 ℝ) : ℝ :=
  let a := Real.sqrt r.x0
  let b := Real.sqrt r.x1
  let c := Real.sqrt r.x2
  let arg := (a + (b + c)) * (c - (a - b)) * (c + (a - b)) * (a + (b - c))   -- line 44
  0.5 * Real.sqrt (max arg 0)                                                -- line 45

/-- `doublearea_intrinsic.py:33-47`. -/
def doubleareaIntrinsic (lsq : List (Row3 ℝ)) (F : List Tri) : Option (List ℝ) :=
  if lsqOk lsq F then some (lsq.map dblArea) else none

/-- One row of `cotangent_weights_intrinsic.py:40-44`. -/
def cotRow (r : Row3 ℝ) : Row3 ℝ :=
  ⟨0.25 * (r.x1 + r.x2 - r.x0) / dblArea r,
   0.25 * (r.x2 + r.x0 - r.x1) / dblArea r,
   0.25 * (r.x0 + r.x1 - r.x2) / dblArea r⟩

/-- `cotangent_weights_intrinsic.py:36-46`.  `none`: a failed assert, or a zero area (numpy then produces `nan`/`inf`, which
is outside of the model). -/
def cotangentWeightsIntrinsic (lsq : List (Row3 ℝ)) (F : List Tri) : Option (List (Row3 ℝ)) :=
  if lsqOk lsq F ∧ ∀ r ∈ lsq, dblArea r ≠ 0 then some (lsq.map cotRow) else none

/-- default `n = np.max(F)+1` -/
def nOr (n : Option ℕ) (F : List Tri) : Option ℕ := match n with | some n => some n | none => npMaxSucc F

/-- `cotangent_laplacian_intrinsic.py:34-51`. -/
def cotangentLaplacianIntrinsic (lsq : List (Row3 ℝ)) (F : List Tri) (n : Option ℕ) : Option (Csr ℝ) := do
  let n ← nOr n F                                                                            -- lines 38-39
  let C ← cotangentWeightsIntrinsic lsq F                                                    -- line 41
  let rows := F.map (·.a) ++ F.map (·.b) ++ F.map (·.b) ++ F.map (·.c) ++ F.map (·.c) ++ F.map (·.a)
    ++ F.map (·.a) ++ F.map (·.b) ++ F.map (·.c)                                             -- lines 43-44
  let cols := F.map (·.b) ++ F.map (·.a) ++ F.map (·.c) ++ F.map (·.b) ++ F.map (·.a) ++ F.map (·.c)
    ++ F.map (·.a) ++ F.map (·.b) ++ F.map (·.c)                                             -- lines 45-46
  let data := C.map (fun c => -c.x2) ++ C.map (fun c => -c.x2) ++ C.map (fun c => -c.x0) ++ C.map (fun c => -c.x0)
    ++ C.map (fun c => -c.x1) ++ C.map (fun c => -c.x1)
    ++ C.map (fun c => c.x1 + c.x2) ++ C.map (fun c => c.x2 + c.x0) ++ C.map (fun c => c.x0 + c.x1)  -- lines 47-48
  csrMatrix data rows cols n n                                                               -- line 49

/-- `C[r,c]` on an `(m,3)` array with Python indices. -/
def get2 (C : List (Row3 ℝ)) (q : Int × Int) : Option ℝ := do
  let r ← npGet? C q.1
  npGet? [r.x0, r.x1, r.x2] q.2

/-- The diagonal of `dec_h1_intrinsic.py:42-52` (and of `dec_h1inv_intrinsic.py:43-53`). -/
def h1Diag (lsq : List (Row3 ℝ)) (F : List Tri) (EToHe : Option (List ((Int × Int) × (Int × Int)))) : Option (List ℝ) := do
  let EToHe ← match EToHe with | some E => some E | none => (halfedgeEdgeMap F).map (fun o => o.EToHe)  -- lines 44-45
  let C ← cotangentWeightsIntrinsic lsq F                                                    -- line 50
  EToHe.mapM (fun p => do
    let d ← get2 C p.1                                                                       -- line 51
    if 0 ≤ p.2.1 then do                                                                     -- lines 48, 52
      let d2 ← get2 C p.2
      some (d + d2)
    else some d)

/-- `dec_h1_intrinsic.py:42-56`. -/
def decH1Intrinsic (lsq : List (Row3 ℝ)) (F : List Tri) (EToHe : Option (List ((Int × Int) × (Int × Int)))) :
    Option (Csr ℝ) := do
  let d ← h1Diag lsq F EToHe
  some (Csr.diags d)                                                                         -- lines 53-54

/-- `dec_h1inv_intrinsic.py:43-57`.  `none` also if an entry is zero (`np.nan_to_num(1/0)` then gives the largest float). -/
def decH1InvIntrinsic (lsq : List (Row3 ℝ)) (F : List Tri) (EToHe : Option (List ((Int × Int) × (Int × Int)))) :
    Option (Csr ℝ) := do
  let d ← h1Diag lsq F EToHe
  if ∀ x ∈ d, x ≠ 0 then some (Csr.diags (d.map (fun x => 1 / x))) else none                 -- lines 54-55

/-- `dec_h0_intrinsic.py:34-45`. -/
def decH0Intrinsic (lsq : List (Row3 ℝ)) (F : List Tri) (n : Option ℕ) : Option (Csr ℝ) := do
  let n ← nOr n F                                                                            -- lines 36-37
  let dA ← doubleareaIntrinsic lsq F
  let A3 := dA.map (fun x => 0.5 / 3 * x)                                                    -- line 39
  let i := F.map (·.a) ++ F.map (·.b) ++ F.map (·.c)                                         -- lines 40-41
  csrMatrix (A3 ++ A3 ++ A3) i i n n                                                         -- lines 42-43

/-- `dec_h0inv_intrinsic.py:35-46`.  `none` also if an area is zero (`np.nan_to_num(1/0)` then gives the largest float). -/
def decH0InvIntrinsic (lsq : List (Row3 ℝ)) (F : List Tri) (n : Option ℕ) : Option (Csr ℝ) := do
  let n ← nOr n F                                                                            -- lines 37-38
  let dA ← doubleareaIntrinsic lsq F
  let A3 := dA.map (fun x => 0.5 / 3 * x)                                                    -- line 40
  let i := F.map (·.a) ++ F.map (·.b) ++ F.map (·.c)                                         -- lines 41-42
  if ∀ x ∈ A3, x ≠ 0 then
    csrMatrix ((A3 ++ A3 ++ A3).map (fun x => 1 / x)) i i n n                                -- lines 43-44
  else none

/-- `dec_h2_intrinsic.py:31-36`. -/
def decH2Intrinsic (lsq : List (Row3 ℝ)) (F : List Tri) : Option (Csr ℝ) := do
  let dA ← doubleareaIntrinsic lsq F
  some (Csr.diags (dA.map (fun x => 0.5 * x)))

/-- `dec_h2inv_intrinsic.py:32-38`.  `none` also if an area is zero. -/
def decH2InvIntrinsic (lsq : List (Row3 ℝ)) (F : List Tri) : Option (Csr ℝ) := do
  let dA ← doubleareaIntrinsic lsq F
  let A := dA.map (fun x => 0.5 * x)
  if ∀ x ∈ A, x ≠ 0 then some (Csr.diags (A.map (fun x => 1 / x))) else none

/-- The three types of `massmatrix_intrinsic` (`massmatrix_intrinsic.py:54-58`). -/
inductive MassType | voronoi | barycentric | full
deriving DecidableEq

/-- One row of `massmatrix_intrinsic.py:69-113`: the three Voronoi areas of a triangle. -/
def voronoiRow (r : Row3 ℝ) : Row3 ℝ :=
  let dblA := dblArea r
  let l0 := Real.sqrt r.x0
  let l1 := Real.sqrt r.x1
  let l2 := Real.sqrt r.x2
  let c0 := (r.x2 + r.x1 - r.x0) / (2 * l2 * l1)                            -- lines 70-74
  let c1 := (r.x0 + r.x2 - r.x1) / (2 * l0 * l2)
  let c2 := (r.x1 + r.x0 - r.x2) / (2 * l1 * l0)
  let b0 := c0 * l0                                                         -- line 81
  let b1 := c1 * l1
  let b2 := c2 * l2
  let s := b0 + b1 + b2                                                     -- line 82
  let p0 := b0 / s * 0.5 * dblA                                             -- line 88
  let p1 := b1 / s * 0.5 * dblA
  let p2 := b2 / s * 0.5 * dblA
  let q : Row3 ℝ := ⟨(p1 + p2) * 0.5, (p0 + p2) * 0.5, (p0 + p1) * 0.5⟩     -- lines 92-96
  let q := if c0 < 0 then ⟨0.25 * dblA, 0.125 * dblA, 0.125 * dblA⟩ else q  -- lines 102-105
  let q := if c1 < 0 then ⟨0.125 * dblA, 0.25 * dblA, 0.125 * dblA⟩ else q  -- lines 106-109
  let q := if c2 < 0 then ⟨0.125 * dblA, 0.125 * dblA, 0.25 * dblA⟩ else q  -- lines 110-113
  q

/-- `massmatrix_intrinsic.py:50-159`.  For `voronoi`, `none` also when an area is zero (the code may then divide by zero). -/
def massmatrixIntrinsic (lsq : List (Row3 ℝ)) (F : List Tri) (n : Option ℕ) (type : MassType) : Option (Csr ℝ) := do
  let n ← nOr n F                                                           -- lines 61-62
  let dblA ← doubleareaIntrinsic lsq F                                      -- line 65
  match type with
  | .voronoi =>
    if ∀ x ∈ dblA, x ≠ 0 then
      let quads := lsq.map voronoiRow
      let I := F.map (·.a) ++ F.map (·.b) ++ F.map (·.c)                    -- lines 122-123
      let vals := quads.map (·.x0) ++ quads.map (·.x1) ++ quads.map (·.x2)  -- line 124 (Fortran order)
      csrMatrix vals I I n n                                                -- line 157
    else none
  | .barycentric =>
    let I := F.map (·.a) ++ F.map (·.b) ++ F.map (·.c)                      -- lines 133-134
    csrMatrix ((dblA ++ dblA ++ dblA).map (fun x => x / 6)) I I n n         -- lines 135, 157
  | .full =>
    let I := F.map (·.a) ++ F.map (·.b) ++ F.map (·.b) ++ F.map (·.c) ++ F.map (·.c) ++ F.map (·.a)
      ++ F.map (·.a) ++ F.map (·.b) ++ F.map (·.c)                          -- lines 139-140
    let J := F.map (·.b) ++ F.map (·.a) ++ F.map (·.c) ++ F.map (·.b) ++ F.map (·.a) ++ F.map (·.c)
      ++ F.map (·.a) ++ F.map (·.b) ++ F.map (·.c)                          -- lines 141-142
    let offd := dblA.map (fun x => x / 24)                                  -- line 143
    let diag := dblA.map (fun x => x / 12)                                  -- line 144
    csrMatrix (offd ++ offd ++ offd ++ offd ++ offd ++ offd ++ diag ++ diag ++ diag) I J n n  -- lines 145-146, 157

/-- `halfedge_lengths_squared.py:45-53` for points in the plane or in space (2D points have `z = 0`).
`none`: empty inputs or an index out of range. -/
def halfedgeLengthsSquared (V : List (V3 ℝ)) (F : List Tri) : Option (List (Row3 ℝ)) :=
  if V = [] ∨ F = [] then none else
  F.mapM (fun t => do
    let a ← V[t.a]?
    let b ← V[t.b]?
    let c ← V[t.c]?
    some (Row3.mk (V3.normSq (c - b)) (V3.normSq (a - c)) (V3.normSq (b - a))))

/-- `cotangent_laplacian.py:29-30`. -/
def cotangentLaplacian (V : List (V3 ℝ)) (F : List Tri) : Option (Csr ℝ) := do
  let lsq ← halfedgeLengthsSquared V F
  cotangentLaplacianIntrinsic lsq F (some V.length)

end
end Gpy
