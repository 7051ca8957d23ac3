import Verif.Model.Angles
import Verif.Model.Biharmonic
import Verif.Np.Pt

/-! Operators of a triangle mesh given by vertex positions: each squares the edge lengths and calls the intrinsic one. -/

set_option autoImplicit false
namespace Gpy
open Np

noncomputable section

/-- `halfedge_lengths.py:41` -/
def halfedgeLengths (V : List (V3 ℝ)) (F : List Tri) : Option (List (Row3 ℝ)) := do
  let lsq ← halfedgeLengthsSquared V F
  some (lsq.map (fun r => ⟨Real.sqrt r.x0, Real.sqrt r.x1, Real.sqrt r.x2⟩))

/-- `doublearea.py:57-58` (`signed=False`) -/
def doublearea (V : List (V3 ℝ)) (F : List Tri) : Option (List ℝ) := do
  let lsq ← halfedgeLengthsSquared V F
  doubleareaIntrinsic lsq F

/-- one triangle of `doublearea.py:53-55` -/
def signedDblArea (a b c : Pt 2) : ℝ :=
  let r := a - c                                                       -- line 53
  let s := b - c                                                       -- line 54
  r 0 * s 1 - r 1 * s 0                                                -- line 55

/-- `doublearea.py:50-55`: planar triangle meshes, `signed=True` -/
def doubleareaSigned (V : List (Pt 2)) (F : List Tri) : Option (List ℝ) :=
  F.mapM (fun t => do
    let a ← V[t.a]?
    let b ← V[t.b]?
    let c ← V[t.c]?
    some (signedDblArea a b c))

/-- `V[F[:,1],:] - V[F[:,0],:]`, row-wise norms (`doublearea.py:47`, `massmatrix.py:56`, `grad.py:51`); the edge list defaults to the open polyline (`edge_indices(V.shape[0])`). -/
def edgeLengthsOf {d : ℕ} (V : List (Pt d)) (E : List (ℕ × ℕ)) : Option (List ℝ) :=
  E.mapM (fun e => do
    let a ← V[e.1]?
    let b ← V[e.2]?
    some (pnorm (b - a)))

/-- `edge_indices.py:43-45` as pairs, see `edgeIndices`. -/
def openEdges (n : ℕ) : List (ℕ × ℕ) := (List.range (n - 1)).zip ((List.range (n - 1)).map (· + 1))

/-- `doublearea.py:39-48`: polylines -/
def doubleareaPolyline {d : ℕ} (V : List (Pt d)) (E : Option (List (ℕ × ℕ))) : Option (List ℝ) := do
  let l ← edgeLengthsOf V (E.getD (openEdges V.length))
  some (l.map (2 * ·))

/-- `massmatrix.py:49-59`: polylines -/
def massmatrixPolyline {d : ℕ} (V : List (Pt d)) (E : Option (List (ℕ × ℕ))) : Option (Csr ℝ) := do
  let E := E.getD (openEdges V.length)                                            -- lines 49-50
  let l ← edgeLengthsOf V E                                                       -- line 56
  let vals := (l ++ l).map (· / 2)                                                -- line 57
  let I := E.map (·.1) ++ E.map (·.2)                                             -- line 58
  csrMatrix vals I I V.length V.length                                            -- line 59

/-- `grad.py:43-57`: polylines; `none` also for an edge of length zero (numpy: `inf`) -/
def gradPolyline {d : ℕ} (V : List (Pt d)) (E : Option (List (ℕ × ℕ))) : Option (Csr ℝ) := do
  let E := E.getD (openEdges V.length)                                            -- lines 43-44
  let l ← edgeLengthsOf V E                                                       -- line 51
  let I := List.range E.length ++ List.range E.length                             -- lines 52-53
  let J := E.map (·.1) ++ E.map (·.2)                                             -- line 54
  let vals := l.map (1 / ·)                                                       -- line 55
  let vals := vals.map (- ·) ++ vals                                              -- line 56
  if ∀ x ∈ l, x ≠ 0 then csrMatrix vals I J E.length V.length else none           -- line 57

/-- `barycenters.py:30-34`: `F` has `k ≥ 1` columns.  One row of the result; the loop adds the columns one by one. -/
def barycenterRow {d : ℕ} (V : List (Pt d)) (f : List ℕ) : Option (Pt d) := do
  let ps ← f.mapM (fun i => V[i]?)
  let B := ps.foldl (· + ·) 0                                                     -- lines 30-32
  some (fun j => B j / f.length)                                                  -- line 33

/-- `barycenters.py:30-34` -/
def barycenters {d : ℕ} (V : List (Pt d)) (F : List (List ℕ)) : Option (List (Pt d)) := F.mapM (barycenterRow V)

/-- `cotangent_weights.py:34-35` -/
def cotangentWeights (V : List (V3 ℝ)) (F : List Tri) : Option (List (Row3 ℝ)) := do
  let lsq ← halfedgeLengthsSquared V F
  cotangentWeightsIntrinsic lsq F

/-- `massmatrix.py:52,62-66`: triangle meshes -/
def massmatrix (V : List (V3 ℝ)) (F : List Tri) (type : MassType) : Option (Csr ℝ) := do
  let lsq ← halfedgeLengthsSquared V F
  massmatrixIntrinsic lsq F (some V.length) type

/-- `dec_h0.py:31-32` -/
def decH0 (V : List (V3 ℝ)) (F : List Tri) : Option (Csr ℝ) := do
  let lsq ← halfedgeLengthsSquared V F
  decH0Intrinsic lsq F (some V.length)

/-- `dec_h0inv.py:32-33` -/
def decH0Inv (V : List (V3 ℝ)) (F : List Tri) : Option (Csr ℝ) := do
  let lsq ← halfedgeLengthsSquared V F
  decH0InvIntrinsic lsq F (some V.length)

/-- `dec_h1.py:41-42` -/
def decH1 (V : List (V3 ℝ)) (F : List Tri) (EToHe : Option (List ((Int × Int) × (Int × Int)))) : Option (Csr ℝ) := do
  let lsq ← halfedgeLengthsSquared V F
  decH1Intrinsic lsq F EToHe

/-- `dec_h1inv.py:42-43` -/
def decH1Inv (V : List (V3 ℝ)) (F : List Tri) (EToHe : Option (List ((Int × Int) × (Int × Int)))) : Option (Csr ℝ) := do
  let lsq ← halfedgeLengthsSquared V F
  decH1InvIntrinsic lsq F EToHe

/-- `dec_h2.py:31-32` -/
def decH2 (V : List (V3 ℝ)) (F : List Tri) : Option (Csr ℝ) := do
  let lsq ← halfedgeLengthsSquared V F
  decH2Intrinsic lsq F

/-- `dec_h2inv.py:32-33` -/
def decH2Inv (V : List (V3 ℝ)) (F : List Tri) : Option (Csr ℝ) := do
  let lsq ← halfedgeLengthsSquared V F
  decH2InvIntrinsic lsq F

end
end Gpy
