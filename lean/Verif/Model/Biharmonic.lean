import Verif.Model.Grad

/-! `biharmonic_energy`, `biharmonic_energy_intrinsic` (`mixedfem_zero_neumann` and `hessian`; `curved_hessian` is a call to
libigl and is not modelled). -/

set_option autoImplicit false
namespace Gpy
open Np Finset

noncomputable section

/-- A matrix given by its shape and its entries (the result of sparse matrix products). -/
structure Mat where
  nrows : ℕ
  ncols : ℕ
  get : ℕ → ℕ → ℝ

/-- scipy's `M.power(-1)`: duplicates are summed, then every *stored* entry is inverted; positions that are not stored stay
zero.  `none`: a stored entry is zero (numpy: `inf`). -/
def csrPowerNegOne (M : Csr ℝ) : Option (Csr ℝ) :=
  open Classical in
  if ∀ t ∈ M.trip, M.get t.1 t.2.1 ≠ 0 then
    some ⟨M.nrows, M.ncols, ((M.trip.map (fun t => (t.1, t.2.1))).dedup).map (fun p => (p.1, p.2, 1 / M.get p.1 p.2))⟩
  else none

/-- `biharmonic_energy_intrinsic.py:46-70`, `bc='mixedfem_zero_neumann'`. -/
def biharmonicMixed (lsq : List (Row3 ℝ)) (F : List Tri) (n : Option ℕ) : Option Mat := do
  let n ← nOr n F                                                              -- lines 50-51
  let L ← cotangentLaplacianIntrinsic lsq F (some n)                           -- line 65
  let M ← massmatrixIntrinsic lsq F (some n) .voronoi                          -- line 66
  let Minv ← csrPowerNegOne M                                                  -- line 67
  some ⟨n, n, fun i j => ∑ k ∈ range n, (∑ l ∈ range n, L.get l i * Minv.get l k) * L.get k j⟩  -- line 68

/-- `biharmonic_energy.py:50-51`. -/
def biharmonicEnergy (V : List (V3 ℝ)) (F : List Tri) : Option Mat := do
  let lsq ← halfedgeLengthsSquared V F
  biharmonicMixed lsq F (some V.length)

/-- `grad.py:105-106`: for planar vertices, only the first two of the three blocks of rows are kept. -/
def gradPlanar (V : List (V3 ℝ)) (F : List Tri) : Option (Csr ℝ) := do
  let G ← grad V F
  some ⟨2 * F.length, G.ncols, G.trip.filter (fun t => t.1 < 2 * F.length)⟩

/-- Entry of the matrix `D` of `biharmonic_energy.py:76-81` for `dim = 2`.  `Dblock = [Gi[0:m,:], Gi[m:2m,:]]` has `m` rows and
`2 ni` columns and `D` is block diagonal with two copies of it.  `inner` is the index array `i` of line 63. -/
def hessD (G : Csr ℝ) (m : ℕ) (inner : List ℕ) (r c : ℕ) : ℝ :=
  let ni := inner.length
  if r / m = c / (2 * ni) then G.get (c % (2 * ni) / ni * m + r % m) (inner.getD (c % ni) 0) else 0

/-- `_hessian_energy` (`biharmonic_energy.py:54-85`) for planar meshes (`dim = 2`; the vertices have `z = 0`).
`none` also if the lumped mass of a vertex that is not on the boundary is zero (numpy then produces `inf` and `nan`). -/
def hessianEnergy (V : List (V3 ℝ)) (F : List Tri) : Option Mat := do
  let n := V.length                                                            -- line 58
  let m := F.length                                                            -- line 59
  let b ← boundaryVertices F                                                   -- line 62
  let inner := (List.range n).filter (fun v => !(b.contains v))                -- line 63
  let ni := inner.length
  let lsq ← halfedgeLengthsSquared V F
  let dA ← doubleareaIntrinsic lsq F                                           -- line 66
  let M ← massmatrixIntrinsic lsq F (some n) .voronoi                          -- line 70
  let Md := inner.map (fun v => M.get v v)
  if ∀ x ∈ Md, x ≠ 0 then
    let G ← gradPlanar V F                                                     -- line 75
    let A : ℕ → ℝ := fun r => dA.getD (r % m) 0 / 2                            -- lines 66-68
    let Mi : ℕ → ℝ := fun c => 1 / Md.getD (c % ni) 0                          -- lines 71-73
    let DAG : ℕ → ℕ → ℝ := fun c j => ∑ r ∈ range (2 * m), hessD G m inner r c * A r * G.get r j
    some ⟨n, n, fun i j => ∑ c ∈ range (4 * ni), DAG c i * Mi c * DAG c j⟩      -- line 83
  else none

end
end Gpy
