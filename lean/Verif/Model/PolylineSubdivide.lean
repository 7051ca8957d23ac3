import Verif.Model.Subdivide

/-! `subdivide(V,F)` for polylines, `subdivide.py:47-67, 94-134`. -/

set_option autoImplicit false
namespace Gpy
open Np

variable {K : Type} [Field K] {d : ℕ}

/-- `Fu`, `subdivide.py:103-106`: the rows of `np.block([[F[:,0],new],[new,F[:,1]]]).transpose()`, where `new[i] = n+i`. -/
def lineChildren (n : ℕ) (F : List Edge) : List Edge :=
  F.zipIdx.map (fun p => (⟨p.1.s, n + p.2⟩ : Edge)) ++ F.zipIdx.map (fun p => (⟨n + p.2, p.1.t⟩ : Edge))

/-- `_upsample_polyline(V,F,True)`, `subdivide.py:94-134`, for a given `V` (with `V=None` line 97 raises).  The formula for the new vertices (line 111) and
the entries of the matrix (lines 114-130) are those of `_upsample_triangle_mesh` with `F` in place of the list of edges.  `none` = an exception. -/
def upsamplePolyline (V : List (Fin d → K)) (F : List Edge) : Option (List (Fin d → K) × List Edge × Csr K) := do
  if V.length ≤ 1 then none else                                            -- line 97
  if F.length = 0 then none else                                            -- line 99
  let N ← midpoints V F                                                     -- line 111
  let S ← upMatrix V.length F                                               -- lines 114-130
  some (V ++ N, lineChildren V.length F, S)

/-- `subdivide(V,F,method='upsample',iters=k,return_matrix=True)`, `subdivide.py:47-67`, for polylines.  The product `St*S` is the function of its entries. -/
def subdividePolyline : ℕ → List (Fin d → K) → List Edge → Option (List (Fin d → K) × List Edge × (ℕ → ℕ → K))
  | 0, V, F => some (V, F, fun i j => if i = j ∧ i < V.length then 1 else 0)        -- lines 49-51, 60-62
  | k + 1, V, F =>
    (subdividePolyline k V F).bind (fun r =>                                -- lines 53-56
      (upsamplePolyline r.1 r.2.1).map (fun q =>
        (q.1, q.2.1, fun i j => ∑ l ∈ Finset.range q.2.2.ncols, q.2.2.get i l * r.2.2 l j)))

end Gpy
