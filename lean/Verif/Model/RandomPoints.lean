import Verif.Model.Intrinsic
import Verif.Np.Pt

/-! # `random_points_on_mesh.py`.  Random numbers are parameters. -/

set_option autoImplicit false
namespace Gpy
open Np

noncomputable section

variable {d : ℕ}

/-- Length of a segment (`random_points_on_mesh.py:94`) or doubled area of a triangle (`random_points_on_mesh.py:109`, `doublearea.py:57-58`,
`halfedge_lengths_squared.py`), given its corners; `none`: other elements. -/
def elemMeasure : List (Pt d) → Option ℝ
  | [a, b] => some (pnorm (b - a))
  | [a, b, c] => some (dblArea ⟨psq (c - b), psq (a - c), psq (b - a)⟩)
  | _ => none

/-- `V[F,:]` -/
def elemCorners (V : List (Pt d)) (F : List (List ℕ)) : Option (List (List (Pt d))) := F.mapM (fun f => f.mapM (fun i => V[i]?))

open Classical in
/-- `w = l / np.sum(l)` and the checks made by `rng.choice(…, p=w)` (`ValueError` if the probabilities are negative or not a number),
`random_points_on_mesh.py:95-97,110-112`. -/
def normalizeWeights (l : List ℝ) : Option (List ℝ) :=
  if l.sum = 0 then none
  else if ∀ x ∈ l.map (· / l.sum), 0 ≤ x then some (l.map (· / l.sum)) else none

/-- The probabilities `w`, `random_points_on_mesh.py:60-61,94-95,109-110`; `none` = exception. -/
def sampleWeights (V : List (Pt d)) (F : List (List ℕ)) (likelihood : Option (List ℝ)) : Option (List ℝ) := do
  let X ← elemCorners V F
  let A ← X.mapM elemMeasure
  let lik := likelihood.getD (List.replicate F.length 1)
  if lik.length = F.length then normalizeWeights (List.zipWith (· * ·) A lik) else none

/-- `np.stack([r, 1.-r], axis=-1)`, `random_points_on_mesh.py:99-100`. -/
def segBary (r : ℝ) : List ℝ := [r, 1 - r]

/-- `random_points_on_mesh.py:114-117`. -/
def triBary (r : ℝ × ℝ) : List ℝ :=
  let r2 := r.1
  let sqrtr := Real.sqrt r.2
  [1 - sqrtr, sqrtr * (1 - r2), r2 * sqrtr]

/-- The weights of a sample in an element of `k` corners. -/
def sampleBary (k : ℕ) (r : ℝ × ℝ) : List ℝ := if k = 2 then segBary r.1 else triBary r

/-- `u[:,0]*V[F[I,0],:] + …`, `random_points_on_mesh.py:77-83`. -/
def combine (u : List ℝ) (X : List (Pt d)) : Pt d := fun j => ((u.zip X).map (fun q => q.1 * q.2 j)).foldl (· + ·) 0

/-- `random_points_on_mesh(V,F,n,…,return_indices=True)`, `random_points_on_mesh.py:60-90`: `I i` is the `i`-th index drawn by `rng.choice`, `r i` the
`i`-th row of uniform numbers (of which polylines use the first); `k = F.shape[1]`. -/
def randomPointsOnMesh (V : List (Pt d)) (F : List (List ℕ)) (k n : ℕ) (likelihood : Option (List ℝ)) (I : ℕ → ℕ) (r : ℕ → ℝ × ℝ) :
    Option (List (Pt d) × List ℕ × List (List ℝ)) :=
  if n = 0 then some ([], [], [])
  else if k = 2 ∨ k = 3 then do
    let _ ← sampleWeights V F likelihood
    let X ← elemCorners V F
    let x ← (List.range n).mapM (fun i => do
      let c ← X[I i]?
      some (combine (sampleBary k (r i)) c))
    some (x, (List.range n).map I, (List.range n).map (fun i => sampleBary k (r i)))
  else none

end
end Gpy
