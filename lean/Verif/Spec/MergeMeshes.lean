import Verif.Model.MergeMeshes

/-!
# Merging two meshes
-/

set_option autoImplicit false
namespace Gpy.Merge

variable {K : Type} [Field K] [LinearOrder K] [IsStrictOrderedRing K] [FloorRing K]

/-- `v` is a corner of a side that belongs to one triangle only -/
def OnBoundary (F : List Tri) (v : ℕ) : Prop := ∃ e ∈ sides F, incid F e = 1 ∧ (v = e.s ∨ v = e.t)

/-- two points that differ by at most `ε` in each coordinate -/
def Near (ε : K) (x y : List K) : Prop := y.length = x.length ∧ ∀ (c : ℕ) (s t : K), x[c]? = some s → y[c]? = some t → |s - t| ≤ |ε|

/-- the points are the same after rounding to the grid of size `ε` -/
def SameCell (ε : K) (x y : List K) : Prop := x.map (fun t => npRound (t / ε)) = y.map (fun t => npRound (t / ε))

/-- `V, F` is the mesh `W, G` (entries of the faces) after merging vertices: `σ` says what becomes of each vertex.  Every face stays, with its corners in place up to `ε`; vertices with `free`
stay exactly in place and are merged with nothing; the others are merged exactly when they are in the same cell. -/
structure Merged (ε : K) (free : ℕ → Prop) (W : List (List K)) (G : List ℕ) (V : List (List K)) (F : List ℕ) (σ : ℕ → ℕ) : Prop where
  faces : F = G.map σ
  place : ∀ (w : ℕ) (x : List K), W[w]? = some x → ∃ y, V[σ w]? = some y ∧ Near ε x y
  exact : ∀ (w : ℕ), w < W.length → free w → V[σ w]? = W[w]?
  merged : ∀ (w w' : ℕ) (x x' : List K), W[w]? = some x → W[w']? = some x' → (σ w = σ w' ↔ w = w' ∨ (¬ free w ∧ ¬ free w' ∧ SameCell ε x x'))

end Gpy.Merge
