import Verif.Spec.Quadtree
import Verif.Model.QuadOperators

/-! What the differential operators on a quadtree should do. -/

set_option autoImplicit false
namespace Gpy

variable {K : Type} [Field K] {dim : ℕ}

/-- Row `i` of the product of a matrix with `n` columns and a vector. -/
def rowApply (M : ℕ → ℕ → K) (n : ℕ) (u : ℕ → K) (i : ℕ) : K := ((List.range n).map (fun k => M i k * u k)).sum

/-- The values of a function at the points `stored_at`. -/
def sampled (pts : List (Fin dim → K)) (f : (Fin dim → K) → K) : ℕ → K := fun k => ((pts[k]?).map f).getD 0

/-- An affine function of the plane. -/
def affine2 (a : K) (b : Fin 2 → K) (p : Fin 2 → K) : K := a + b 0 * p 0 + b 1 * p 1

/-- A quadratic function of the plane. -/
def quadratic2 (a : K) (b : Fin 2 → K) (g00 g01 g11 : K) (p : Fin 2 → K) : K :=
  affine2 a b p + g00 * p 0 * p 0 + g01 * p 0 * p 1 + g11 * p 1 * p 1

end Gpy
