import Verif.Np.Pt
import Mathlib.Analysis.SpecialFunctions.Trigonometric.Inverse
import Mathlib.LinearAlgebra.Matrix.Notation

/-! # `rotation_matrix_from_vectors.py` -/

set_option autoImplicit false
namespace Gpy

noncomputable section

/-- `vec / np.linalg.norm(vec)`, `rotation_matrix_from_vectors.py:38`; `none`: the zero vector (not-a-number in numpy). -/
def unitize {d : ℕ} (x : Pt d) : Option (Pt d) := open Classical in if pnorm x = 0 then none else some (fun i => x i / pnorm x)

/-- `np.cross` of vectors with two entries -/
def cross2 (a b : Pt 2) : ℝ := a 0 * b 1 - a 1 * b 0

/-- `np.cross` of vectors with three entries -/
def cross3 (a b : Pt 3) : Pt 3 := ![a 1 * b 2 - a 2 * b 1, a 2 * b 0 - a 0 * b 2, a 0 * b 1 - a 1 * b 0]

open Classical in
/-- `rotation_matrix_from_vectors(vec1,vec2)` for vectors with two entries, `rotation_matrix_from_vectors.py:38-64`. -/
def rotationMatrix2 (vec1 vec2 : Pt 2) : Option (Matrix (Fin 2) (Fin 2) ℝ) := do
  let a ← unitize vec1
  let b ← unitize vec2
  let v := cross2 a b
  if v ≠ 0 then
    let theta := Real.arccos (pdot a b)                    -- line 47
    let theta := if cross2 a b < 0 then -theta else theta  -- lines 49-50
    some !![Real.cos theta, -Real.sin theta; Real.sin theta, Real.cos theta]
  else
    if pdot a b < 0 then some (-1) else some 1             -- lines 61-64

/-- `kmat`, `rotation_matrix_from_vectors.py:57`. -/
def kmat (v : Pt 3) : Matrix (Fin 3) (Fin 3) ℝ := !![0, -v 2, v 1; v 2, 0, -v 0; -v 1, v 0, 0]

open Classical in
/-- `rotation_matrix_from_vectors(vec1,vec2)` for vectors with three entries, `rotation_matrix_from_vectors.py:38-64`. -/
def rotationMatrix3 (vec1 vec2 : Pt 3) : Option (Matrix (Fin 3) (Fin 3) ℝ) := do
  let a ← unitize vec1
  let b ← unitize vec2
  let v := cross3 a b
  if v ≠ 0 then
    let c := pdot a b
    let s := pnorm v
    some (1 + kmat v + ((1 - c) / s ^ 2) • (kmat v * kmat v))   -- line 58
  else
    if pdot a b < 0 then some (-1) else some 1

end
end Gpy
