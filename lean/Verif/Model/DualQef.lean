import Verif.Model.DualGrid
import Mathlib.Data.Matrix.Mul
import Mathlib.LinearAlgebra.Matrix.NonsingularInverse

/-!
# The quadratic problem of a cell: `Cell.cpp:266-455` and `:568-582`

A system `A x = b` is the list of its rows.  (Rows of zeros, which `minimize_qef` leaves when it skips a sphere, do not change `A^T A` and `A^T b` and are left out.)
-/

set_option autoImplicit false
namespace Gpy.Dual

noncomputable section
open Classical

/-- a row of `A` and the entry of `b` -/
abbrev Row := Pt 3 × ℝ

/-- `A.transpose() * A`, `Cell.cpp:308` -/
def ata (rows : List Row) : Matrix (Fin 3) (Fin 3) ℝ := Matrix.of (fun i j => (rows.map (fun r => r.1 i * r.1 j)).sum)

/-- `A.transpose() * b`, `Cell.cpp:309` -/
def atb (rows : List Row) : Pt 3 := fun i => (rows.map (fun r => r.1 i * r.2)).sum

/-- `JacobiSVD` of a 3 by 3 matrix: `U`, the singular values and `V` -/
abbrev Svd := Matrix (Fin 3) (Fin 3) ℝ → Matrix (Fin 3) (Fin 3) ℝ × Pt 3 × Matrix (Fin 3) (Fin 3) ℝ

/-- `getCentroid`, `Cell.cpp:568-582` -/
def centroid (c : Cell) : Pt 3 := if values c.pos = [] then 0 else (1 / ((values c.pos).length : ℝ)) • (values c.pos).sum

/-- `solve_quadratic_system`, `Cell.cpp:306-343` -/
def solveSystem (svd : Svd) (centroid : Pt 3) (threshold : ℝ) (rows : List Row) : Pt 3 :=
  let r := svd (ata rows)
  let sinv : Pt 3 := fun i => if threshold < r.2.1 i then 1 / r.2.1 i else 0
  let pinv := r.2.2 * Matrix.diagonal sinv * r.1.transpose
  let rhs := atb rows - (ata rows).mulVec centroid
  centroid + pinv.mulVec rhs

/-- `update`, `Cell.cpp:266-302` -/
def update (svd : Svd) (c : Cell) : Cell :=
  if c.has = false ∨ values c.pos = [] then { c with vertex := 0, has := false }
  else
    let rows : List Row := (List.range 12).filterMap (fun e => (c.pos e).map (fun p => let n := normalized ((c.nrm e).getD 0); (n, pdot n p)))
    { c with vertex := solveSystem svd (centroid c) (1 / 100) rows, has := true }

/-- the row of a sphere, `Cell.cpp:394-442`; `none`: the row stays zero (`continue` in line 419) -/
def sphereRow (spheres : List Sphere) (weight : ℝ) (prev : Pt 3) (f : Info) : Option Row :=
  let al := if |f.bary.1| < 1 / 10 ^ 6 then 1 else f.bary.1
  let be := if |f.bary.1| < 1 / 10 ^ 6 then 0 else f.bary.2.1
  let ga := if |f.bary.1| < 1 / 10 ^ 6 then 0 else f.bary.2.2
  let t := al • prev + be • f.p + ga • f.fip
  let rho := pnorm (t - f.c)
  let radius := pnorm (f.q - f.c)
  if radius < rho ∧ (spheres.getD f.sphere ⟨0, 1, 0⟩).sign = -1 then none
  else
    let q := if rho < 1 / 10 ^ 9 then f.c else f.c + (radius / rho) • (t - f.c)
    let d := q - f.c
    some ((al * Real.sqrt weight) • d, Real.sqrt weight * (pdot q d - be * pdot f.p d - ga * pdot f.fip d))

/-- the rows of the system of `minimize_qef`, `Cell.cpp:353-449` -/
def qefRows (mu dcWeight sphereWeight : ℝ) (c : Cell) : List Row :=
  (List.range 12).filterMap (fun e => (c.pos e).map (fun p => let n := dcWeight • (c.nrm e).getD 0; (n, pdot n p)))
    ++ c.infos.filterMap (sphereRow c.spheres sphereWeight c.prev)
    ++ (List.finRange 3).map (fun i => (Pi.single i (Real.sqrt mu), Real.sqrt mu * c.prev i))

/-- `minimize_qef`, `Cell.cpp:346-455` -/
def minimizeQef (svd : Svd) (mu dcWeight sphereWeight threshold : ℝ) (c : Cell) : Cell :=
  { c with vertex := solveSystem svd (centroid c) threshold (qefRows mu dcWeight sphereWeight c) }

end

end Gpy.Dual
