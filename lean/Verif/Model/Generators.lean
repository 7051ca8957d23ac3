import Verif.Model.Edges
import Verif.Np.Vec3
import Mathlib.Analysis.SpecialFunctions.Trigonometric.Basic

/-! `regular_square_mesh.py`, `cylinder.py`, `cone.py`, `torus.py`. -/

set_option autoImplicit false
namespace Gpy
open Np

/-- `np.reshape(np.arange(a*b),(a,b))`. -/
def reshapeArange (a b : ℕ) : List (List ℕ) := (List.range a).map (fun r => (List.range b).map (fun c => r * b + c))

/-- `np.concatenate((inds, inds[:,0][:,None]), axis=-1)`: the first column is repeated at the end (for a row without entries `inds[:,0]` raises
`IndexError`; the asserts of the callers exclude this). -/
def closeCols (inds : List (List ℕ)) : List (List ℕ) := inds.map (fun row => row ++ row.take 1)

/-- `np.concatenate((inds, inds[0,:][None,:]), axis=0)`: the first row is repeated at the end. -/
def closeRows (inds : List (List ℕ)) : List (List ℕ) := inds ++ inds.take 1

/-- The four slices `i0..i3` and the stacked triangles: `regular_square_mesh.py:48-55`, `cylinder.py:57-64`, `cone.py:57-64`, `torus.py:92-99`. -/
def gridFaces (inds : List (List ℕ)) : List Tri :=
  let i0 := (inds.dropLast.map List.dropLast).flatten                 -- inds[:-1,:-1].ravel()
  let i1 := (inds.dropLast.map List.tail).flatten                     -- inds[:-1,1:].ravel()
  let i2 := (inds.tail.map List.dropLast).flatten                     -- inds[1:,:-1].ravel()
  let i3 := (inds.tail.map List.tail).flatten                         -- inds[1:,1:].ravel()
  ((i0 ++ i0).zip ((i3 ++ i1).zip (i2 ++ i3))).map (fun x => ⟨x.1, x.2.1, x.2.2⟩)

noncomputable section

/-- `np.linspace(a,b,n)[i]`. -/
def linspace (a b : ℝ) (n i : ℕ) : ℝ := a + i * ((b - a) / ((n : ℝ) - 1))

/-- Vertices of `regular_square_mesh(nx,ny)`, `regular_square_mesh.py:42-43`: row-major, `x` runs fastest. -/
def squareMeshV (nx ny : ℕ) : List (ℝ × ℝ) :=
  (List.range ny).flatMap (fun r => (List.range nx).map (fun c => (linspace (-1) 1 nx c, linspace (-1) 1 ny r)))

/-- Vertices of `cylinder(nx,nz)`, `cylinder.py:46-51`. -/
def cylinderV (nx nz : ℕ) : List (V3 ℝ) :=
  (List.range nz).flatMap (fun r : ℕ => (List.range nx).map (fun c : ℕ =>
    (⟨Real.cos (c * (2 * Real.pi / nx)), Real.sin (c * (2 * Real.pi / nx)), linspace 0 1 nz r⟩ : V3 ℝ)))

/-- Vertices of `torus(nR,nr,R,r)`, `torus.py:80-85`. -/
def torusV (nR nr : ℕ) (R r : ℝ) : List (V3 ℝ) :=
  (List.range nr).flatMap (fun i : ℕ => (List.range nR).map (fun j : ℕ =>
    let th : ℝ := i * (2 * Real.pi / nr)
    let ph : ℝ := j * (2 * Real.pi / nR)
    (⟨(R + r * Real.cos th) * Real.cos ph, (R + r * Real.cos th) * Real.sin ph, r * Real.sin th⟩ : V3 ℝ)))

/-- Vertices of `cone(nx,nz)`, `cone.py:42-51` (line 42 subtracts one from `nz`). -/
def coneV (nx nz : ℕ) : List (V3 ℝ) :=
  (List.range (nz - 1)).flatMap (fun r : ℕ => (List.range nx).map (fun c : ℕ =>
    (⟨Real.cos (c * (2 * Real.pi / nx)) * (1 - linspace 0 1 nz r), Real.sin (c * (2 * Real.pi / nx)) * (1 - linspace 0 1 nz r),
      linspace 0 1 nz r⟩ : V3 ℝ))) ++ [⟨0, 0, 1⟩]

end

/-- Triangles of `regular_square_mesh(nx,ny)`, `regular_square_mesh.py:47-55`. -/
def squareMeshF (nx ny : ℕ) : List Tri := gridFaces (reshapeArange ny nx)

/-- Triangles of `cylinder(nx,nz)`, `cylinder.py:43-44,55-64`; `none` = failed assertion. -/
def cylinderF (nx nz : ℕ) : Option (List Tri) :=
  if 3 ≤ nx ∧ 2 ≤ nz then some (gridFaces (closeCols (reshapeArange nz nx))) else none

/-- Triangles of `torus(nR,nr)`, `torus.py:74-75,89-99`; `none` = failed assertion. -/
def torusF (nR nr : ℕ) : Option (List Tri) :=
  if 3 ≤ nR ∧ 3 ≤ nr then some (gridFaces (closeRows (closeCols (reshapeArange nr nR)))) else none

/-- Triangles of `cone(nx,nz)`, `cone.py:38-39,55-71`; `none` = failed assertion. -/
def coneF (nx nz : ℕ) : Option (List Tri) :=
  if 3 ≤ nx ∧ 2 ≤ nz then
    let m := nz - 1                                                   -- line 42
    some (gridFaces (closeCols (reshapeArange m nx)) ++
      ((List.range nx).map (fun k => nx * (m - 1) + k)).zipWith (fun a b => (⟨a, b, nx * m⟩ : Tri))
        ((List.range (nx - 1)).map (fun k => nx * (m - 1) + 1 + k) ++ [nx * (m - 1)]))          -- lines 65-71
  else none

end Gpy
