import Verif.Model.Generators
import Verif.Spec.Tet

/-! `regular_cube_mesh.py`. -/

set_option autoImplicit false
namespace Gpy
open Np

/-- `idx[k,i,j]`, line 65: `reshape(arange, (nz,nx,ny), order='F')` (the first axis runs fastest). -/
def cubeIdx (nx nz k i j : ℕ) : ℕ := k + nz * (i + nx * j)

/-- `np.reshape(idx[ok:ok+nz-1, oi:oi+nx-1, oj:oj+ny-1], (-1,1))`, lines 68-75, for offsets 0 (`:-1`) or 1 (`1:`): C order, the last axis (y)
runs fastest. -/
def cubeSlice (nx ny nz ok oi oj : ℕ) : List ℕ :=
  (List.range (nz - 1)).flatMap (fun k => (List.range (nx - 1)).flatMap (fun i => (List.range (ny - 1)).map (fun j =>
    cubeIdx nx nz (k + ok) (i + oi) (j + oj))))

noncomputable section
/-- Vertices, lines 64, 66: Fortran order, so `z` runs fastest, then `x`, then `y`. -/
def cubeV (nx ny nz : ℕ) : List (V3 ℝ) :=
  (List.range ny).flatMap (fun j => (List.range nx).flatMap (fun i => (List.range nz).map (fun k =>
    (⟨linspace 0 1 nx i, linspace 0 1 ny j, linspace 0 1 nz k⟩ : V3 ℝ))))
end

/-- `np.hstack` of four columns. -/
def hstack4 (a b c d : List ℕ) : List Tet := (a.zip (b.zip (c.zip d))).map (fun x => ⟨x.1, x.2.1, x.2.2.1, x.2.2.2⟩)

/-- The `type` argument that selects tetrahedra. -/
inductive CubeType
  | five
  | reflectionally
  | rotationally
deriving DecidableEq, Repr

/-- The tetrahedra, lines 68-99. -/
def cubeT (type : CubeType) (nx ny nz : ℕ) : List Tet :=
  let v1 := cubeSlice nx ny nz 0 0 0                                  -- line 68
  let v2 := cubeSlice nx ny nz 0 1 0                                  -- line 69
  let v5 := cubeSlice nx ny nz 1 0 0                                  -- line 70
  let v6 := cubeSlice nx ny nz 1 1 0                                  -- line 71
  let v3 := cubeSlice nx ny nz 0 0 1                                  -- line 72
  let v4 := cubeSlice nx ny nz 0 1 1                                  -- line 73
  let v7 := cubeSlice nx ny nz 1 0 1                                  -- line 74
  let v8 := cubeSlice nx ny nz 1 1 1                                  -- line 75
  match type with
  | .five => hstack4 v5 v3 v2 v1 ++ hstack4 v3 v2 v8 v5 ++ hstack4 v3 v4 v8 v2 ++ hstack4 v3 v8 v7 v5 ++ hstack4 v2 v6 v8 v5      -- lines 78-83
  | .reflectionally => hstack4 v3 v4 v7 v1 ++ hstack4 v4 v5 v7 v1 ++ hstack4 v4 v8 v7 v5 ++ hstack4 v2 v6 v8 v5 ++ hstack4 v4 v2 v8 v5 ++
      hstack4 v4 v2 v5 v1                                             -- lines 85-91
  | .rotationally => hstack4 v1 v3 v7 v8 ++ hstack4 v1 v8 v7 v5 ++ hstack4 v1 v3 v8 v4 ++ hstack4 v1 v4 v8 v2 ++ hstack4 v1 v6 v8 v5 ++
      hstack4 v1 v2 v8 v6                                             -- lines 93-99

/-- The hexahedra (`type='hex'`), line 101: `np.hstack` of eight columns, one row of eight entries per cell. -/
def cubeHex (nx ny nz : ℕ) : List (List ℕ) :=
  let v1 := cubeSlice nx ny nz 0 0 0
  let v2 := cubeSlice nx ny nz 0 1 0
  let v5 := cubeSlice nx ny nz 1 0 0
  let v6 := cubeSlice nx ny nz 1 1 0
  let v3 := cubeSlice nx ny nz 0 0 1
  let v4 := cubeSlice nx ny nz 0 1 1
  let v7 := cubeSlice nx ny nz 1 0 1
  let v8 := cubeSlice nx ny nz 1 1 1
  (v1.zip (v2.zip (v4.zip (v3.zip (v5.zip (v6.zip (v8.zip v7))))))).map (fun x =>
    [x.1, x.2.1, x.2.2.1, x.2.2.2.1, x.2.2.2.2.1, x.2.2.2.2.2.1, x.2.2.2.2.2.2.1, x.2.2.2.2.2.2.2])

end Gpy
