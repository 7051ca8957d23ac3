import Verif.Model.SquaredDistance
import Mathlib.Algebra.Order.Floor.Ring

/-! The thin wrappers `copyleft/mesh_boolean.py` with `binding_booleans.cpp`, `decimate.py` with `binding_decimate.cpp`, and `in_element_aabb.py` with `in_element_aabb.cpp` and
`binding_in_element_aabb.cpp`.  libigl is a parameter. -/

set_option autoImplicit false
namespace Gpy

/-- a triangle mesh as a pair of arrays -/
abbrev RawMesh := List (Pt 3) × List (List ℕ)

/-- `igl::MeshBooleanType`, the three values used -/
inductive IglBool
  | union
  | intersect
  | minus
deriving DecidableEq

/-- the dictionary of `mesh_boolean.py:53-59` -/
def booleanCode (name : String) : ℤ :=
  if name = "union" then 0 else if name = "intersection" then 1 else if name = "difference" then 2 else if name = "minus" then 2 else -1

/-- `mesh_boolean.py:53-68` with the three bindings of `binding_booleans.cpp:20-61`; `igl` is `igl::copyleft::cgal::mesh_boolean`, `none` the `UnboundLocalError` of line 68 -/
def meshBoolean (igl : IglBool → RawMesh → RawMesh → RawMesh) (A B : RawMesh) (name : String) : Option RawMesh :=
  let btype := booleanCode name
  if btype = 0 then some (igl .union A B)
  else if btype = 1 then some (igl .intersect A B)
  else if btype = 2 then some (igl .minus A B)
  else none

/-- the four arrays `decimate` returns: vertices, triangles, triangle of origin, vertex of origin -/
structure Decimated where
  U : List (Pt 3)
  G : List (List ℕ)
  I : List ℕ
  J : List ℕ

/-- `decimate.py:59-73` with `binding_decimate.cpp:17-49`; `dec` is `igl::decimate`, `qslim` is `igl::qslim`, `none` the exception of line 68 -/
noncomputable def decimate (dec qslim : RawMesh → ℤ → Decimated) (M : RawMesh) (ratio : ℝ) (numFaces : Option ℤ) (method : String) : Option Decimated :=
  let n := numFaces.getD ⌊ratio * M.2.length⌋                                    -- lines 59-60
  if method = "shortest_edge" then some (dec M n)                                -- lines 63-64
  else if method = "qslim" then some (qslim M n)                                 -- lines 65-66
  else none

/-- `in_element_aabb.cpp:18-36`: the library is called for two and three columns only; otherwise the result stays an empty vector -/
def inElementAabb (igl : (d : ℕ) → List (Pt d) → List (Pt d) → List (List ℕ) → List ℤ) (d : ℕ) (queries V : List (Pt d)) (F : List (List ℕ)) : List ℤ :=
  if d = 3 then igl d queries V F else if d = 2 then igl d queries V F else []

end Gpy
