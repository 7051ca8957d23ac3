import Verif.Model.CubeMesh

/-! `marching_cubes.py` and `binding_marching_cubes.cpp`.  `igl::marching_cubes` is a parameter. -/

set_option autoImplicit false
namespace Gpy

/-- `igl::marching_cubes(S, GV, nx, ny, nz, isovalue, V, F)`, a parameter: vertices and triangles -/
abbrev McLib := List ℝ → List (V3 ℝ) → ℕ → ℕ → ℕ → ℝ → List (V3 ℝ) × List (List ℕ)

/-- `_marching_cubes_cpp_impl`, `binding_marching_cubes.cpp:16-22`; its fourth parameter is named `nz` and its fifth `ny` -/
def mcBinding (mc : McLib) (S : List ℝ) (GV : List (V3 ℝ)) (nx nz ny : ℕ) (iso : ℝ) : List (V3 ℝ) × List (List ℕ) := mc S GV nx ny nz iso

/-- `marching_cubes`, `marching_cubes.py:52` -/
def marchingCubes (mc : McLib) (S : List ℝ) (GV : List (V3 ℝ)) (nx ny nz : ℕ) (iso : ℝ) : List (V3 ℝ) × List (List ℕ) := mcBinding mc S GV nx ny nz iso

end Gpy
