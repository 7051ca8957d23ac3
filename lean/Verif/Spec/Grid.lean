import Verif.Np.Vec3
import Mathlib.Data.Real.Basic

/-! Regular grids: node `j` of a grid of `gs` nodes, spacing `h`, first node `c`, numbered with the first coordinate running fastest (the
numbering in the docstrings of `fd_interpolate.py`, `fd_partial_derivative.py`). -/

set_option autoImplicit false
namespace Gpy.Spec

noncomputable section

/-- position of node `j` of a 2D grid -/
def node2 (gs : ℕ × ℕ) (h c : ℝ × ℝ) (j : ℕ) : ℝ × ℝ := (c.1 + h.1 * ((j % gs.1 : ℕ) : ℝ), c.2 + h.2 * ((j / gs.1 : ℕ) : ℝ))

/-- position of node `j` of a 3D grid -/
def node3 (gs : ℕ × ℕ × ℕ) (h c : V3 ℝ) (j : ℕ) : V3 ℝ :=
  ⟨c.x + h.x * ((j % gs.1 : ℕ) : ℝ), c.y + h.y * ((j / gs.1 % gs.2.1 : ℕ) : ℝ), c.z + h.z * ((j / gs.1 / gs.2.1 : ℕ) : ℝ)⟩

/-- `p` is between the first and the last of `n` nodes `c, c+h, …` -/
def InAxis (p h c : ℝ) (n : ℕ) : Prop := c ≤ p ∧ p ≤ c + ((n : ℝ) - 1) * h

/-- the piecewise linear hat function, the interpolation kernel of (bi-, tri-) linear interpolation -/
def hat (t : ℝ) : ℝ := max 0 (1 - |t|)

end
end Gpy.Spec
