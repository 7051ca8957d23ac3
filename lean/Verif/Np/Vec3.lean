import Mathlib.Algebra.Field.Defs
import Mathlib.Algebra.Order.Ring.Defs
import Mathlib.Tactic.Ring
import Mathlib.Tactic.Linarith
import Mathlib.Tactic.FieldSimp

/-! Points and vectors with three coordinates. -/

namespace Gpy

/-- A row of an `(n,3)` array of coordinates. -/
@[ext] structure V3 (K : Type) where
  x : K
  y : K
  z : K
deriving DecidableEq, Repr

namespace V3
variable {K : Type}

instance [Add K] : Add (V3 K) := ⟨fun a b => ⟨a.x + b.x, a.y + b.y, a.z + b.z⟩⟩
instance [Sub K] : Sub (V3 K) := ⟨fun a b => ⟨a.x - b.x, a.y - b.y, a.z - b.z⟩⟩
instance [Neg K] : Neg (V3 K) := ⟨fun a => ⟨-a.x, -a.y, -a.z⟩⟩
instance [Zero K] : Zero (V3 K) := ⟨⟨0, 0, 0⟩⟩
instance [Mul K] : SMul K (V3 K) := ⟨fun s a => ⟨s * a.x, s * a.y, s * a.z⟩⟩

@[simp] theorem add_x [Add K] (a b : V3 K) : (a + b).x = a.x + b.x := rfl
@[simp] theorem add_y [Add K] (a b : V3 K) : (a + b).y = a.y + b.y := rfl
@[simp] theorem add_z [Add K] (a b : V3 K) : (a + b).z = a.z + b.z := rfl
@[simp] theorem sub_x [Sub K] (a b : V3 K) : (a - b).x = a.x - b.x := rfl
@[simp] theorem sub_y [Sub K] (a b : V3 K) : (a - b).y = a.y - b.y := rfl
@[simp] theorem sub_z [Sub K] (a b : V3 K) : (a - b).z = a.z - b.z := rfl
@[simp] theorem neg_x [Neg K] (a : V3 K) : (-a).x = -a.x := rfl
@[simp] theorem neg_y [Neg K] (a : V3 K) : (-a).y = -a.y := rfl
@[simp] theorem neg_z [Neg K] (a : V3 K) : (-a).z = -a.z := rfl
@[simp] theorem zero_x [Zero K] : (0 : V3 K).x = 0 := rfl
@[simp] theorem zero_y [Zero K] : (0 : V3 K).y = 0 := rfl
@[simp] theorem zero_z [Zero K] : (0 : V3 K).z = 0 := rfl
@[simp] theorem smul_x [Mul K] (s : K) (a : V3 K) : (s • a).x = s * a.x := rfl
@[simp] theorem smul_y [Mul K] (s : K) (a : V3 K) : (s • a).y = s * a.y := rfl
@[simp] theorem smul_z [Mul K] (s : K) (a : V3 K) : (s • a).z = s * a.z := rfl

/-- `np.dot` of two rows. -/
def dot [Add K] [Mul K] (a b : V3 K) : K := a.x * b.x + a.y * b.y + a.z * b.z

/-- `np.cross` of two rows. -/
def cross [Sub K] [Mul K] (a b : V3 K) : V3 K :=
  ⟨a.y * b.z - a.z * b.y, a.z * b.x - a.x * b.z, a.x * b.y - a.y * b.x⟩

/-- `np.sum(a**2)`. -/
def normSq [Add K] [Mul K] (a : V3 K) : K := dot a a

end V3
end Gpy
