import Verif.Np.Pt
import Mathlib.Data.Matrix.Mul

/-! `linear_blend_skinning.py`. -/

set_option autoImplicit false
namespace Gpy
open Matrix

/-- one pass of the loop, `linear_blend_skinning.py:46-49`; `none` = `IndexError` (`Rs` or `Ts` has no entry `i`).  `V` and `Ws` have one row per vertex. -/
noncomputable def lbsStep {n m d : ℕ} (V : Matrix (Fin n) (Fin d) ℝ) (Ws : Matrix (Fin n) (Fin m) ℝ) (Rs : List (Matrix (Fin d) (Fin d) ℝ)) (Ts : List (Pt d))
    (U : Matrix (Fin n) (Fin d) ℝ) (i : Fin m) : Option (Matrix (Fin n) (Fin d) ℝ) := do
  let R ← Rs[i.val]?
  let T ← Ts[i.val]?
  let rotations := V * Rᵀ                                                                        -- line 46
  some (Matrix.of fun v k => U v k + Ws v i * (rotations v k + T k))                              -- lines 47-49

/-- `linear_blend_skinning.py:43-51` -/
noncomputable def linearBlendSkinning {n m d : ℕ} (V : Matrix (Fin n) (Fin d) ℝ) (Ws : Matrix (Fin n) (Fin m) ℝ) (Rs : List (Matrix (Fin d) (Fin d) ℝ))
    (Ts : List (Pt d)) : Option (Matrix (Fin n) (Fin d) ℝ) :=
  (List.finRange m).foldlM (lbsStep V Ws Rs Ts) 0                                               -- lines 43-45

end Gpy
