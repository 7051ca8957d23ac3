import Verif.Model.Winding

/-! `unsigned_distance.py` with `use_cpp=False`. -/

set_option autoImplicit false
namespace Gpy
open Np

noncomputable section

/-- the root of a squared distance -/
def rootOf (s : CpState) : Option (ℝ × Int × List ℝ) :=
  match s.best with
  | ⊤ => none
  | (sqrD : ℝ) => some (Real.sqrt sqrD, s.elem, s.lmb)                     -- line 47

/-- `unsigned_distance.py:39-49`: one entry `(dist, I, lmbd)` per query point.  The box tree is built by `squared_distance(...,use_aabb=True)`. -/
def unsignedDistance {d : ℕ} [NeZero d] (argsort : List ℝ → List ℕ) (Q V : List (Pt d)) (F : Option (List (List ℕ))) (fuel : ℕ) : Option (List (ℝ × Int × List ℝ)) := do
  let F ← match F with
    | some F => some F
    | none => if d = 2 then some (edgeIndices V.length true) else none    -- lines 40-43
  let T ← initializeAabbtree argsort V F none none fuel
  Q.mapM (fun q => do
    let s ← squaredDistanceAabb q V F T fuel                              -- line 44
    rootOf s)

end
end Gpy
