import Verif.Model.ReachSpheres

/-!
# `reach_for_the_spheres`: when a run is over
-/

set_option autoImplicit false
namespace Gpy.Spheres

variable {M B : Type}

/-- the loop has returned or raised an exception -/
def Finished : Run M B → Prop
  | .running _ => False
  | _ => True

end Gpy.Spheres
