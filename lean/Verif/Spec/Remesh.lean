import Verif.Model.Remesh
import Verif.Spec.Collapse
import Verif.Spec.Flip
import Verif.Spec.Relax

/-! What is assumed about libigl, and what remeshing must preserve. -/

set_option autoImplicit false
namespace Gpy

/-- The contracts of the libigl functions that the remesher calls. -/
structure LibOk (L : Libigl) : Prop where
  /-- `igl::unique_edge_map` -/
  edgeMap : ∀ V high low F, IsEdgeMap (L.edgeMap V high low F) ∧ (L.edgeMap V high low F).V = V ∧ (L.edgeMap V high low F).high = high ∧
    (L.edgeMap V high low F).low = low ∧ triList (L.edgeMap V high low F).F = F
  /-- `igl::flip_edge` -/
  flip : FlipSpec L.flip
  /-- `igl::decimate` makes some sequence of collapses that the callback allows, and keeps a closed mesh closed -/
  decimate : ∀ C V F, ClosedOriented V.size F → IsDecimated C V F (L.decimate C V F).U (L.decimate C V F).G (L.decimate C V F).I (L.decimate C V F).merges
  /-- one normal per vertex -/
  normals : ∀ V F, (L.normals V F).size = V.size
  /-- the closest point is on the surface -/
  closest : ∀ V F p, F ≠ [] → OnSurface V.val F (L.closest V F p)

/-- Meshes with fixed vertices `0, ..., k-1` and feature edges that the remesher can work on. -/
structure Remeshable (k : ℕ) (V : Arr (V3 ℝ)) (F : List Tri) (fe : List Edge) : Prop where
  closed : ClosedOriented V.size F
  nonempty : F ≠ []
  fixedUsed : ∀ j < k, UsedIn F j
  feEdges : ∀ e ∈ fe, ∃ e' ∈ sides F, Undir e e'
  feOnce : fe.Pairwise (fun e e' => ¬ Undir e e')

/-- `v` is where a feature line ends or branches -/
def IsFeatureCorner (fe : List Edge) (v : ℕ) : Prop := featNbrs fe v ≠ [] ∧ (featNbrs fe v).length ≠ 2

end Gpy
