import Verif.Model.SplitBound
import Verif.Model.Equalize
import Verif.Model.Relax
import Verif.Model.Collapse
import Verif.Spec.EdgeMap

/-! The C++ remesher: `src/cpp/remesher/remesh_botsch.cpp` (the loop over the four passes).

Library functions of libigl are parameters (`Libigl`); `Spec/Remesh.lean` says what is assumed about them. -/

set_option autoImplicit false
namespace Gpy

/-- what `igl::decimate` returns, and the list of collapses that the callbacks have recorded -/
structure Decimation where
  U : Arr (V3 ℝ)
  G : List Tri
  I : List ℕ
  merges : List (ℕ × ℕ)

/-- The functions of libigl that the passes call: `igl::unique_edge_map` (`split_edges_until_bound.cpp:55`, `equalize_valences.cpp:42`), `igl::flip_edge` (`equalize_valences.cpp:167`), `igl::decimate` (`collapse_edges.cpp:287`), `igl::per_vertex_normals` and the closest points of `igl::point_mesh_squared_distance` (`tangential_relaxation.cpp:81,111`). -/
structure Libigl where
  edgeMap : Arr (V3 ℝ) → Arr ℝ → Arr ℝ → List Tri → SplitState
  flip : SplitState → ℕ → Option SplitState
  decimate : CollapseIn → Arr (V3 ℝ) → List Tri → Decimation
  normals : Arr (V3 ℝ) → List Tri → Arr (V3 ℝ)
  closest : Arr (V3 ℝ) → List Tri → V3 ℝ → V3 ℝ

/-- the variables of the loop -/
structure RMesh where
  V : Arr (V3 ℝ)
  F : List Tri
  feature : List ℕ
  fe : List Edge
  high : Arr ℝ
  low : Arr ℝ
  V0 : Arr (V3 ℝ)
  F0 : List Tri

noncomputable section

/-- `remesh_botsch.cpp:30`: the splitting pass -/
def splitPass (L : Libigl) (M : RMesh) : Option RMesh := do
  let (S, fe) ← splitUntilBound (L.edgeMap M.V M.high M.low M.F) M.feature M.fe
  some { M with V := S.V, F := triList S.F, high := S.high, low := S.low, fe := fe }

/-- `remesh_botsch.cpp:31`: the collapsing pass, `collapse_edges.cpp:52-349` -/
def collapsePass (L : Libigl) (M : RMesh) : Option RMesh := do
  let D := L.decimate ⟨(adjListF M.F).val, M.high.val, M.low.val, M.feature, M.fe⟩ M.V M.F
  let out ← afterDecimate M.V.size D.I D.merges M.high M.low M.feature M.fe
  some { M with V := D.U, F := D.G, feature := out.feature, fe := out.fe, high := out.high, low := out.low }

/-- `remesh_botsch.cpp:32`: the flipping pass -/
def flipPass (L : Libigl) (M : RMesh) : Option RMesh := do
  let S ← equalizeValences L.flip (L.edgeMap M.V M.high M.low M.F) M.feature M.fe
  some { M with V := S.V, F := triList S.F }

/-- `remesh_botsch.cpp:33-39`: the relaxation pass, with all damping factors one -/
def relaxPass (L : Libigl) (project : Bool) (featV0 : Arr (V3 ℝ)) (featE0 : List Edge) (M : RMesh) : Option RMesh := do
  let M := if project then M else { M with V0 := M.V, F0 := M.F }
  let V ← relax M.V M.F M.feature M.fe (L.normals M.V M.F) (L.closest M.V0 M.F0) ⟨M.V.size, fun _ => 1⟩ featV0 featE0 project
  some { M with V := V }

/-- `remesh_botsch.cpp:29-40`: body of the loop -/
def remeshIter (L : Libigl) (project : Bool) (featV0 : Arr (V3 ℝ)) (featE0 : List Edge) (M : RMesh) : Option RMesh := do
  let M ← splitPass L M
  let M ← collapsePass L M
  let M ← flipPass L M
  relaxPass L project featV0 featE0 M

/-- `remesh_botsch.cpp:14-41` (the overload that the binding calls, lines 94-99, only fills in `target` with a constant). -/
def remeshBotschCpp (L : Libigl) (V : Arr (V3 ℝ)) (F : List Tri) (target : Arr ℝ) (iters : ℕ) (feature : List ℕ) (fe : List Edge) (project : Bool) : Option RMesh :=
  (List.range iters).foldlM (fun M _ => remeshIter L project V fe M)
    ⟨V, F, feature, fe, ⟨target.size, fun i => 1.4 * target.val i⟩, ⟨target.size, fun i => 0.7 * target.val i⟩, V, F⟩

end
end Gpy
