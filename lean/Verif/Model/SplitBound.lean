import Verif.Model.SplitEdges
import Verif.Spec.EdgeMap

/-! The C++ remesher: `src/cpp/remesher/split_edges_until_bound.cpp`.

`igl::unique_edge_map` (line 55) is library code; the model starts with the arrays it returns. -/

set_option autoImplicit false
namespace Gpy

/-- `split_edges_until_bound.cpp:35-39`, `61-64`, `94-98`: the row that the map `feature_edge_row` stores for the unordered edge `e`; later rows overwrite
earlier ones.  (Vertex numbers below `2^31`, for which `edge_key` is injective, are assumed.) -/
def featRow (fe : List Edge) (e : Edge) : Option ℕ :=
  (List.range fe.length).foldl (fun o j => if Undir e (fe.getD j ⟨0, 0⟩) then some j else o) none

open Classical in
/-- `split_edges_until_bound.cpp:69-83`: is edge `i` to be split?  (Distances are computed exactly.) -/
noncomputable def splitWanted (S : SplitState) (feature : List ℕ) (fe : List Edge) (i : ℕ) : Bool :=
  let e := edgeRow S.uE i
  let isFeatureEdge := (featRow fe e).isSome
  let blocked := (decide (e.s ∈ feature) || decide (e.t ∈ feature)) && !isFeatureEdge
  !blocked && decide ((S.uE2E.val i).length = 2) &&
    decide (Real.sqrt (V3.normSq (S.V.val e.s - S.V.val e.t)) > (S.high.val e.s + S.high.val e.t) / 2)

/-- `split_edges_until_bound.cpp:72-84` -/
noncomputable def edgesToSplit (S : SplitState) (feature : List ℕ) (fe : List Edge) : List ℕ :=
  (List.range S.uE.rows).filter (splitWanted S feature fe)

/-- `split_edges_until_bound.cpp:112-121`: the update of the feature edges.  `uE` are the edges before the split. -/
def updateFeat (uE : IMat) (n : ℕ) (fe : List Edge) (todo : List ℕ) : List Edge :=
  todo.zipIdx.foldl (fun L p => match featRow fe (edgeRow uE p.1) with
    | none => L
    | some row => L.set row ⟨(edgeRow uE p.1).s, n + p.2⟩ ++ [⟨n + p.2, (edgeRow uE p.1).t⟩]) fe

/-- `split_edges_until_bound.cpp:42-133`.  The loop runs once (line 129). -/
noncomputable def splitUntilBound (S : SplitState) (feature : List ℕ) (fe : List Edge) : Option (SplitState × List Edge) :=
  let todo := edgesToSplit S feature fe
  if todo.length = 0 then some (S, fe)
  else (splitEdges S todo).map (fun S' => (S', updateFeat S.uE S.V.size fe todo))

end Gpy
