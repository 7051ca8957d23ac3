import Verif.Model.SplitEdges
import Verif.Spec.EdgeMap
import Mathlib.Data.List.Dedup

/-! The C++ remesher: `src/cpp/remesher/tangential_relaxation.cpp`.

`igl::adjacency_list` (line 59), `igl::per_vertex_normals` (line 81) and `igl::point_mesh_squared_distance` (line 111) are library code: `adjListF` is the documented result
of the first one; the normals `N` and the map `proj` to the closest point of the mesh `V0,F0` are parameters.  Out-of-range accesses are `none`. -/

set_option autoImplicit false
namespace Gpy

noncomputable section

/-- `tangential_relaxation.cpp:31-42` -/
def closestOnSeg (p a b : V3 ℝ) : V3 ℝ :=
  let ab := b - a
  let denom := V3.dot ab ab
  if denom ≤ 0 then a else
  let t := V3.dot (p - a) ab / denom
  let t := if t < 0 then 0 else t
  let t := if t > 1 then 1 else t
  a + t • ab

/-- `igl::adjacency_list(F,A)`: for every vertex the other ends of its edges, without repetition. -/
def adjListF (F : List Tri) : Arr (List ℕ) where
  size := (F.map (fun t => max t.a (max t.b t.c))).foldl max 0 + 1
  val v := (((sides F).filter (fun e => e.s = v)).map (·.t) ++ ((sides F).filter (fun e => e.t = v)).map (·.s)).dedup

/-- `tangential_relaxation.cpp:63-67` -/
def pinFlags (n : ℕ) (feature : List ℕ) : Option (Arr Bool) := feature.foldlM (fun a v => a.wr v true) ⟨n, fun _ => false⟩

/-- `tangential_relaxation.cpp:73-79` -/
def featAdj (n : ℕ) (fe : List Edge) : Option (Arr (List ℕ)) :=
  fe.foldlM (fun A e => do
    let l ← A.rd e.s
    let A ← A.wr e.s (l ++ [e.t])
    let l ← A.rd e.t
    A.wr e.t (l ++ [e.s])) ⟨n, fun _ => []⟩

/-- what is not changed by the pass -/
structure RelaxIn where
  pin : Arr Bool
  fadj : Arr (List ℕ)
  A : Arr (List ℕ)
  N : Arr (V3 ℝ)
  lam : Arr ℝ

/-- Body of the first loop, `tangential_relaxation.cpp:86-108`. -/
def smoothStep (R : RelaxIn) (V : Arr (V3 ℝ)) (i : ℕ) : Option (Arr (V3 ℝ)) := do
  let l ← R.fadj.rd i
  let ex ← R.pin.rd i
  if ex = true ∨ (l.length ≥ 1 ∧ l.length ≠ 2) then some V else                       -- lines 87-91
  if l.length = 2 then do                                                             -- lines 92-97
    let a ← l[0]?
    let b ← l[1]?
    let x ← V.rd a
    let y ← V.rd b
    V.wr i ((1 / 2 : ℝ) • (x + y))
  else do
    let L ← R.A.rd i                                                                  -- lines 99-107
    let pts ← L.mapM V.rd
    let q := pts.foldl (fun q x => q + (1 / (L.length : ℝ)) • x) 0
    let nrm ← R.N.rd i
    let lam ← R.lam.rd i
    let v ← V.rd i
    V.wr i (v - lam • ((v - q) - (V3.dot nrm (v - q)) • nrm))

/-- `tangential_relaxation.cpp:128-134`: body of the loop over the frozen feature segments; `best` starts as infinity (`none`). -/
def closestStep (featV0 : Arr (V3 ℝ)) (p : V3 ℝ) (s : Option ℝ × V3 ℝ) (e : Edge) : Option (Option ℝ × V3 ℝ) := do
  let a ← featV0.rd e.s
  let b ← featV0.rd e.t
  let c := closestOnSeg p a b
  let d := V3.normSq (p - c)
  match s.1 with
  | none => some (some d, c)
  | some best => if d < best then some (some d, c) else some s

/-- `tangential_relaxation.cpp:125-135`: the closest point on the frozen feature segments. -/
def closestOnFeature (featV0 : Arr (V3 ℝ)) (featE0 : List Edge) (p : V3 ℝ) : Option (V3 ℝ) :=
  (featE0.foldlM (closestStep featV0 p) (none, p)).map (·.2)

/-- Body of the second loop, `tangential_relaxation.cpp:113-142`. `Vfix` are the vertices before, `Vp` the projected ones. -/
def projStep (R : RelaxIn) (Vfix Vp featV0 : Arr (V3 ℝ)) (featE0 : List Edge) (project : Bool) (V : Arr (V3 ℝ)) (i : ℕ) : Option (Arr (V3 ℝ)) := do
  let l ← R.fadj.rd i
  let ex ← R.pin.rd i
  if ex = true ∨ (l.length ≥ 1 ∧ l.length ≠ 2) then do                                -- lines 116-120
    let x ← Vfix.rd i
    V.wr i x
  else if l.length = 2 then                                                           -- lines 121-139
    if project = true ∧ featE0.length > 0 then do
      let p ← V.rd i
      let c ← closestOnFeature featV0 featE0 p
      V.wr i c
    else some V
  else do                                                                             -- line 141
    let x ← Vp.rd i
    V.wr i x

/-- `tangential_relaxation.cpp:45-143`.  `N` are the vertex normals of the mesh, `proj` sends a point to its closest point on the mesh `V0,F0`. -/
def relax (V : Arr (V3 ℝ)) (F : List Tri) (feature : List ℕ) (fe : List Edge) (N : Arr (V3 ℝ)) (proj : V3 ℝ → V3 ℝ) (lam : Arr ℝ)
    (featV0 : Arr (V3 ℝ)) (featE0 : List Edge) (project : Bool) : Option (Arr (V3 ℝ)) := do
  let pin ← pinFlags V.size feature
  let fadj ← featAdj V.size fe
  let R : RelaxIn := ⟨pin, fadj, adjListF F, N, lam⟩
  let W ← (List.range V.size).foldlM (smoothStep R) V
  (List.range V.size).foldlM (projStep R V ⟨W.size, fun i => proj (W.val i)⟩ featV0 featE0 project) W

end
end Gpy
