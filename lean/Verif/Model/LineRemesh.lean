import Verif.Model.RemoveUnreferenced
import Verif.Np.Pt
import Mathlib.Data.Fin.VecNotation

/-!
# The remesher of curves in `reach_for_the_spheres.py:865-977`

A curve is a list of vertices and a list of edges (pairs of vertex numbers).  Vertex numbers in edges are taken to be in range (each step keeps that, `Ok` in Proofs/LineRemesh); the entries of
`feature` are integers, as `remove_unreferenced` may give `-1`.
-/

set_option autoImplicit false
namespace Gpy.LineRemesh
open Np Classical

noncomputable section

/-- position of a vertex -/
def pos (V : List (Pt 2)) (v : ℕ) : Pt 2 := V.getD v 0

/-- `np.linalg.norm(V[F[:,1]]-V[F[:,0]],axis=-1)`, `:895`, `:912`, `:952` -/
def len (V : List (Pt 2)) (e : ℕ × ℕ) : ℝ := pnorm (pos V e.2 - pos V e.1)

/-- `0.5*(V[a,:]+V[b,:])`, `:897`, `:927`, `:970` -/
def midpoint (x y : Pt 2) : Pt 2 := fun j => 1 / 2 * (x j + y j)

/-- `_line_bdry`, `:865-869` -/
def lineBdry (F : List (ℕ × ℕ)) : List ℕ :=
  npUnique ((F.map (·.1)).filter (fun v => v ∉ F.map (·.2)) ++ (F.map (·.2)).filter (fun v => v ∉ F.map (·.1)))

/-- `_split_line`, `:886-904`: the changed old edges, the new vertices and the new edges, with `k` the number of the next new vertex -/
def splitGo (V : List (Pt 2)) (high : ℝ) : ℕ → List (ℕ × ℕ) → List (ℕ × ℕ) × List (Pt 2) × List (ℕ × ℕ)
  | _, [] => ([], [], [])
  | k, e :: F =>
    if high < len V e then
      let r := splitGo V high (k + 1) F
      ((e.1, k) :: r.1, midpoint (pos V e.1) (pos V e.2) :: r.2.1, (k, e.2) :: r.2.2)
    else
      let r := splitGo V high k F
      (e :: r.1, r.2.1, r.2.2)

/-- a curve with feature vertices -/
structure Line where
  V : List (Pt 2)
  F : List (ℕ × ℕ)
  feature : List Int

/-- `_split_line`, `:886-904` -/
def splitLine (L : Line) (high : ℝ) : Line :=
  let r := splitGo L.V high L.V.length L.F
  { L with V := L.V ++ r.2.1, F := r.1 ++ r.2.2 }

/-- `is_feature[v]` after `is_feature[feature] = True`, `:908-909`, `:942-943`, `:949-950`: negative numbers count from the end -/
def isFeature (L : Line) (v : ℕ) : Prop := ((v : ℕ) : Int) ∈ L.feature ∨ ((v : ℕ) : Int) - L.V.length ∈ L.feature

/-- the edge to collapse, `:912-922`; `order` is the argument of `argsort` of the lengths -/
def pickEdge (order : List ℝ → List ℕ) (L : Line) (low : ℝ) : Option ℕ :=
  let l := L.F.map (len L.V)
  ((order l).takeWhile (fun i => l.getD i 0 < low)).find? (fun i => ¬ isFeature L (L.F.getD i (0, 0)).1 ∨ ¬ isFeature L (L.F.getD i (0, 0)).2)

/-- the vertex that goes and the one that stays, and the vertices after it, `:924-934` -/
def chooseEnd (L : Line) (e : ℕ × ℕ) : ℕ × ℕ × List (Pt 2) :=
  if ¬ isFeature L e.1 ∧ ¬ isFeature L e.2 then (e.2, e.1, L.V.set e.1 (midpoint (pos L.V e.2) (pos L.V e.1)))
  else if isFeature L e.1 then (e.2, e.1, L.V)
  else (e.1, e.2, L.V)

/-- the rows of an array with two columns, from its entries -/
def pairUp : List Int → List (ℕ × ℕ)
  | a :: b :: l => (a.toNat, b.toNat) :: pairUp l
  | _ => []

/-- `F[F==remove] = keep` for one row, `:937` -/
def relabel (remove keep : ℕ) (e : ℕ × ℕ) : ℕ × ℕ := (if e.1 = remove then keep else e.1, if e.2 = remove then keep else e.2)

/-- the entries of an array of edges -/
def flat (F : List (ℕ × ℕ)) : List Int := F.flatMap (fun e => [((e.1 : ℕ) : Int), ((e.2 : ℕ) : Int)])

/-- collapse of edge number `c`, `:924-943`; `none`: an exception (`remove_unreferenced` refuses an empty array) -/
def collapseAt (L : Line) (c : ℕ) : Option Line :=
  let r := chooseEnd L (L.F.getD c (0, 0))
  (removeUnreferenced (some r.2.2) (flat ((L.F.map (relabel r.1 r.2.1)).eraseIdx c))).bind (fun o =>
    (npTake o.2.2.1 L.feature).bind (fun feature =>
      match o.1 with
      | none => none
      | some V => some ⟨V, pairUp o.2.1, feature⟩))

/-- a run of the loop `:911-943`, cut off after a number of rounds -/
inductive Res
  | running (L : Line)
  | raised
  | done (L : Line)

/-- `_collapse_line`, `:907-945` -/
def collapseLine (order : List ℝ → List ℕ) (low : ℝ) : ℕ → Line → Res
  | 0, L => .running L
  | n + 1, L =>
    match pickEdge order L low with
    | none => .done L
    | some c =>
      match collapseAt L c with
      | none => .raised
      | some L' => collapseLine order low n L'

/-- `_normals(V,F,unit_norm=True)*l`, `:952-956`, of one edge; `none`: not a number -/
def edgeNormal (V : List (Pt 2)) (e : ℕ × ℕ) : Option (Pt 2) :=
  let d := pos V e.2 - pos V e.1
  let l := len V e
  if l = 0 then none else some ![d 1 / l * l, -(d 0 / l) * l]

/-- `N[i]`, `:954-957`: of several edges that start (end) in `i`, the last one counts; `none`: not finite -/
def vertexNormal (L : Line) (i : ℕ) : Option (Pt 2) :=
  let part := fun e? : Option (ℕ × ℕ) => match e? with | none => some (0 : Pt 2) | some e => edgeNormal L.V e
  match part (L.F.filter (·.1 = i)).getLast?, part (L.F.filter (·.2 = i)).getLast? with
  | some x, some y => if pnorm (x + y) = 0 then none else some (fun j => (x j + y j) / pnorm (x + y))
  | _, _ => none

/-- `adj[i,0]`, `adj[i,1]`, `:959-961`; `none`: -1 -/
def nextV (L : Line) (i : ℕ) : Option ℕ := ((L.F.filter (·.1 = i)).getLast?).map (·.2)
def prevV (L : Line) (i : ℕ) : Option ℕ := ((L.F.filter (·.2 = i)).getLast?).map (·.1)

/-- `V[i,:] -= NN@(V[i,:]-q)`, `:971-972`, with `NN` the identity minus the outer product of `N` with itself -/
def slide (x q N : Pt 2) : Pt 2 := fun j => x j - ((x j - q j) - N j * (N 0 * (x 0 - q 0) + N 1 * (x 1 - q 1)))

/-- the body of the loop `:963-972`; `L` is the curve before the loop, `V` the vertices so far -/
def relaxVertex (L : Line) (V : List (Pt 2)) (i : ℕ) : List (Pt 2) :=
  if isFeature L i then V
  else match vertexNormal L i, nextV L i, prevV L i with
    | some N, some a, some b => V.set i (slide (pos V i) (midpoint (pos V a) (pos V b)) N)
    | _, _, _ => V

/-- the result of `squared_distance` for one point: the edge and the barycentric coordinates -/
structure Foot where
  I : ℕ
  b0 : ℝ
  b1 : ℝ

/-- `V0[F0[I,:],:]*b[...,None]` summed, `:975` -/
def footPoint (V0 : List (Pt 2)) (F0 : List (ℕ × ℕ)) (f : Foot) : Pt 2 :=
  fun j => pos V0 (F0.getD f.I (0, 0)).1 j * f.b0 + pos V0 (F0.getD f.I (0, 0)).2 j * f.b1

/-- `_relaxation_line`, `:948-977`; `proj` is `squared_distance` (C25, C26) -/
def relaxLine (proj : List (Pt 2) → List (ℕ × ℕ) → Pt 2 → Foot) (L : Line) (V0 : List (Pt 2)) (F0 : List (ℕ × ℕ)) : Line :=
  { L with V := ((List.range L.V.length).foldl (relaxVertex L) L.V).map (fun p => footPoint V0 F0 (proj V0 F0 p)) }

/-- the loop of `_remesh_line`, `:877-882`; `none`: an exception, or a collapse that does not end within the number of edges (it does, `C111_collapse_ends`) -/
def remeshLoop (order : List ℝ → List ℕ) (proj : List (Pt 2) → List (ℕ × ℕ) → Pt 2 → Foot) (high low : ℝ) (project : Bool) :
    ℕ → Line → List (Pt 2) → List (ℕ × ℕ) → Option Line
  | 0, L, _, _ => some L
  | n + 1, L, V0, F0 =>
    let L1 := splitLine L high
    match collapseLine order low (L1.F.length + 1) L1 with
    | .done L2 =>
      let V0' := if project then V0 else L2.V
      let F0' := if project then F0 else L2.F
      remeshLoop order proj high low project n (relaxLine proj L2 V0' F0') V0' F0'
    | _ => none

/-- `_remesh_line`, `:872-883`, with the numbers of the feature vertices at the end -/
def remeshLine (order : List ℝ → List ℕ) (proj : List (Pt 2) → List (ℕ × ℕ) → Pt 2 → Foot) (V : List (Pt 2)) (F : List (ℕ × ℕ)) (i : ℕ) (h : ℝ) (project : Bool) (feature : List Int) :
    Option Line :=
  remeshLoop order proj (14 / 10 * h) (7 / 10 * h) project i ⟨V, F, npUnique (feature ++ (lineBdry F).map (fun k : ℕ => (k : Int)))⟩ V F

end

end Gpy.LineRemesh
