import Verif.Model.Subdivide

/-! `_loop_triangle_mesh`, `subdivide.py:192-274`. -/

set_option autoImplicit false
namespace Gpy
open Np

variable {K : Type} [Field K] {d : ℕ}

/-- entry of a row of length three at a possibly negative column -/
def col3 {α : Type} (a b c : α) (i : Int) : Option α := npGet? [a, b, c] i

/-- What the code reads at the halfedge `q=(f,i)`: `he[f,i]`, `he_to_E[f,i]` and `F[f,i]`. -/
structure HeRec where
  h : Edge
  e : ℕ
  c : ℕ

/-- `he[q0,q1]`, `he_to_E[q0,q1]`, `F[q0,q1]` (`subdivide.py:220-246`). `he_to_E` has no negative entry (`halfedge_edge_map.py:107`), hence
`toNat`. -/
def heRec (F : List Tri) (m : HEMap) (q : Int × Int) : Option HeRec := do
  let hs ← npGet? m.he q.1
  let h ← col3 hs.h0 hs.h1 hs.h2 q.2
  let es ← npGet? m.heToE q.1
  let e ← col3 es.x0 es.x1 es.x2 q.2
  let t ← npGet? F q.1
  let c ← col3 t.a t.b t.c q.2
  some ⟨h, e.toNat, c⟩

/-- `subdivide.py:213-215`.  `n_adj[v]`: the number of ends of edges that are `v`, with `0` replaced by `-1`. -/
def nAdj (E : List Edge) (v : ℕ) : Int :=
  let c := (E.flatMap (fun e => [e.s, e.t])).count v
  if c = 0 then -1 else (c : Int)

/-- `β`, `subdivide.py:215`.  `none` stands for `nan`: the model does not follow it further. -/
def loopBeta (k : Int) : Option K := if k < 3 then none else if k = 3 then some (3 / 16) else some (3 / 8 / (k : K))

/-- `_loop_triangle_mesh(V,F,True)` for a given `V`, `subdivide.py:192-274`.  `none` = an exception, or a `nan` entry of the matrix. -/
def loopTriangleMesh (V : List (Fin d → K)) (F : List Tri) : Option (SubdivOut K d) := do
  let n := V.length                                                         -- line 198
  let (up, m) ← upsampleTriangleMesh (K := K) (d := d) none F               -- lines 200-201
  let e := m.E.length                                                       -- line 202
  let bMask := fun (q : (Int × Int) × (Int × Int)) => q.2.1 == -1 || q.2.2 == -1     -- line 205
  let bdryHe := (m.EToHe.filter bMask).map (·.1)                            -- line 206
  let intHe := (m.EToHe.filter (fun q => !bMask q)).map (·.1) ++ (m.EToHe.filter (fun q => !bMask q)).map (·.2)   -- line 207
  let bVerts := (npMask m.E (m.EToHe.map bMask)).flatMap (fun h => [h.s, h.t])       -- lines 208-209
  if bVerts.any (fun v => decide (n ≤ v)) then none else                    -- IndexError, line 209
  let iV := fun v => !(bVerts.contains v)
  let T ← ((List.range F.length).flatMap (fun f : ℕ => [((f : Int), (0 : Int)), ((f : Int), 1), ((f : Int), 2)])).mapM (heRec F m)
  if T.any (fun r => decide (n ≤ r.h.s)) then none else                     -- IndexError, line 210
  let T := T.filter (fun r => iV r.h.s)                                     -- line 210
  let B ← bdryHe.mapM (heRec F m)
  let I ← intHe.mapM (heRec F m)
  let bT ← T.mapM (fun r => loopBeta (K := K) (nAdj m.E r.h.s))             -- lines 213-215, 260-262
  let i := B.map (fun r => n + r.e) ++ B.map (fun r => n + r.e)             -- lines 218-232
    ++ B.map (fun r => r.h.s) ++ B.map (fun r => r.h.s) ++ B.map (fun r => r.h.t)
    ++ I.map (fun r => n + r.e) ++ I.map (fun r => n + r.e)
    ++ T.map (fun r => r.h.s) ++ T.map (fun r => r.h.s)
  let j := B.map (fun r => r.h.s) ++ B.map (fun r => r.h.t)                 -- lines 233-247
    ++ B.map (fun r => r.h.s) ++ B.map (fun r => r.h.t) ++ B.map (fun r => r.h.s)
    ++ I.map (fun r => r.h.s) ++ I.map (fun r => r.c)
    ++ T.map (fun r => r.h.s) ++ T.map (fun r => r.h.t)
  let k := B.map (fun _ => (1 / 2 : K)) ++ B.map (fun _ => (1 / 2 : K))     -- lines 248-263
    ++ B.map (fun _ => (3 / 4 : K)) ++ B.map (fun _ => (1 / 8 : K)) ++ B.map (fun _ => (1 / 8 : K))
    ++ I.map (fun _ => (3 / 8 : K)) ++ I.map (fun _ => (1 / 8 : K))
    ++ List.zipWith (fun r b => 1 / ((nAdj m.E r.h.s : Int) : K) - b) T bT ++ bT
  let S ← csrMatrix k i j (n + e) n                                         -- line 264
  let Vu := (List.range (n + e)).map (fun row c => S.mulVec (fun l => (V.getD l 0) c) row)    -- line 269
  some ⟨some Vu, up.Fu, S⟩

/-- `subdivide(V,F,method='loop',iters=k,return_matrix=True)`, `subdivide.py:47-67`, for triangle meshes.  The product `St*S` is the function of
its entries, as in `subdivideUpsample`. -/
def subdivideLoop : ℕ → List (Fin d → K) → List Tri → Option (List (Fin d → K) × List Tri × (ℕ → ℕ → K))
  | 0, V, F => some (V, F, fun i j => if i = j ∧ i < V.length then 1 else 0)        -- lines 49-51, 60-62
  | k + 1, V, F =>
    (subdivideLoop k V F).bind (fun r =>                                    -- lines 53-56
      (loopTriangleMesh r.1 r.2.1).bind (fun q =>
        q.Vu.map (fun Vu => (Vu, q.Fu, fun i j => ∑ l ∈ Finset.range q.S.ncols, q.S.get i l * r.2.2 l j))))

end Gpy
