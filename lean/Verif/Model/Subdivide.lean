import Verif.Np.Sparse
import Verif.Model.HalfedgeEdgeMap
import Verif.Model.RemoveUnreferenced
import Mathlib.Algebra.Field.Defs

/-! `subdivide.py`. -/

set_option autoImplicit false
namespace Gpy
open Np

variable {K : Type} [Field K] {d : ℕ}

/-- Result of one subdivision step: `Vu`, `Fu`, `S`. -/
structure SubdivOut (K : Type) (d : ℕ) where
  Vu : Option (List (Fin d → K))
  Fu : List Tri
  S : Csr K

/-- `_n(V,F)`, `subdivide.py:277-281`. -/
def subdivN (V : Option (List (Fin d → K))) (F : List Tri) : Option ℕ :=
  match V with
  | none => (npMaxInt (F.flatMap (fun t => [(t.a : Int), (t.b : Int), (t.c : Int)]))).map (fun mx => (mx + 1).toNat)
  | some V => some V.length

/-- The four rows of `Fu` for triangle `t` whose sides 0, 1, 2 have the edge numbers `r` (`subdivide.py:152-156`). A number `n+he_to_E[f,i]`
is never negative because `n ≥ 1` and `he_to_E ≥ -1`. -/
def upChild (n : ℕ) (t : Tri) (r : Row3 Int) (b : Fin 4) : Tri :=
  let m0 := ((n : Int) + r.x0).toNat
  let m1 := ((n : Int) + r.x1).toNat
  let m2 := ((n : Int) + r.x2).toNat
  match b with
  | 0 => ⟨t.a, m2, m1⟩
  | 1 => ⟨m2, t.b, m0⟩
  | 2 => ⟨m1, m0, t.c⟩
  | 3 => ⟨m1, m2, m0⟩

/-- `Fu`, `subdivide.py:152-156`: four blocks of rows, one row per triangle in each. -/
def upFaces (n : ℕ) (F : List Tri) (heToE : List (Row3 Int)) : List Tri :=
  let rows := F.zip heToE
  rows.map (fun q => upChild n q.1 q.2 0) ++ rows.map (fun q => upChild n q.1 q.2 1) ++ rows.map (fun q => upChild n q.1 q.2 2) ++
    rows.map (fun q => upChild n q.1 q.2 3)

/-- `0.5*(V[E[:,0],:] + V[E[:,1],:])`, `subdivide.py:162`; `none` = `IndexError`. -/
def midpoints (V : List (Fin d → K)) (E : List Edge) : Option (List (Fin d → K)) :=
  E.mapM (fun e => (V[e.s]?).bind (fun x => (V[e.t]?).map (fun y => fun c => (1 / 2) * (x c + y c))))

/-- The subdivision matrix of `subdivide.py:166-183`. -/
def upMatrix (n : ℕ) (E : List Edge) : Option (Csr K) :=
  let e := E.length
  let new := (List.range e).map (fun k => n + k)
  csrMatrix (List.replicate n 1 ++ List.replicate e (1 / 2) ++ List.replicate e (1 / 2))
    (List.range n ++ new ++ new) (List.range n ++ E.map (·.s) ++ E.map (·.t)) (n + e) n

/-- `_upsample_triangle_mesh(V,F,True)`, `subdivide.py:137-190`.  The matrix is always built in the model (`return_matrix=True`). -/
def upsampleTriangleMesh (V : Option (List (Fin d → K))) (F : List Tri) : Option (SubdivOut K d × HEMap) := do
  if F.length = 0 then none else                                            -- line 142
  let n ← subdivN V F                                                       -- line 144
  let he ← halfedgeEdgeMap F                                                -- line 146
  let Vu ← match V with
    | none => some none                                                     -- lines 158-159
    | some V =>
      if V.length > 1 then (midpoints V he.E).map (fun N => some (V ++ N))  -- lines 161-163
      else none
  let S ← upMatrix n he.E                                                   -- lines 165-183
  some (⟨Vu, upFaces n F he.heToE, S⟩, he)

/-- `subdivide(V,F,method='upsample',iters=k,return_matrix=True)`, `subdivide.py:47-67`, for triangle meshes.  The product `St*S` is the
function of its entries. -/
def subdivideUpsample : ℕ → List (Fin d → K) → List Tri → Option (List (Fin d → K) × List Tri × (ℕ → ℕ → K))
  | 0, V, F => some (V, F, fun i j => if i = j ∧ i < V.length then 1 else 0)        -- lines 49-51, 60-62
  | k + 1, V, F =>
    (subdivideUpsample k V F).bind (fun r =>                                -- lines 53-56
      (upsampleTriangleMesh (some r.1) r.2.1).bind (fun q =>
        q.1.Vu.map (fun Vu => (Vu, q.1.Fu, fun i j => ∑ l ∈ Finset.range q.1.S.ncols, q.1.S.get i l * r.2.2 l j))))

end Gpy
