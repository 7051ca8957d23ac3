import Verif.Np.Pt
import Mathlib.Data.Fintype.Defs

/-!
# `cpp/reach_for_the_arcs/sAABB.cpp`: a tree of boxes over spheres

Exact arithmetic.  For `dim == 2` lines 118-121 write a third number behind vectors of two; the model ignores this.  Not modelled: the k-nearest queries (no caller).
-/

set_option autoImplicit false
namespace Gpy.Arcs
open Classical

variable {d : ℕ}

/-- an entry of `centers_vec`, `radii_vec`, `indices_vec`, `sAABB.cpp:80-85` -/
structure Sph (d : ℕ) where
  c : Pt d
  r : ℝ
  idx : ℕ

/-- the nodes, `sAABB.h:17-24`.  A leaf holds its sphere, instead of the position of the sphere in the arrays; the box of a leaf is never used. -/
inductive Tree (d : ℕ) where
  | leaf (s : Sph d)
  | node (lo hi : Pt d) (left right : Tree d)

/-- the number of nodes -/
def Tree.size : Tree d → ℕ
  | .leaf _ => 1
  | .node _ _ l r => l.size + r.size + 1

/-- the box of a nonempty group, `sAABB.cpp:117-130` -/
noncomputable def boxLo (tol : ℝ) (s : Sph d) (L : List (Sph d)) : Pt d := fun j => L.foldl (fun a t => min a (t.c j - (t.r + tol))) (s.c j - (s.r + tol))
noncomputable def boxHi (tol : ℝ) (s : Sph d) (L : List (Sph d)) : Pt d := fun j => L.foldl (fun a t => max a (t.c j + (t.r + tol))) (s.c j + (s.r + tol))

/-- `split_axis`, `sAABB.cpp:135-144` -/
noncomputable def splitAxis [NeZero d] (sz : Pt d) : Fin d := (List.finRange d).foldl (fun a j => if sz a < sz j then j else a) 0

/-- `median`, `sAABB.cpp:148-153`; `none` = read out of range -/
noncomputable def median (L : List ℝ) : Option ℝ := (L.insertionSort (· ≤ ·))[L.length / 2]?

/-- the two groups, `sAABB.cpp:155-188` -/
noncomputable def halves (ax : Fin d) (m : ℝ) (L : List (Sph d)) : List (Sph d) × List (Sph d) :=
  L.foldl (fun g s =>
    if s.c ax < m then (g.1 ++ [s], g.2)
    else if s.c ax = m then (if g.1.length < g.2.length then (g.1 ++ [s], g.2) else (g.1, g.2 ++ [s]))
    else (g.1, g.2 ++ [s])) ([], [])

/-- `init_node`, `sAABB.cpp:95-200`.  `none`: a read out of range (`centers` is empty), or the recursion is deeper than `fuel`; `Proofs.SphereTree.build_some` shows that
neither happens when `fuel` is the number of spheres. -/
noncomputable def build [NeZero d] (tol : ℝ) : ℕ → List (Sph d) → Option (Tree d)
  | _, [] => none
  | _, [s] => some (.leaf s)
  | 0, _ :: _ :: _ => none
  | fuel + 1, s :: t :: L =>
    let lo := boxLo tol s (t :: L)
    let hi := boxHi tol s (t :: L)
    let ax := splitAxis (fun j => hi j - lo j)
    (median ((s :: t :: L).map (fun x => x.c ax))).bind (fun m =>
      let g := halves ax m (s :: t :: L)
      (build tol fuel g.1).bind (fun l => (build tol fuel g.2).map (fun r => .node lo hi l r)))

/-- `m_box.contains(p)` (closed) -/
def InBox (lo hi p : Pt d) : Prop := ∀ j, lo j ≤ p j ∧ p j ≤ hi j

/-- `signed_distance_to_sphere`, `sAABB.cpp:33-39` -/
noncomputable def sphereDist (s : Sph d) (p : Pt d) : ℝ := pnorm (p - s.c) - s.r

/-- the loop of `get_spheres_containing`, `sAABB.cpp:225-258` -/
noncomputable def bfs (k : ℕ) (tol : ℝ) (ignore : ℕ) (p : Pt d) : List (Tree d) → List ℕ → List ℕ
  | [], out => out
  | .leaf s :: q, out =>
    if s.idx = ignore then bfs k tol ignore p q out
    else
      let out' := if sphereDist s p < tol then out ++ [s.idx] else out
      if out'.length ≥ k then out' else bfs k tol ignore p q out'
  | .node lo hi l r :: q, out =>
    if InBox lo hi p then bfs k tol ignore p (q ++ (if q.length % 2 = 0 then [l, r] else [r, l])) out
    else bfs k tol ignore p q out
termination_by q => (q.map Tree.size).sum
decreasing_by
  all_goals simp only [List.map_cons, List.sum_cons, List.map_append, List.sum_append, Tree.size]
  all_goals (try split)
  all_goals simp <;> omega

/-- `get_spheres_containing(p, k, tol, ignore, primitives)`, `sAABB.cpp:203-259`: the new contents of `primitives` (which stay as they are when `k < 1`) -/
noncomputable def spheresContaining (t : Tree d) (p : Pt d) (k : Int) (tol : ℝ) (ignore : ℕ) (prims : List ℕ) : List ℕ :=
  if k < 1 then prims else bfs k.toNat tol ignore p [t] []

end Gpy.Arcs
