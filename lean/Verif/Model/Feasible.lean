import Verif.Model.SphereTree
import Verif.Model.Resolve

/-!
# `cpp/reach_for_the_arcs/locally_make_feasible.cpp` and the function of `reach_for_the_arcs.py` that calls it

Exact arithmetic.  Parameters: the nearest neighbour search (nanoflann), `std::sort`, the random numbers, and the way in which the iterations of the loop are given to threads.
-/

set_option autoImplicit false
namespace Gpy.Arcs
open Classical

noncomputable section

variable {d : ℕ}

/-- a sphere of the batch, `locally_make_feasible.cpp:49-62` and `sAABB.cpp:80-85` -/
def sphereOf (U : ℕ → Pt d) (S : ℕ → ℝ) (j : ℕ) : Sph d := ⟨U j, |S j|, j⟩

/-- a direction, `:111-118` and `:188-195` -/
def direction [NeZero d] (v : Pt d) : Pt d := if pnorm v > eps then fun j => v j / pnorm v else fun j => if j = 0 then 1 else 0

/-- `n_search`, `:63` -/
def nSearch (nLocal : Int) (batch : List ℕ) : Int := min nLocal batch.length

/-- the loop over `iter`, `:122-160`, with `m` iterations left: whether the point is feasible, the point, and the contents of `prims[thread_id]` -/
def search (U : ℕ → Pt d) (S : ℕ → ℝ) (sort : List ℕ → List ℕ) (t : Tree d) (nS : Int) (tol : ℝ) (i : ℕ) : ℕ → List ℕ → Pt d → Bool × Pt d × List ℕ
  | 0, prims, x => (false, x, prims)
  | m + 1, prims, x =>
    let prims1 := spheresContaining t x 1 (-tol) i prims
    if prims1 = [] then (true, x, prims1)
    else if m = 0 then (false, x, prims1)
    else
      let prims2 := sort (spheresContaining t x nS tol i prims1)
      search U S sort t nS tol i m prims2 (resolve d x (U i) |S i| (prims2.map (fun j => (U j, |S j|))))

/-- what the iterations write: `points`, `feasible_bool`, and `prims` of each thread -/
structure LState (d : ℕ) where
  points : ℕ → Pt d
  feas : ℕ → Bool
  prims : ℕ → List ℕ

/-- `loop_f`, `:93-164`, for `i = shuffled_indices[p_i]` -/
def loopF [NeZero d] (U : ℕ → Pt d) (S : ℕ → ℝ) (near : Pt d → Pt d) (sort : List ℕ → List ℕ) (t : Tree d) (nS iters : Int) (tol clamp : ℝ) (st : LState d) (i thread : ℕ) : LState d :=
  if clamp ≤ |S i| then { st with feas := Function.update st.feas i false }
  else
    let N := direction (near (U i) - U i)
    let x : Pt d := fun j => U i j + |S i| * N j
    let r := if st.feas i then (true, x, st.prims thread) else search U S sort t nS tol i (iters + 1).toNat (st.prims thread) x
    { points := Function.update st.points i r.2.1, feas := Function.update st.feas i r.1, prims := Function.update st.prims thread r.2.2 }

/-- a row of the output -/
structure Row (d : ℕ) where
  point : Pt d
  normal : Pt d
  index : ℕ

/-- the output, `:177-203` -/
def rows [NeZero d] (U : ℕ → Pt d) (S : ℕ → ℝ) (n : ℕ) (st : LState d) : List (Row d) :=
  ((List.range n).filter (fun i => st.feas i)).map (fun i =>
    let N := direction (st.points i - U i)
    ⟨st.points i, if S i < 0 then N else -N, i⟩)

/-- `locally_make_feasible`, `:19-206`: `sh` is the shuffled list of indices, `sched` the order in which the iterations run and the thread of each of them.  (`:167-175`;
iterations of different threads that overlap in time touch different places only.)  `none`: the batch is empty (`:52-55` then take all spheres, but `sAABB.cpp:83` reads their labels
from the empty batch; the Python code never does this). -/
def locallyMakeFeasible [NeZero d] (n : ℕ) (U : ℕ → Pt d) (S : ℕ → ℝ) (near : Pt d → Pt d) (sort : List ℕ → List ℕ) (batch sh : List ℕ) (nLocal iters : Int) (tol clamp : ℝ)
    (sched : List (ℕ × ℕ)) : Option (List (Row d)) :=
  let B := batch.map (sphereOf U S)
  (build tol B.length B).map (fun t =>
    rows U S n (sched.foldl (fun st x => match sh[x.1]? with
      | some i => loopF U S near sort t (nSearch nLocal batch) iters tol clamp st i x.2
      | none => st) ⟨fun _ => 0, fun _ => false, fun _ => []⟩))

/-- what comes from outside: the random numbers (`rng.choice(n_sdf, batch_size)`, `rng.shuffle(batch)`, the shuffle of the C++ code), the nearest neighbour search, `std::sort` and
the threads -/
structure Env (d : ℕ) where
  choice : ℕ → ℕ → List ℕ
  shuffle : List ℕ → List ℕ
  shuffle' : List ℕ → List ℕ
  near : List (Pt d) → Pt d → Pt d
  sort : List ℕ → List ℕ
  sched : ℕ → List (ℕ × ℕ)

/-- the batch, `reach_for_the_arcs.py:561-565` (and `:672-676`) -/
def batchOf (choice : ℕ → ℕ → List ℕ) (shuffle : List ℕ → List ℕ) (n : ℕ) (bs : Int) : List ℕ :=
  if 0 < bs ∧ bs < n then choice n bs.toNat else shuffle (List.range n)

/-- `_locally_make_feasible(U, S, P, …)`, `reach_for_the_arcs.py:488-577`; `none`: an assertion fails -/
def pyFeasible [NeZero d] (env : Env d) (n : ℕ) (U : ℕ → Pt d) (S : ℕ → ℝ) (P : List (Pt d)) (nLocal iters bs : Int) (tol clamp : ℝ) : Option (List (Row d)) :=
  if n = 0 ∨ ¬ (∀ i < n, ∀ j, 0 ≤ U i j ∧ U i j ≤ 1) then none
  else if P = [] then none
  else if ¬ (d = 2 ∨ d = 3) then none
  else locallyMakeFeasible n U S (env.near P) env.sort (batchOf env.choice env.shuffle n bs) (env.shuffle' (List.range n)) nLocal iters tol clamp (env.sched n)

end

end Gpy.Arcs
