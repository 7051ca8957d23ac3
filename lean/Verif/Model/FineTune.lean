import Verif.Model.Feasible
import Mathlib.Analysis.SpecialFunctions.Trigonometric.Inverse

/-!
# `cpp/reach_for_the_arcs/fine_tune_point_cloud_iter.cpp` and the function of `reach_for_the_arcs.py` that calls it

Exact arithmetic.  Parameters: the distances, nearest points and winding numbers of the mesh reconstructed from the points (libigl, `:113-131`), `std::sort`, random numbers, and the
threads.  (Line 250 takes a row of one number for a vector of `dim`; the vector is not used.)
-/

set_option autoImplicit false
namespace Gpy.Arcs
open Classical

noncomputable section

variable {d : ℕ}

/-- what is computed from the reconstructed mesh, `:113-131`: for each sample the squared distance, the nearest point and the winding number; for each row of the cloud the
squared distance and the nearest point -/
structure Recon (d : ℕ) where
  dsq : ℕ → ℝ
  near : ℕ → Pt d
  W : ℕ → ℝ
  dsqC : ℕ → ℝ
  nearC : ℕ → Pt d

/-- `proj_onto_sphere`, `:134-157` -/
def projOnto [NeZero d] (U : ℕ → Pt d) (S : ℕ → ℝ) (W : ℕ → ℝ) (p : Pt d) (i : ℕ) : Pt d :=
  let N := direction (p - U i)
  let sg : ℝ := (if S i < 0 then -1 else 1) * (if W i > 1 / 2 then -1 else 1)
  fun j => U i j + |S i| * (N j * sg)

/-- the rotated vector in the plane, `:187-190`: a rotation by `θ` towards `y` -/
def rotate2 (θ : ℝ) (x y : Pt 2) : Pt 2 :=
  let s : ℝ := if x 0 * y 1 - x 1 * y 0 < 0 then -1 else 1
  ![Real.cos (s * θ) * x 0 - Real.sin (s * θ) * x 1, Real.sin (s * θ) * x 0 + Real.cos (s * θ) * x 1]

/-- the rotated vector in space, `:191-195`: `AngleAxis(θ, (x × y).normalized())*x` -/
def rotate3 (θ : ℝ) (x y : Pt 3) : Pt 3 :=
  let N := normalized (cross x y)
  fun j => Real.cos θ * x j + Real.sin θ * cross N x j + (1 - Real.cos θ) * pdot N x * N j

/-- `R*x`, `:187-196` -/
def rotate : (d : ℕ) → ℝ → Pt d → Pt d → Pt d
  | 2, θ, x, y => rotate2 θ x y
  | 3, θ, x, y => rotate3 θ x y
  | _, _, x, _ => x

/-- the line search, `:185-210`, with `m` iterations left.  The number of the iteration `k`, not the number of the sphere, is passed as the label to ignore: the loop variable
hides the parameter `i`. -/
def lineSearch (t : Tree d) (tol : ℝ) (c x y q : Pt d) : ℕ → ℕ → ℝ → Pt d
  | 0, _, _ => q
  | m + 1, k, θ =>
    let newP : Pt d := fun j => c j + rotate d θ x y j
    if spheresContaining t newP 1 (-tol) k [] = [] then newP else lineSearch t tol c x y q m (k + 1) (θ * (1 / 2))

/-- `move_p_towards_q`, `:159-215`; the workspace plays no role, for the search starts by emptying it -/
def movePQ (U : ℕ → Pt d) (S : ℕ → ℝ) (t : Tree d) (tol lt : ℝ) (p q : Pt d) (i : ℕ) : Pt d :=
  let c := U i
  let r := |S i|
  if pnorm (p - q) < tol ∨ r < tol ∨ pnorm (p - c) < tol then p
  else
    let θ := min (lt / r) (2 * Real.arcsin (min 1 (1 / 2 * pnorm (p - q) / r)))
    lineSearch t tol c (p - c) (q - c) q 20 0 θ

/-- `feasible_inv[i]`, `:103-106`: the numbers and points of the rows of sphere `i` -/
def feasInv (C : List (Row d)) (i : ℕ) : List (ℕ × Pt d) := (C.zipIdx.filter (fun x => x.1.index = i)).map (fun x => (x.2, x.1.point))

/-- `std::min_element`, `:221-228`: the first of the nearest -/
def closest (q : Pt d) (a : ℕ × Pt d) (L : List (ℕ × Pt d)) : ℕ × Pt d := L.foldl (fun b a => if psq (a.2 - q) < psq (b.2 - q) then a else b) a

/-- the existing points that are moved as well, `:279-296`, from number `j` on; `bad`: `d_sq(i) > pow(add_points_shrink*r, 2)` -/
def alsoMove {α : Type} (bad : Bool) (size : ℕ) (maxP : Int) : ℕ → List α → List α
  | _, [] => []
  | j, a :: rest => if ¬ ((j : Int) + 1 < maxP) then [] else if bad ∧ j + 1 ≥ size then [] else a :: alsoMove bad size maxP (j + 1) rest

/-- the points that `loop_move_f` appends for sphere `i`, `:247-331` -/
def movePts [NeZero d] (U : ℕ → Pt d) (S : ℕ → ℝ) (rc : Recon d) (sortC : List (ℕ × Pt d) → List (ℕ × Pt d)) (t : Tree d) (tol lt : ℝ) (maxP : Int) (C : List (Row d)) (i : ℕ) : List (Pt d) :=
  let r := |S i|
  let q := projOnto U S rc.W (rc.near i) i
  if rc.dsq i < (r - tol) ^ 2 ∧ r > tol then
    match feasInv C i with
    | [] => [q]
    | a :: L =>
      movePQ U S t tol lt (closest q a L).2 q i ::
      (if maxP > 1 then
        (alsoMove (decide (rc.dsq i > (4 / 5 * r) ^ 2)) (a :: L).length maxP 0 (sortC (a :: L))).map (fun x => movePQ U S t tol lt x.2 (projOnto U S rc.W (rc.nearC x.1) i) i)
      else [])
  else if rc.dsq i > (r + tol) ^ 2 ∧ r > tol then
    match feasInv C i with
    | [] => [q]
    | a :: L => [movePQ U S t tol lt (closest q a L).2 q i]
  else
    match feasInv C i with
    | [] => [q]
    | a :: L => (a :: L).map Prod.snd

/-- the points and their spheres after the first loop, `:333-357`: every thread appends for the positions it is given, and the lists of the threads are joined -/
def moved [NeZero d] (U : ℕ → Pt d) (S : ℕ → ℝ) (rc : Recon d) (sortC : List (ℕ × Pt d) → List (ℕ × Pt d)) (t : Tree d) (tol lt : ℝ) (maxP : Int) (C : List (Row d)) (sh : List ℕ)
    (slices : List (List ℕ)) : List (Pt d × ℕ) :=
  (slices.map (fun sl => sl.flatMap (fun p => match sh[p]? with
    | some i => (movePts U S rc sortC t tol lt maxP C i).map (fun x => (x, i))
    | none => []))).flatten

/-- `loop_feasible_f`, `:377-424`, for the point number `k` of the list `M` -/
def loopG (U : ℕ → Pt d) (S : ℕ → ℝ) (sort : List ℕ → List ℕ) (t : Tree d) (nS iters : Int) (tol clamp : ℝ) (M : List (Pt d × ℕ)) (st : LState d) (k thread : ℕ) : LState d :=
  match M[k]? with
  | none => st
  | some (_, i) =>
    if clamp ≤ |S i| then st
    else
      let r := if st.feas k then (true, st.points k, st.prims thread) else search U S sort t nS tol i (iters + 1).toNat (st.prims thread) (st.points k)
      { points := Function.update st.points k r.2.1, feas := Function.update st.feas k r.1, prims := Function.update st.prims thread r.2.2 }

/-- the new cloud, `:441-468` -/
def rowsG [NeZero d] (U : ℕ → Pt d) (S : ℕ → ℝ) (M : List (Pt d × ℕ)) (st : LState d) : List (Row d) :=
  (M.zipIdx.filter (fun x => st.feas x.2)).map (fun x =>
    let i := x.1.2
    let N := direction (st.points x.2 - U i)
    ⟨st.points x.2, if S i < 0 then N else -N, i⟩)

/-- what an iteration gets from outside -/
structure IterEnv (d : ℕ) where
  batch : List ℕ
  sh : List ℕ
  slices : List (List ℕ)
  sched : ℕ → List (ℕ × ℕ)

/-- `fine_tune_point_cloud_iter`, `:45-470`; `none`: the batch is empty, see `locallyMakeFeasible` -/
def fineTuneIter [NeZero d] (U : ℕ → Pt d) (S : ℕ → ℝ) (rc : Recon d) (sort : List ℕ → List ℕ) (sortC : List (ℕ × Pt d) → List (ℕ × Pt d)) (e : IterEnv d) (maxP nLocal iters : Int)
    (lt tol clamp : ℝ) (C : List (Row d)) : Option (List (Row d)) :=
  let B := e.batch.map (sphereOf U S)
  (build tol B.length B).map (fun t =>
    let M := moved U S rc sortC t tol lt maxP C e.sh e.slices
    rowsG U S M ((e.sched M.length).foldl (fun st x => loopG U S sort t (nSearch nLocal e.batch) iters tol clamp M st x.1 x.2)
      ⟨fun k => (M[k]?.map Prod.fst).getD 0, fun _ => false, fun _ => []⟩))

/-- the loop of `_fine_tune_point_cloud`, `reach_for_the_arcs.py:670-712`, with `m` iterations left; `recon`: what `point_cloud_to_mesh` and libigl give, `none` when the mesh
is empty; the number of samples is positive -/
def tuneLoop [NeZero d] (U : ℕ → Pt d) (S : ℕ → ℝ) (recon : List (Row d) → Option (Recon d)) (sort : List ℕ → List ℕ) (sortC : List (ℕ × Pt d) → List (ℕ × Pt d)) (e : ℕ → IterEnv d)
    (maxP nLocal iters : Int) (lt tol clamp : ℝ) : ℕ → ℕ → List (Row d) → Option (List (Row d))
  | 0, _, C => some C
  | m + 1, it, C =>
    if C.length < 2 then some C
    else
      match recon C with
      | none => some C
      | some rc => (fineTuneIter U S rc sort sortC (e it) maxP nLocal iters lt tol clamp C).bind (tuneLoop U S recon sort sortC e maxP nLocal iters lt tol clamp m (it + 1))

/-- `_fine_tune_point_cloud(U, S, P, N, f, …)`, `reach_for_the_arcs.py:580-712`; `none`: an assertion fails.  The batches are parameters here, see `batchOf`. -/
def fineTune [NeZero d] (U : ℕ → Pt d) (S : ℕ → ℝ) (recon : List (Row d) → Option (Recon d)) (sort : List ℕ → List ℕ) (sortC : List (ℕ × Pt d) → List (ℕ × Pt d)) (e : ℕ → IterEnv d)
    (tuneIters maxP nLocal iters : Int) (lt tol clamp : ℝ) (C : List (Row d)) : Option (List (Row d)) :=
  if ¬ (d = 2 ∨ d = 3) then none
  else if ¬ (1 ≤ maxP) then none
  else tuneLoop U S recon sort sortC e maxP nLocal iters lt tol clamp tuneIters.toNat 0 C

end

end Gpy.Arcs
