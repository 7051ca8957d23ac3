import Verif.Np.Pt
import Mathlib.Algebra.Order.Floor.Ring
import Mathlib.Data.Rat.Floor
import Mathlib.Data.Fin.Tuple.Basic

/-!
# `cpp/reach_for_the_arcs/outside_points_from_rasterization.cpp` (without a GPU) and the function of `reach_for_the_arcs.py` that calls it

Exact arithmetic.  Memory that is not initialised is a parameter (`junk…`).
-/

set_option autoImplicit false
namespace Gpy.Raster
open Classical

noncomputable section

variable {d : ℕ}

/-- the order of nested loops, the last coordinate outermost (`:646-648` and others; in the plane the loop over `iz` has one step) -/
def nested : (d : ℕ) → (Fin d → List ℕ) → List (Fin d → ℕ)
  | 0, _ => [Fin.elim0]
  | d + 1, L => (L (Fin.last d)).flatMap (fun z => (nested d (fun j => L j.castSucc)).map (fun c => Fin.snoc (α := fun _ => ℕ) c z))

/-- loops from `lo` to `hi` (exclusive) -/
def cells (lo hi : Fin d → ℕ) : List (Fin d → ℕ) := nested d (fun j => List.range' (lo j) (hi j - lo j))

/-- `grid_emb`, `:604-611` -/
def emb (n : ℕ) (c : Fin d → ℕ) : ℕ := ∑ j, c j * n ^ (j : ℕ)

/-- `minCoeff()` and `maxCoeff()` of a column with `m` entries -/
def minOver (m : ℕ) (f : ℕ → ℝ) : ℝ := (List.range m).foldl (fun a i => min a (f i)) (f 0)
def maxOver (m : ℕ) (f : ℕ → ℝ) : ℝ := (List.range m).foldl (fun a i => max a (f i)) (f 0)

/-- `bbmin` and `bbmax`, `:568-579` -/
def bbLo (n m : ℕ) (U : ℕ → Pt d) (r : ℕ → ℝ) (j : Fin d) : ℕ := (max ⌊minOver m (fun i => U i j - r i) * n - 1⌋ 0).toNat
def bbHi (n m : ℕ) (U : ℕ → Pt d) (r : ℕ → ℝ) (j : Fin d) : ℕ := (max (min ⌈maxOver m (fun i => U i j + r i) * n + 1⌉ n) ((bbLo n m U r j : Int) + 1)).toNat

/-- `to_grid_coords`, `:593-602` -/
def gridCoord (n : ℕ) (p : Pt d) (j : Fin d) : Int := if ⌊n * p j⌋ ≥ n then n - 1 else ⌊n * p j⌋

/-- `box_lo` and `box_hi`, `:614-637` -/
def boxLo (n : ℕ) (p : Pt d) (s : ℝ) (j : Fin d) : ℕ := (max 0 (gridCoord n p j - ⌈s * n⌉ - 1)).toNat
def boxHi (n : ℕ) (p : Pt d) (s : ℝ) (j : Fin d) : ℕ := (min (n : Int) (gridCoord n p j + ⌈s * n⌉ + 1)).toNat

/-- `grid_pts`, `:639-655`: the random numbers `rnd` are used in the order of the loops -/
def gridPts (n : ℕ) (lo hi : Fin d → ℕ) (rnd : ℕ → ℝ) (junk : ℕ → Pt d) : ℕ → Pt d :=
  (cells lo hi).zipIdx.foldl (fun a x => Function.update a (emb n x.1) (fun j => (x.1 j + rnd (x.2 * d + j)) / n)) junk

/-- `in_sphere`, `:670-673` -/
def InSphere (n : ℕ) (pts : ℕ → Pt d) (c : Fin d → ℕ) (p : Pt d) (s : ℝ) : Prop := psq (pts (emb n c) - p) ≤ 19 / 20 * s ^ 2

/-- `rasterize_onto_grid`, `:678-694` -/
def rasterize (n : ℕ) (pts : ℕ → Pt d) (p : Pt d) (s : ℝ) (g : ℕ → Bool) : ℕ → Bool :=
  (cells (boxLo n p s) (boxHi n p s)).foldl (fun g c => if InSphere n pts c p s then (if g (emb n c) = false then Function.update g (emb n c) true else g) else g) g

/-- the grids of the threads, `:697-722`; `asg` lists the spheres that each thread handles -/
def grids (n : ℕ) (U : ℕ → Pt d) (r : ℕ → ℝ) (pts : ℕ → Pt d) (asg : List (List ℕ)) : List (ℕ → Bool) :=
  asg.map (fun l => l.foldl (fun g i => rasterize n pts (U i) (r i) g) (fun _ => false))

/-- `grid`, `:723-747` -/
def joined (n : ℕ) (lo hi : Fin d → ℕ) (gs : List (ℕ → Bool)) (junk : ℕ → Bool) : ℕ → Bool :=
  (cells lo hi).foldl (fun g c => Function.update g (emb n c) (gs.any (fun h => h (emb n c)))) junk

/-- the narrow band, `:749-791`: free cells without occupied neighbours become occupied -/
def narrowed (n : ℕ) (lo hi : Fin d → ℕ) (g : ℕ → Bool) (junk : ℕ → Bool) : ℕ → Bool :=
  (cells lo hi).foldl (fun h c => Function.update h (emb n c)
    (if g (emb n c) then true
    else (nested d (fun j => [max (lo j) (c j - 1), c j, min (hi j - 1) (c j + 1)])).all (fun c' => !g (emb n c')))) junk

/-- `outside_points_from_rasterization_cpu`, `:537-812`, for `m` spheres -/
def rasterCpu (n m : ℕ) (U : ℕ → Pt d) (r : ℕ → ℝ) (narrow : Bool) (rnd : ℕ → ℝ) (asg : List (List ℕ)) (junkP : ℕ → Pt d) (junkG junkN : ℕ → Bool) : List (Pt d) :=
  let lo := bbLo n m U r
  let hi := bbHi n m U r
  let pts := gridPts n lo hi rnd junkP
  let g := joined n lo hi (grids n U r pts asg) junkG
  let g' := if narrow then narrowed n lo hi g junkN else g
  ((cells lo hi).filter (fun c => g' (emb n c) = false)).map (fun c => pts (emb n c))

/-- what comes from outside: random numbers, threads, memory that is not initialised -/
structure Env (d : ℕ) where
  choice : ℕ → ℕ → List ℕ
  rnd : ℕ → ℝ
  asg : ℕ → List (List ℕ)
  junkP : ℕ → Pt d
  junkG : ℕ → Bool
  junkN : ℕ → Bool

/-- the spheres that are used, `reach_for_the_arcs.py:468-474` -/
def used (env : Env d) (n : ℕ) (numSpheres : Int) : List ℕ := if numSpheres > 0 ∧ numSpheres < n then env.choice n numSpheres.toNat else List.range n

/-- the resolution that is used, `reach_for_the_arcs.py:460-466` -/
def resOf (res : Int) : Int := if (min 1024 res) % 2 ≠ 0 then min 1024 res + 1 else min 1024 res

/-- `_outside_points_from_rasterization(U, S, …)` with a given resolution, `reach_for_the_arcs.py:398-484`, on the CPU; `none`: an assertion fails -/
def pyRaster (env : Env d) (n : ℕ) (U : ℕ → Pt d) (S : ℕ → ℝ) (res numSpheres : Int) (narrow : Bool) : Option (List (Pt d)) :=
  if n = 0 ∨ ¬ (∀ i < n, ∀ j, 0 ≤ U i j ∧ U i j ≤ 1) then none
  else if ¬ (d = 2 ∨ d = 3) then none
  else if ¬ (2 ≤ min 1024 res) then none
  else
    let L := used env n numSpheres
    some (rasterCpu (resOf res).toNat L.length (fun k => U (L.getD k 0)) (fun k => |S (L.getD k 0)|) narrow env.rnd (env.asg L.length) env.junkP env.junkG env.junkN)

end

end Gpy.Raster
