import Mathlib.Data.Real.Basic
import Mathlib.Data.Real.Sqrt
import Mathlib.Algebra.Order.Floor.Ring
import Mathlib.Data.Real.Archimedean

/-!
# `cpp/swept_volume/gradient_descent_test.cpp` and the seeds of `cpp/swept_volume/swept_volume.cpp:286-358`
-/

set_option autoImplicit false
namespace Gpy.Descent

noncomputable section
open Classical

/-- one recorded interval: `intervals[2*mm]`, `intervals[2*mm+1]`, `values[mm]`, `minima[mm]` (the three vectors start empty and are extended together, lines 79-84) -/
structure Rec where
  lo : ℝ
  hi : ℝ
  val : ℝ
  arg : ℝ

/-- `x_candidate`, `gradient_descent_test.cpp:61-62` -/
def candidate (x g tau : ℝ) : ℝ := max (min (x - tau * ((if 0 < g then 1 else 0) - (if g < 0 then 1 else 0))) 1) 0

/-- the loop over `div`, `gradient_descent_test.cpp:58-75`: the accepted candidate if there is one, and by how much `iter` grows; `k` rounds are left.  (The assertions in lines 28 and 60 is not modelled.) -/
def search (f : ℝ → ℝ) (x fx g : ℝ) : ℕ → ℝ → Option ℝ × ℕ
  | 0, _ => (none, 0)
  | k + 1, tau =>
    let c := candidate x g tau
    if f c - fx < 1 / 2 * (c - x) * g then (some c, 1)
    else
      let r := search f x fx g k (1 / 2 * tau)
      (r.1, r.2 + 1)

/-- the variables of the loop `gradient_descent_test.cpp:29-76` -/
structure State where
  x : ℝ
  fx : ℝ
  prev : ℝ
  iter : ℕ
  stop : Bool
  xmin : ℝ
  xmax : ℝ

/-- the interval around `x`, `gradient_descent_test.cpp:33-41` -/
def find (cache : List Rec) (x : ℝ) : Option ℕ := cache.findIdx? (fun r => decide (r.lo - 1 / 10 ^ 6 ≤ x ∧ x ≤ r.hi + 1 / 10 ^ 6))

/-- the loop `gradient_descent_test.cpp:29-76`.  `moved x prev_x` is the test `abs(x-prev_x)>tol`.  Returns the state and the interval that was met; `none`: `fuel` was not enough. -/
def loop (f gf : ℝ → ℝ) (moved : ℝ → ℝ → Prop) (cache : List Rec) : ℕ → State → Option (State × Option ℕ)
  | 0, _ => none
  | fuel + 1, s =>
    if s.iter < 100 ∧ s.stop = false ∧ moved s.x s.prev then
      let s := { s with xmin := min s.xmin s.x, xmax := max s.xmax s.x }                    -- lines 30-31
      match find cache s.x with
      | some mm =>
        let r := cache.getD mm ⟨0, 0, 0, 0⟩
        some ({ s with fx := r.val, x := r.arg }, some mm)                                  -- lines 35-43
      | none =>
        let fx := if s.iter = 0 then f s.x else s.fx                                        -- lines 45-47
        let g := gf s.x                                                                     -- line 54
        let r := search f s.x fx g 9 (1 / 50)                                               -- lines 56-75
        let s' : State := match r.1 with
          | some c => ⟨c, f c, s.x, s.iter + r.2, false, s.xmin, s.xmax⟩
          | none => ⟨s.x, fx, s.x, s.iter + r.2, true, s.xmin, s.xmax⟩
        loop f gf moved cache fuel s'
    else some (s, none)

/-- what is recorded, `gradient_descent_test.cpp:79-89` -/
def record (cache : List Rec) (s : State) : Option ℕ → List Rec
  | none => cache ++ [⟨s.xmin, s.xmax, s.fx, s.x⟩]
  | some mm => cache.modify mm (fun r => { r with lo := min r.lo s.xmin, hi := max r.hi s.xmax })

/-- `gradient_descent_test`: the value `fx`, the place `x` and the new records.  `fx` is not initialised before the loop; it starts as an arbitrary `junk`. -/
def descend (f gf : ℝ → ℝ) (moved : ℝ → ℝ → Prop) (junk : ℝ) (cache : List Rec) (x0 : ℝ) : Option (ℝ × ℝ × List Rec) :=
  (loop f gf moved cache 101 ⟨x0, junk, 10000000, 0, false, x0, x0⟩).map (fun p => (p.1.fx, p.1.x, record cache p.1 p.2))

/-- a voxel, `swept_volume.cpp:343-346` -/
def voxelOf (eps : ℝ) (p0 p : Fin 3 → ℝ) : Fin 3 → ℤ := fun k => ⌊(p k - p0 k) / eps⌋

/-- `init_voxels`, `swept_volume.cpp:329-347`, for the seeds (place and time) found in lines 303-326 -/
def initVoxels (eps : ℝ) (p0 : Fin 3 → ℝ) (seeds : List ((Fin 3 → ℝ) × ℝ)) : List (Fin 3 → ℤ) := (fun _ => 0) :: seeds.map (fun s => voxelOf eps p0 s.1)

/-- `init_times`, `swept_volume.cpp:293-294,302,321`: zero is pushed twice before the seeds -/
def initTimes (seeds : List ((Fin 3 → ℝ) × ℝ)) : List ℝ := 0 :: 0 :: seeds.map (fun s => s.2)

/-- the start of the queue, `sparse_continuation.cpp:68-90`: voxel `i` with time `t0[i]` -/
def initQueue (voxels : List (Fin 3 → ℤ)) (times : List ℝ) : List ((Fin 3 → ℤ) × ℝ) := (List.range voxels.length).map (fun i => (voxels.getD i 0, times.getD i 0))

end

end Gpy.Descent
