import Mathlib.Data.Real.Basic

/-!
# `reach_for_the_spheres.py`: the state, the iteration and the outer loop

Exact arithmetic.  The steps of an iteration (flow, singularity test, resampling, remeshing) are parameters here; they may depend on the number of the call, through the random number
generator.  The flow step is modelled in `Model/SphereFlow`, the remeshing of curves in `Model/LineRemesh`, merging in `Model/MergeMeshes`, sampling in `Model/SampleSdf`.
-/

set_option autoImplicit false
namespace Gpy.Spheres

/-- the arguments that steer the loop, `reach_for_the_spheres.py:344-357`; `maxIter = none`: no limit (`np.inf`) -/
structure Params where
  maxIter : Option ℕ
  tol : ℝ
  resample : ℕ

/-- `ReachForTheSpheresState`, `:211-340`, the fields that survive an iteration: `V, F` (`mesh`), `U, S` (`smp`), `h`, `min_h`, `its`, `convergence_counter`, `best_avg_error`
(`none` = `np.inf`), `resample_counter`, `V_last_converged, F_last_converged` (`last`).  `best_performance` is not used. -/
structure State (M B : Type) where
  mesh : M
  smp : B
  h : ℝ
  minH : ℝ
  its : ℕ
  counter : ℕ
  best : Option ℝ
  rc : ℕ
  last : M

/-- what happens in call number `k`: the mesh after the flow (`:593-664`), `F_invalid.shape[0] > 0` (`:619`), the test for a flow singularity (`:668-679`), the average error (`:688`),
resampling (`:707-712`), remeshing with the edge length `h` (`:726-769`); `none`: an exception -/
structure Ext (M B : Type) where
  flow : ℕ → M → B → M
  invalid : ℕ → M → B → Bool
  singular : M → Bool
  err : ℕ → M → B → M → ℝ
  resample : ℕ → M → B → Option B
  remesh : ℕ → M → B → M → ℝ → Option M

variable {M B : Type}

/-- `state.its >= max_iter` -/
def atLimit (p : Params) (its : ℕ) : Bool :=
  match p.maxIter with
  | none => false
  | some m => decide (m ≤ its)

/-- a call either raises an exception (`none`), or returns `converged` and changes the state -/
abbrev Outcome (M B : Type) := Option (Bool × State M B)

noncomputable section

/-- the error bookkeeping, `:691-695` -/
def track (tol e : ℝ) (s : State M B) : State M B :=
  match s.best with
  | none => { s with counter := 0, best := some e }
  | some b => if b ≤ e + 1 / 1000 * tol then { s with counter := s.counter + 1 } else { s with counter := 0, best := some e }

/-- refinement of the resolution, `:696-704`; `V` is the mesh after the flow -/
def refine (V : M) (s : State M B) : State M B :=
  if 10 < s.counter then
    let s' := if s.minH < s.h then { s with last := V, best := none, counter := 0 } else s
    { s' with h := max (s'.h / 2) s'.minH }
  else s

/-- `reach_for_the_spheres_iteration(state, …)`, `:344-781`, for a state whose fields are initialised -/
def iteration (x : Ext M B) (p : Params) (k : ℕ) (s : State M B) : Outcome M B :=
  if atLimit p s.its then some (true, s)
  else
    let V := x.flow k s.mesh s.smp
    if x.singular V then some (true, { s with mesh := s.last })
    else
      let inv := x.invalid k s.mesh s.smp
      let s1 := refine V (track p.tol (x.err k s.mesh s.smp V) { s with mesh := V })
      let stop := decide (100 < s1.counter) || !inv
      if stop && !decide (s1.rc < p.resample) then some (true, s1)
      else
        (if stop then (x.resample k s1.mesh s1.smp).map (fun U => { s1 with smp := U, rc := s1.rc + 1, counter := 0, best := none }) else some s1).bind (fun s2 =>
          (x.remesh k s.mesh s.smp s2.mesh s2.h).map (fun W => (atLimit p (s2.its + 1), { s2 with mesh := W, its := s2.its + 1 })))

/-- the state before the first iteration, `:185-186` and `:545-585` -/
def initial (V : M) (U : B) (h minH : ℝ) : State M B := ⟨V, U, h, minH, 0, 0, none, 0, V⟩

/-- what the loop has done after at most `n` calls: it has returned a state, raised an exception, or is still running -/
inductive Run (M B : Type) where
  | returned (s : State M B)
  | raised
  | running (s : State M B)

/-- `while not converged`, `:187-203`, cut off after `n` calls; `k` is the number of the next call -/
def loop (x : Ext M B) (p : Params) : ℕ → ℕ → State M B → Run M B
  | 0, _, s => .running s
  | n + 1, k, s =>
    match iteration x p k s with
    | none => .raised
    | some (true, s') => .returned s'
    | some (false, s') => loop x p n (k + 1) s'

/-- `reach_for_the_spheres(U, sdf, V, F, …)`, `:24-208`, cut off after `n` calls of the iteration -/
def reachSpheres (x : Ext M B) (p : Params) (V : M) (U : B) (h minH : ℝ) (n : ℕ) : Run M B := loop x p n 0 (initial V U h minH)

end

end Gpy.Spheres
