import Verif.Np.Pt

/-!
# `particle_swarm.py` and `cpp/particle_swarm.cpp`

Objective values are reals or `+∞` (`WithTop ℝ`); not-a-number is not modelled.  Random numbers are parameters.
-/

set_option autoImplicit false
namespace Gpy

variable {n : ℕ}

/-- The variables of the loop; `evals` lists the points at which the objective has been evaluated so far, latest first. -/
structure Swarm (n : ℕ) where
  x : ℕ → Pt n
  v : ℕ → Pt n
  bestX : ℕ → Pt n
  bestF : ℕ → WithTop ℝ
  /-- `none`: not assigned yet -/
  curX : Option (Pt n)
  curF : WithTop ℝ
  evals : List (Pt n)

/-- The loop over the initial particles, `particle_swarm.py:70-82`, `particle_swarm.cpp:40-49`. -/
noncomputable def swarmInit (f : Pt n → WithTop ℝ) (s : Swarm n) (i : ℕ) : Swarm n :=
  let xi := s.x i
  let fi := f xi
  let s := { s with evals := xi :: s.evals, bestX := Function.update s.bestX i xi, bestF := Function.update s.bestF i fi }
  if fi < s.curF then { s with curX := some xi, curF := fi } else s

/-- `min(max(x,lb),ub)`, `particle_swarm.py:108-109`, `particle_swarm.cpp:92-93`. -/
noncomputable def clampTo (lb ub x : Pt n) : Pt n := fun j => min (max (x j) (lb j)) (ub j)

/-- One particle of one iteration, `particle_swarm.py:93-118`, `particle_swarm.cpp:63-105`; `nbr` chooses the best neighbour (`none`: the
variable is not bound). -/
noncomputable def swarmStep (f : Pt n → WithTop ℝ) (lb ub : Pt n) (momentum phi : ℝ) (nbr : Swarm n → ℕ → Option (Pt n)) (rp rg : ℝ)
    (s : Swarm n) (i : ℕ) : Option (Swarm n) := do
  let best ← nbr s i
  let v : Pt n := fun j => momentum * s.v i j + phi * rp * (s.bestX i j - s.x i j) + phi * rg * (best j - s.x i j)
  let x := clampTo lb ub (fun j => s.x i j + v j)
  let fi := f x
  let s := { s with v := Function.update s.v i v, x := Function.update s.x i x, evals := x :: s.evals }
  if fi < s.bestF i then
    let s := { s with bestX := Function.update s.bestX i x, bestF := Function.update s.bestF i fi }
    if fi < s.curF then some { s with curX := some x, curF := fi } else some s
  else some s

/-- The iterations, `particle_swarm.py:90-118`; `rp k i`, `rg k i` are the random numbers of particle `i` in iteration `k`. -/
noncomputable def swarmLoop (f : Pt n → WithTop ℝ) (lb ub : Pt n) (momentum phi : ℝ) (nbr : Swarm n → ℕ → Option (Pt n)) (rp rg : ℕ → ℕ → ℝ)
    (nParticles maxIter : ℕ) (s : Swarm n) : Option (Swarm n) :=
  (List.range maxIter).foldlM (fun s k => (List.range nParticles).foldlM (fun s i => swarmStep f lb ub momentum phi nbr (rp k i) (rg k i) s i) s) s

inductive Topology where
  | full | ring | other

/-- `particle_swarm.py:96-103` -/
noncomputable def pyNeighbor (topology : Topology) (nParticles : ℕ) (s : Swarm n) (i : ℕ) : Option (Pt n) :=
  match topology with
  | .full => s.curX
  | .ring =>
    let l := [(i + nParticles - 1) % nParticles, i % nParticles, (i + 1) % nParticles]
    (l.argmin s.bestF).map s.bestX
  | .other => none

/-- `particle_swarm.cpp:66-85` -/
noncomputable def cppNeighbor (topology : Topology) (nParticles : ℕ) (s : Swarm n) (i : ℕ) : Option (Pt n) :=
  match topology with
  | .ring =>
    let prev := (i + nParticles - 1) % nParticles
    let next := (i + 1) % nParticles
    let b := if s.bestF prev < s.bestF i then prev else i
    let b := if s.bestF next < s.bestF b then next else b
    some (s.bestX b)
  | _ => s.curX

/-- The Python path of `particle_swarm(fun,lb,ub,…)`, `particle_swarm.py:65-122`: the returned point and value and the points at which `fun` was
called.  `x0 i` and `v0 i` are the rows of the initial random positions and velocities.  `none` = exception. -/
noncomputable def pySwarm (f : Pt n → WithTop ℝ) (lb ub : Pt n) (nParticles maxIter : ℕ) (momentum phi : ℝ) (topology : Topology)
    (x0 v0 : ℕ → Pt n) (rp rg : ℕ → ℕ → ℝ) : Option (Pt n × WithTop ℝ × List (Pt n)) := do
  let s : Swarm n := ⟨x0, v0, x0, fun _ => ⊤, none, ⊤, []⟩
  let s := (List.range nParticles).foldl (swarmInit f) s
  let s ← swarmLoop f lb ub momentum phi (pyNeighbor topology nParticles) rp rg nParticles maxIter s
  let x ← s.curX
  some (x, s.curF, s.evals)

/-- The C++ `particle_swarm`, `particle_swarm.cpp:20-113`, called from `particle_swarm.py:51-61`; `u0`, `w0` are the uniform random numbers for
positions and velocities.  Without particles the program reads a row that does not exist (`none`). -/
noncomputable def cppSwarm (f : Pt n → WithTop ℝ) (lb ub : Pt n) (nParticles maxIter : ℕ) (momentum phi : ℝ) (topology : Topology)
    (u0 w0 : ℕ → Pt n) (rp rg : ℕ → ℕ → ℝ) : Option (Pt n × WithTop ℝ × List (Pt n)) :=
  if nParticles = 0 then none else do
  let x0 : ℕ → Pt n := fun i j => lb j + u0 i j * (ub j - lb j)
  let v0 : ℕ → Pt n := fun i j => (lb j - ub j) + w0 i j * ((ub j - lb j) - (lb j - ub j))
  let s : Swarm n := ⟨x0, v0, x0, fun _ => ⊤, some (x0 0), ⊤, []⟩
  let s := (List.range nParticles).foldl (swarmInit f) s
  let s ← swarmLoop f lb ub momentum phi (cppNeighbor topology nParticles) rp rg nParticles maxIter s
  let x ← s.curX
  some (x, s.curF, s.evals)

end Gpy
