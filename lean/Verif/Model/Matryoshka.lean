import Verif.Model.Swarm
import Mathlib.Analysis.SpecialFunctions.Trigonometric.Inverse
import Mathlib.LinearAlgebra.Matrix.Notation
import Mathlib.LinearAlgebra.Matrix.Determinant.Basic
import Mathlib.LinearAlgebra.Matrix.Trace

/-!
# `matryoshka.py`

Real arithmetic.  The outer mesh `A` enters only through the answers of `signed_distance` and `ray_mesh_intersect` for it, which are parameters
(`MQuery`).  The random surface samples and the random numbers of the particle swarm are parameters too.
-/

set_option autoImplicit false
namespace Gpy

/-- A `(3,3)` array. -/
abbrev M33 := Matrix (Fin 3) (Fin 3) ℝ

noncomputable section

/-- `_axis_angle_to_matrix(aa)`, `matryoshka.py:11-20`. -/
def axisAngleToMatrix (aa : Pt 3) : M33 :=
  let θ := pnorm aa
  if θ < 1 / 10 ^ 12 then 1 else
    let k : Pt 3 := fun i => aa i / θ
    let K : M33 := !![0, -k 2, k 1; k 2, 0, -k 0; -k 1, k 0, 0]
    1 + Real.sin θ • K + (1 - Real.cos θ) • (K * K)

/-- `_normalize(v)`, `matryoshka.py:23-30`. -/
def mNormalize (v : Pt 3) : Pt 3 :=
  let n := pnorm v
  if n < 1 / 10 ^ 12 then ![0, 0, 1] else fun i => v i / n

/-- `_transform_points(B,s,R,c,B_center)` for one row, `matryoshka.py:33-35`. -/
def mTransform (s : ℝ) (R : M33) (c Bc p : Pt 3) : Pt 3 := fun i => (∑ j, s * (p j - Bc j) * R i j) + c i

/-- What the library answers about the outer mesh: `signed_distance` at a point (`sd`), and the first hit of `ray_mesh_intersect` (`ray origin
direction = some t`; `none` is the index `-1`). -/
structure MQuery where
  sd : Pt 3 → ℝ
  ray : Pt 3 → Pt 3 → Option ℝ

/-- A configuration: rotation, centre, cut plane and removal directions. -/
structure MCfg where
  R : M33
  c : Pt 3
  cp : Pt 3
  n : Pt 3
  ap : Pt 3
  am : Pt 3

/-- The signed distance of the hit of the ray from `p` in direction `d` from the cut plane, `matryoshka.py:72-73`; `none` without a hit. -/
def hitSide (o : MQuery) (cp n p d : Pt 3) : Option ℝ :=
  (o.ray p d).map (fun t => pdot (fun i => p i + t * d i - cp i) n)

open Classical in
/-- `_feasible(samples_TB,…)`, `matryoshka.py:38-88`, with the default tolerances (no caller changes them). -/
def mFeasible (o : MQuery) (samples : List (Pt 3)) (g : MCfg) : Bool :=
  let dp : Pt 3 := fun i => -mNormalize g.ap i
  let dm : Pt 3 := fun i => -mNormalize g.am i
  if samples.any (fun p => decide (o.sd p > -(1 / 10 ^ 6))) then false
  else if samples.any (fun p => ((hitSide o g.cp g.n p dp).map (fun s => decide (s > 1 / 10 ^ 6))).getD false) then false
  else if samples.any (fun p => ((hitSide o g.cp g.n p dm).map (fun s => decide (s < -(1 / 10 ^ 6)))).getD false) then false
  else true

/-- The loop of the binary search, `matryoshka.py:123-131`. -/
def mBisect (feas : ℝ → Bool) (tol : ℝ) : ℕ → ℝ → ℝ → ℝ
  | 0, lo, _ => lo
  | k + 1, lo, hi =>
    let mid := 1 / 2 * (lo + hi)
    let lh := if feas mid then (mid, hi) else (lo, mid)
    if lh.2 - lh.1 < tol then lh.1 else mBisect feas tol k lh.1 lh.2

/-- `_largest_feasible_scale(…)`, `matryoshka.py:100-132`, with the default bounds `s_lo=0`, `s_hi=1` and 15 steps (no caller changes them). -/
def largestScale (feas : ℝ → Bool) (tol : ℝ) : ℝ :=
  if !feas (1 / 10 ^ 3) then 0
  else if feas 1 then 1
  else mBisect feas tol 15 (1 / 10 ^ 3) 1

/-- `feas` of a configuration, `matryoshka.py:109-113`. -/
def mFeasAt (o : MQuery) (samplesB : List (Pt 3)) (Bc : Pt 3) (g : MCfg) (s : ℝ) : Bool :=
  mFeasible o (samplesB.map (mTransform s g.R g.c Bc)) g

/-- `_matrix_to_axis_angle(R)`, `matryoshka.py:135-154`; `np.argmax` takes the first largest entry. -/
def matrixToAxisAngle (R : M33) : Pt 3 :=
  let cosθ := min (max (1 / 2 * (R.trace - 1)) (-1)) 1
  let θ := Real.arccos cosθ
  if θ < 1 / 10 ^ 12 then fun _ => 0
  else if Real.pi - θ < 1 / 10 ^ 6 then
    let M : M33 := (1 / 2 : ℝ) • (R + 1)
    let i : Fin 3 := if M 1 1 ≤ M 0 0 ∧ M 2 2 ≤ M 0 0 then 0 else if M 2 2 ≤ M 1 1 then 1 else 2
    let axis : Pt 3 := fun j => M j i / Real.sqrt (max (M i i) (1 / 10 ^ 12))
    fun j => θ * axis j / pnorm axis
  else
    let k : Pt 3 := fun j => ![R 2 1 - R 1 2, R 0 2 - R 2 0, R 1 0 - R 0 1] j / (2 * Real.sin θ)
    fun j => θ * k j

/-- `-v` if `flip`, `matryoshka.py:163-168`, `190-196`. -/
def flipIf (flip : Bool) (v : Pt 3) : Pt 3 := if flip then fun i => -v i else v

open Classical in
/-- `_encode_all(…)`, `matryoshka.py:157-169`. -/
def encodeAll (g : MCfg) (anchor : Pt 3) : Pt 16 :=
  let aa := matrixToAxisAngle g.R
  let cn := mNormalize g.n
  let offset := pdot (fun i => g.cp i - anchor i) cn
  let ap := flipIf (decide (pdot (mNormalize g.ap) cn < 0)) (mNormalize g.ap)
  let am := flipIf (decide (pdot (mNormalize g.am) cn > 0)) (mNormalize g.am)
  ![aa 0, aa 1, aa 2, g.c 0, g.c 1, g.c 2, cn 0, cn 1, cn 2, offset, ap 0, ap 1, ap 2, am 0, am 1, am 2]

open Classical in
/-- `_decode(x,'all',fixed)`, `matryoshka.py:172-198`. -/
def decodeAll (anchor : Pt 3) (x : Pt 16) : MCfg :=
  let n := mNormalize ![x 6, x 7, x 8]
  let offset := x 9
  let ap := mNormalize ![x 10, x 11, x 12]
  let am := mNormalize ![x 13, x 14, x 15]
  { R := axisAngleToMatrix ![x 0, x 1, x 2]
    c := ![x 3, x 4, x 5]
    cp := fun i => anchor i + offset * n i
    n := n
    ap := flipIf (decide (pdot ap n < 0)) ap
    am := flipIf (decide (pdot am n > 0)) am }

/-- `_decode(x,'rigid',fixed)`, `matryoshka.py:178-181`, `199-205`. -/
def decodeRigid (cp n ap am : Pt 3) (x : Pt 6) : MCfg :=
  ⟨axisAngleToMatrix ![x 0, x 1, x 2], ![x 3, x 4, x 5], cp, n, ap, am⟩

/-- The arguments of `matryoshka` apart from the mesh `A` (only its vertices `V` are used directly) and the mode.  `samples` are the random points
drawn on `B` (the empty list for `n_samples <= 0`). -/
structure MArgs where
  V : List (Pt 3)
  VB : Option (List (Pt 3))
  samples : List (Pt 3)
  R : Option M33
  c : Option (Pt 3)
  cp : Option (Pt 3)
  n : Option (Pt 3)
  ap : Option (Pt 3)
  am : Option (Pt 3)
  nP : ℕ
  maxIter : ℕ
  tol : ℝ

/-- The result dictionary. -/
structure MRes where
  s : ℝ
  Bc : Pt 3
  g : MCfg

/-- `X.mean(axis=0)`; the mean of no rows is not a number, which is not modelled (`none`). -/
def colMean (X : List (Pt 3)) : Option (Pt 3) :=
  if X = [] then none else some (fun j => (X.map (fun x => x j)).sum / X.length)

/-- The local variables before the modes are distinguished. -/
structure MPrep where
  Bc : Pt 3
  Ac : Pt 3
  Amin : Pt 3
  Amax : Pt 3
  cp : Pt 3
  n : Pt 3
  ap : Pt 3
  am : Pt 3
  samplesB : List (Pt 3)

/-- `matryoshka.py:323-359`, with `_sample_B_surface`, `matryoshka.py:91-97`. -/
def mPrep (a : MArgs) : Option MPrep := do
  let VB := a.VB.getD a.V
  let Bc ← colMean VB
  let Ac ← colMean a.V
  let Amin ← npAmin a.V
  let Amax ← npAmax a.V
  let n : Pt 3 := (a.n.map mNormalize).getD ![0, 0, 1]
  let cp := a.cp.getD Ac
  let ap := (a.ap.map mNormalize).getD n
  let am := (a.am.map mNormalize).getD (fun i => -n i)
  some ⟨Bc, Ac, Amin, Amax, cp, n, ap, am, VB ++ a.samples⟩

/-- `_largest_feasible_scale` of a configuration, as called from `matryoshka.py:374`, `441`, `450`. -/
def mScore (o : MQuery) (p : MPrep) (tol : ℝ) (g : MCfg) : ℝ := largestScale (mFeasAt o p.samplesB p.Bc g) tol

/-- `matryoshka(…,optimize='scale_only')`, `matryoshka.py:323-381`. -/
def matryoshkaScale (o : MQuery) (a : MArgs) : Option MRes := do
  let p ← mPrep a
  let g : MCfg := ⟨a.R.getD 1, a.c.getD p.Ac, p.cp, p.n, p.ap, p.am⟩
  some ⟨mScore o p a.tol g, p.Bc, g⟩

/-- The random numbers of `particle_swarm`, and which implementation runs. -/
structure SwarmRand (n : ℕ) where
  cpp : Bool
  p0 : ℕ → Pt n
  v0 : ℕ → Pt n
  rp : ℕ → ℕ → ℝ
  rg : ℕ → ℕ → ℝ

/-- `particle_swarm(objective,lb,ub,n_particles,max_iter,topology='full')`, `matryoshka.py:461-464`, with the default momentum and `phi`
(`particle_swarm.py:3`). -/
def runSwarm {n : ℕ} (w : SwarmRand n) (f : Pt n → WithTop ℝ) (lb ub : Pt n) (nP maxIter : ℕ) : Option (Pt n × WithTop ℝ × List (Pt n)) :=
  if w.cpp then cppSwarm f lb ub nP maxIter (9 / 10) (1 / 10) .full w.p0 w.v0 w.rp w.rg
  else pySwarm f lb ub nP maxIter (9 / 10) (1 / 10) .full w.p0 w.v0 w.rp w.rg

open Classical in
/-- The tracker in `objective`, `matryoshka.py:455-457`. -/
def trackBest {n : ℕ} (score : Pt n → ℝ) (best : ℝ × Option (Pt n)) (x : Pt n) : ℝ × Option (Pt n) :=
  if score x > best.1 then (score x, some x) else best

/-- The swarm and the result, `matryoshka.py:448-477`; `decode` is `_decode(·,optimize,fixed)` and `best0` the tracker after the warm start. -/
def mSearch {n : ℕ} (o : MQuery) (p : MPrep) (tol : ℝ) (decode : Pt n → MCfg) (lb ub : Pt n) (w : SwarmRand n) (nP maxIter : ℕ)
    (best0 : ℝ × Option (Pt n)) : Option MRes := do
  let score : Pt n → ℝ := fun x => mScore o p tol (decode x)
  let run ← runSwarm w (fun x => ((-score x : ℝ) : WithTop ℝ)) lb ub nP maxIter
  let best := run.2.2.reverse.foldl (trackBest score) best0
  some ((best.2.map (fun x => (⟨best.1, p.Bc, decode x⟩ : MRes))).getD ⟨0, p.Bc, ⟨1, p.Ac, p.cp, p.n, p.ap, p.am⟩⟩)

/-- The bounds of the six rigid parameters, `matryoshka.py:385-386`. -/
def lbRigid (p : MPrep) : Pt 6 := ![-Real.pi, -Real.pi, -Real.pi, p.Amin 0, p.Amin 1, p.Amin 2]
/-- `matryoshka.py:387-388` -/
def ubRigid (p : MPrep) : Pt 6 := ![Real.pi, Real.pi, Real.pi, p.Amax 0, p.Amax 1, p.Amax 2]

/-- `max_offset`, `matryoshka.py:395`. -/
def maxOffset (p : MPrep) : ℝ := 1 / 2 * pnorm (fun i => p.Amax i - p.Amin i)
/-- The bounds of all parameters, `matryoshka.py:385-396`. -/
def lbAll (p : MPrep) : Pt 16 :=
  ![-Real.pi, -Real.pi, -Real.pi, p.Amin 0, p.Amin 1, p.Amin 2, -1, -1, -1, -maxOffset p, -1, -1, -1, -1, -1, -1]
/-- `matryoshka.py:387-397` -/
def ubAll (p : MPrep) : Pt 16 := ![Real.pi, Real.pi, Real.pi, p.Amax 0, p.Amax 1, p.Amax 2, 1, 1, 1, maxOffset p, 1, 1, 1, 1, 1, 1]

/-- `matryoshka(…,optimize='rigid')`, `matryoshka.py:323-477`. -/
def matryoshkaRigid (o : MQuery) (a : MArgs) (w : SwarmRand 6) : Option MRes := do
  let p ← mPrep a
  mSearch o p a.tol (decodeRigid p.cp p.n p.ap p.am) (lbRigid p) (ubRigid p) w a.nP a.maxIter (0, none)

/-- The argument `warm_start`: off, a result dictionary, or `True`; in the last case the inner call draws its own samples and random numbers. -/
inductive WarmStart where
  | off
  | dict (r : MRes)
  | rigid (samples : List (Pt 3)) (w : SwarmRand 6)

/-- The seed of the tracker, `matryoshka.py:418-420`; the inner call gets the values already completed (`matryoshka.py:422-429`). -/
def warmSeed (o : MQuery) (a : MArgs) (p : MPrep) : WarmStart → Option (Option MRes)
  | .off => some none
  | .dict r => some (some r)
  | .rigid samples w => (matryoshkaRigid o { a with VB := some (a.VB.getD a.V), samples := samples, cp := some p.cp, n := some p.n, ap := some p.ap, am := some p.am } w).map some

open Classical in
/-- The tracker after the warm start, `matryoshka.py:411`, `430-446`. -/
def warmBest (o : MQuery) (p : MPrep) (tol : ℝ) (seed : Option MRes) : ℝ × Option (Pt 16) :=
  match seed with
  | none => (0, none)
  | some r =>
    if r.s > 0 then
      let x := encodeAll r.g p.Ac
      (mScore o p tol (decodeAll p.Ac x), some x)
    else (0, none)

/-- `matryoshka(…,optimize='all')`, `matryoshka.py:323-477`. -/
def matryoshkaAll (o : MQuery) (a : MArgs) (warm : WarmStart) (w : SwarmRand 16) : Option MRes := do
  let p ← mPrep a
  let seed ← warmSeed o a p warm
  mSearch o p a.tol (decodeAll p.Ac) (lbAll p) (ubAll p) w a.nP a.maxIter (warmBest o p a.tol seed)

/-- The argument `optimize`; any other string behaves like `'rigid'`. -/
inductive MMode where
  | scaleOnly
  | rigid (w : SwarmRand 6)
  | all (warm : WarmStart) (w : SwarmRand 16)

/-- `matryoshka(…)`, `matryoshka.py:208-477`; the random numbers of the swarm come with the mode. -/
def matryoshka (o : MQuery) (a : MArgs) : MMode → Option MRes
  | .scaleOnly => matryoshkaScale o a
  | .rigid w => matryoshkaRigid o a w
  | .all warm w => matryoshkaAll o a warm w

end

end Gpy
