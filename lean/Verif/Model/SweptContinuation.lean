import Verif.Model.SweptDescent
import Mathlib.Data.Fin.VecNotation
import Mathlib.Algebra.Group.Prod
import Mathlib.Data.Sign.Defs

/-!
# `cpp/swept_volume/sparse_continuation.cpp` (the first of the two functions, lines 11-607, which is the one `swept_volume.cpp:358` calls)

`scalar P seed records` is `scalarFunc` (`swept_volume.cpp:204-280`): the value, the new time and the new records.  The three nested vectors of intervals, values and minima have exactly one entry each after the first call
(`swept_volume.cpp:270-277`), so they are one list of records here.  Not modelled: `p_queue`, the counters, `CV_argmins_vector` and the files written for debugging, none of which has an effect on `CV`, `CI`, `CS`.
The vector `argmins` is used only within one round and is the local function `am` here.
-/

set_option autoImplicit false
namespace Gpy.Cont

open Gpy.Descent

/-- `Eigen::RowVector3i` -/
abbrev Vox := ℤ × ℤ × ℤ

/-- `bx`, `sparse_continuation.cpp:120` -/
def bx : Vox := (1, 0, 0)

/-- `by`, `sparse_continuation.cpp:120` -/
def bY : Vox := (0, 1, 0)

/-- `bz`, `sparse_continuation.cpp:120` (minus the third unit vector) -/
def bz : Vox := (0, 0, -1)

/-- `neighbors`, `sparse_continuation.cpp:121-135` -/
def neighbors : List Vox :=
  [bx, -bx, bY, -bY, bz, -bz,
   bY - bz, -bY + bz,
   bx + bY, -bx - bY,
   bY + bz, -bY - bz,
   bY - bx, -bY + bx,
   bx - bz, -bx + bz,
   bx + bz, -bx - bz,
   -bx + bY + bz, bx - bY - bz,
   bx + bY + bz, -bx - bY - bz,
   bx + bY - bz, -bx - bY + bz,
   -bx + bY - bz, bx - bY + bz,
   bx - bx, bx - bx,
   bx - bx, bx - bx]

/-- `cubeCorners`, `sparse_continuation.cpp:138-141`: the multiples of `half_eps` -/
def corners : List Vox :=
  [bx + bY + bz, bx + bY - bz, -bx + bY - bz, -bx + bY + bz,
   bx - bY + bz, bx - bY - bz, -bx - bY - bz, -bx - bY + bz]

/-- `zv`, `sparse_continuation.cpp:156-183` -/
def zv : List ℕ :=
  [1 <<< 0 ||| 1 <<< 1 ||| 1 <<< 4 ||| 1 <<< 5,
   1 <<< 2 ||| 1 <<< 3 ||| 1 <<< 6 ||| 1 <<< 7,
   1 <<< 0 ||| 1 <<< 1 ||| 1 <<< 2 ||| 1 <<< 3,
   1 <<< 4 ||| 1 <<< 5 ||| 1 <<< 6 ||| 1 <<< 7,
   1 <<< 0 ||| 1 <<< 3 ||| 1 <<< 4 ||| 1 <<< 7,
   1 <<< 1 ||| 1 <<< 2 ||| 1 <<< 5 ||| 1 <<< 6,
   1 <<< 1 ||| 1 <<< 2,
   1 <<< 4 ||| 1 <<< 7,
   1 <<< 0 ||| 1 <<< 1,
   1 <<< 6 ||| 1 <<< 7,
   1 <<< 0 ||| 1 <<< 3,
   1 <<< 5 ||| 1 <<< 6,
   1 <<< 2 ||| 1 <<< 3,
   1 <<< 4 ||| 1 <<< 5,
   1 <<< 1 ||| 1 <<< 5,
   1 <<< 3 ||| 1 <<< 7,
   1 <<< 0 ||| 1 <<< 4,
   1 <<< 2 ||| 1 <<< 6,
   1 <<< 3, 1 <<< 5,
   1 <<< 0, 1 <<< 6,
   1 <<< 1, 1 <<< 7,
   1 <<< 2, 1 <<< 4,
   1 <<< 0 ||| 1 <<< 1 ||| 1 <<< 2 ||| 1 <<< 3,
   1 <<< 0 ||| 1 <<< 1 ||| 1 <<< 2 ||| 1 <<< 3,
   1 <<< 4 ||| 1 <<< 5 ||| 1 <<< 6 ||| 1 <<< 7,
   1 <<< 4 ||| 1 <<< 5 ||| 1 <<< 6 ||| 1 <<< 7]

/-- `zvv`, `sparse_continuation.cpp:184-193` -/
def zvv : List (List ℤ) :=
  [[0, 1, 4, 5], [3, 2, 7, 6], [0, 1, 2, 3],
   [4, 5, 6, 7], [0, 3, 4, 7], [1, 2, 5, 6],
   [-1, -1, 1, 2], [-1, -1, 4, 7], [-1, -1, 0, 1], [-1, -1, 7, 6],
   [-1, -1, 0, 3], [-1, -1, 5, 6], [-1, -1, 2, 3], [-1, -1, 5, 4],
   [-1, -1, 1, 5], [-1, -1, 3, 7], [-1, -1, 0, 4], [-1, -1, 2, 6],
   [-1, -1, -1, 3], [-1, -1, -1, 5], [-1, -1, -1, 0], [-1, -1, -1, 6],
   [-1, -1, -1, 1], [-1, -1, -1, 7], [-1, -1, -1, 2], [-1, -1, -1, 4],
   [0, 1, 2, 3], [0, 1, 2, 3], [4, 5, 6, 7], [4, 5, 6, 7]]

/-- `zvv[n][i]` -/
def zvvAt (n i : ℕ) : ℤ := (zvv.getD n []).getD i (-1)

/-- `n % 2 == 0 ? n + 1 : n - 1`, `sparse_continuation.cpp:205` -/
def partner (n : ℕ) : ℕ := if n % 2 = 0 then n + 1 else n - 1

/-- the corners of the cube that it shares with neighbour `n`, each with the corner it is of the neighbour: the loop over `i`, `sparse_continuation.cpp:203-207` (an index `-1` on the right is out of range) -/
def pairs (n : ℕ) : List (ℕ × ℤ) := (List.range 4).filterMap (fun i => if zvvAt n i ≠ -1 then some ((zvvAt n i).toNat, zvvAt (partner n) i) else none)

/-- an entry of the queue: `queue`, `time_queue` and `correspondence_queue`, with `none` for the correspondence `-1` -/
structure Item where
  vox : Vox
  time : ℝ
  corr : Option ℕ

/-- the variables that live through the loop `sparse_continuation.cpp:99-564`; the end of the queue is the head of the list; a cube is a function of the corner, with `none` for `-1` -/
structure St where
  ci : List (ℕ → Option ℕ)
  cv : List (Fin 3 → ℝ)
  cs : List ℝ
  recs : List (List Rec)
  visited : Vox → Option ℕ
  stack : List Item

noncomputable section
open Classical

/-- `pi.cast<double>()` -/
def cast (v : Vox) : Fin 3 → ℝ := ![(v.1 : ℝ), (v.2.1 : ℝ), (v.2.2 : ℝ)]

/-- `cubeCorners[i]`, `sparse_continuation.cpp:28,117,138-141` -/
def cornerPos (p0 : Fin 3 → ℝ) (eps : ℝ) (pi : Vox) (i : ℕ) : Fin 3 → ℝ := p0 + eps • cast pi + (1 / 2 * eps) • cast (corners.getD i 0)

/-- the visited neighbours one after the other, and for each the corners it shares, with their indices: the two nested loops, `sparse_continuation.cpp:199-209`, which come again in lines 383-418 and 429-463 -/
def links (st : St) (pi : Vox) : List (ℕ × Option ℕ) :=
  (List.range 30).flatMap (fun n => match st.visited (pi + neighbors.getD n 0) with
    | none => []
    | some k => (pairs n).map (fun p => (p.1, if 0 ≤ p.2 then (st.ci.getD k (fun _ => none)) p.2.toNat else none)))

/-- `cube` after the loop `sparse_continuation.cpp:197-209` -/
def knownCube (l : List (ℕ × Option ℕ)) : ℕ → Option ℕ := l.foldl (fun c p => Function.update c p.1 p.2) (fun _ => none)

/-- `vertexAlreadyAdded`, `sparse_continuation.cpp:155,388` -/
def mask (st : St) (pi : Vox) : ℕ := (List.range 30).foldl (fun m n => if st.visited (pi + neighbors.getD n 0) ≠ none then m ||| zv.getD n 0 else m) 0

/-- the smallest recorded value if it is smaller by `1e-3` (each time) than `temp`: its time.  `sparse_continuation.cpp:254-266` -/
def better (temp : ℝ) (recs : List Rec) : ℝ × Option ℝ := recs.foldl (fun t r => if r.val + 1 / 1000 < t.1 then (r.val, some r.arg) else t) (temp, none)

/-- what the loop `sparse_continuation.cpp:243-350` changes -/
structure Ev where
  recs : List (List Rec)
  scal : ℕ → ℝ
  am : ℕ → ℝ
  fresh : ℕ → List Rec
  stack : List Item

/-- the body of the loop over the corners, `sparse_continuation.cpp:243-350` -/
def evalCorner (scalar : (Fin 3 → ℝ) → ℝ → List Rec → ℝ × ℝ × List Rec) (p0 : Fin 3 → ℝ) (eps : ℝ) (it : Item) (cube : ℕ → Option ℕ) (e : Ev) (i : ℕ) : Ev :=
  match cube i with
  | some v =>
    let r := scalar (cornerPos p0 eps it.vox i) it.time (e.recs.getD v [])
    { recs := e.recs.set v r.2.2, scal := Function.update e.scal i r.1, am := Function.update e.am i r.2.1, fresh := e.fresh,
      stack := match it.corr, (better r.1 r.2.2).2 with
        | none, some t => ⟨it.vox, t, some 1⟩ :: e.stack
        | _, _ => e.stack }
  | none =>
    let r := scalar (cornerPos p0 eps it.vox i) it.time []
    { e with scal := Function.update e.scal i r.1, am := Function.update e.am i r.2.1, fresh := Function.update e.fresh i r.2.2 }

/-- `validCube`, `sparse_continuation.cpp:420-426,465-471` (`sgn` is the sign) -/
def valid (scal : ℕ → ℝ) : Prop := ∃ i, 1 ≤ i ∧ i < 8 ∧ SignType.sign (scal 0) ≠ SignType.sign (scal i)

/-- the test of line 396: a neighbour has to be looked at again -/
def worse (old new : ℝ) : Prop := (new < old ∧ old * new < 0) ∨ new + 1 / 1000 < old

/-- the entries pushed in the loop `sparse_continuation.cpp:383-418`: each visited neighbour at most once (`flag`) -/
def corrections (st : St) (pi : Vox) (scal : ℕ → ℝ) (running : ℝ) : List Item :=
  (List.range 30).flatMap (fun n => match st.visited (pi + neighbors.getD n 0) with
    | none => []
    | some k =>
      if ∃ p ∈ pairs n, worse (st.cs.getD (((if 0 ≤ p.2 then (st.ci.getD k (fun _ => none)) p.2.toNat else none)).getD 0) 0) (scal p.1) then [⟨pi + neighbors.getD n 0, running, some k⟩] else [])

/-- one step of the loop `sparse_continuation.cpp:429-463`: both numbers become the smaller one -/
def mergeStep (c : List ℝ × (ℕ → ℝ)) (p : ℕ × Option ℕ) : List ℝ × (ℕ → ℝ) :=
  match p.2 with
  | none => c
  | some v => let m := min (c.1.getD v 0) (c.2 p.1); (c.1.set v m, Function.update c.2 p.1 m)

/-- the entries pushed in the loop `sparse_continuation.cpp:474-491` -/
def spread (st : St) (pi : Vox) (running : ℝ) : List Item :=
  (List.range 6).flatMap (fun n => if st.visited (pi + neighbors.getD n 0) = none then [⟨pi + neighbors.getD n 0, running, none⟩] else [])

/-- the body of the loop `sparse_continuation.cpp:499-523` over the corners of a new cube -/
def addCorner (p0 : Fin 3 → ℝ) (eps : ℝ) (pi : Vox) (m : ℕ) (scal : ℕ → ℝ) (fresh : ℕ → List Rec) (s : St × (ℕ → Option ℕ)) (i : ℕ) : St × (ℕ → Option ℕ) :=
  if (1 <<< i) &&& m = 0 then
    ({ s.1 with recs := s.1.recs ++ [fresh i], cv := s.1.cv ++ [cornerPos p0 eps pi i], cs := s.1.cs ++ [scal i] }, Function.update s.2 i (some s.1.cs.length))
  else s

/-- one round of the loop, `sparse_continuation.cpp:99-564`, for the entry `it`, which is already taken off the queue of `st` -/
def round (scalar : (Fin 3 → ℝ) → ℝ → List Rec → ℝ × ℝ × List Rec) (p0 : Fin 3 → ℝ) (eps : ℝ) (st : St) (it : Item) : St :=
  let l := links st it.vox
  let cube := knownCube l
  if ∀ i < 8, ∃ v, cube i = some v ∧ ¬ 0 < st.cs.getD v 0 then st                                                   -- lines 213-227
  else
    let e := (List.range 8).foldl (evalCorner scalar p0 eps it cube) ⟨st.recs, fun _ => 0, fun _ => 0, fun _ => [], st.stack⟩
    let running := (List.range 8).foldl (fun s i => s + e.am i / 8) 0                                               -- lines 242, 345
    let cor := corrections st it.vox e.scal running
    let c := l.foldl mergeStep (st.cs, e.scal)
    let spr := if valid c.2 ∧ valid e.scal then spread st it.vox running else []
    let st' : St := { st with cs := c.1, recs := e.recs, stack := spr.reverse ++ (cor.reverse ++ e.stack) }
    if it.corr = none ∧ st.visited it.vox = none then
      let a := (List.range 8).foldl (addCorner p0 eps it.vox (mask st it.vox) c.2 e.fresh) (st', cube)
      { a.1 with visited := Function.update a.1.visited it.vox (some a.1.ci.length), ci := a.1.ci ++ [a.2] }         -- lines 525-526
    else st'

/-- the loop, `sparse_continuation.cpp:99`: take the last entry off the queue -/
def step (scalar : (Fin 3 → ℝ) → ℝ → List Rec → ℝ × ℝ × List Rec) (p0 : Fin 3 → ℝ) (eps : ℝ) (st : St) : St :=
  match st.stack with
  | [] => st
  | it :: rest => round scalar p0 eps { st with stack := rest } it

/-- the state after `n` rounds; the loop ends at the first `n` with an empty queue, after which nothing changes -/
def after (scalar : (Fin 3 → ℝ) → ℝ → List Rec → ℝ × ℝ × List Rec) (p0 : Fin 3 → ℝ) (eps : ℝ) (st : St) : ℕ → St
  | 0 => st
  | n + 1 => step scalar p0 eps (after scalar p0 eps st n)

/-- the state before the loop, `sparse_continuation.cpp:30-90` -/
def start (voxels : List Vox) (times : List ℝ) : St :=
  ⟨[], [], [], [], fun _ => none, ((List.range voxels.length).map (fun i => (⟨voxels.getD i 0, times.getD i 0, none⟩ : Item))).reverse⟩

/-- `scalarFunc`, `swept_volume.cpp:204-280`, for the distance `f P t` to the mesh at time `t` and the derivative `gf P t` computed there -/
def scalarFunc (f gf : (Fin 3 → ℝ) → ℝ → ℝ) (moved : ℝ → ℝ → Prop) (junk : ℝ) (P : Fin 3 → ℝ) (seed : ℝ) (recs : List Rec) : ℝ × ℝ × List Rec :=
  (descend (f P) (gf P) moved junk recs seed).getD (0, 0, [])

end

end Gpy.Cont
