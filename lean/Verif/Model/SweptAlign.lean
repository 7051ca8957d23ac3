import Verif.Model.Rotation

/-!
# The keyframes of `swept_volume`, `swept_volume.py:75-146`
-/

set_option autoImplicit false
namespace Gpy.SweptAlign

noncomputable section

abbrev Mat3 := Matrix (Fin 3) (Fin 3) ℝ
abbrev Mat4 := Matrix (Fin 4) (Fin 4) ℝ

open Classical in
/-- `rotation_matrix_from_vectors` of `swept_volume.py:127-146` (not the one of `rotation_matrix_from_vectors.py`); `none`: a zero vector (not-a-number) -/
def rotVec (vec1 vec2 : Pt 3) : Option Mat3 := do
  let a ← unitize vec1
  let b ← unitize vec2
  let v := cross3 a b
  let s := pnorm v
  let c := pdot a b
  if s > 1 / 10 ^ 8 then some (1 + kmat v + ((1 - c) / s ^ 2) • (kmat v * kmat v))      -- lines 133-135
  else if c > 0 then some 1                                                             -- lines 136-137
  else
    let axis := cross3 a ![1, 0, 0]                                                     -- line 141
    let axis := if pnorm axis < 1 / 10 ^ 8 then cross3 a ![0, 1, 0] else axis            -- lines 142-143
    let axis ← unitize axis                                                             -- line 144
    some (1 + (2 : ℝ) • (kmat axis * kmat axis))                                        -- lines 145-146

/-- `vel` in `swept_volume.py:111-116` -/
def velOf (ts : List (Pt 3)) (i : ℕ) : Option (Pt 3) :=
  if i = 0 then do some ((← ts[1]?) - (← ts[0]?))
  else if i = ts.length - 1 then do some ((← ts[ts.length - 1]?) - (← ts[ts.length - 2]?))
  else do some ((← ts[i + 1]?) - (← ts[i - 1]?))

/-- `velocities`, `swept_volume.py:109-117` -/
def velocities (ts : List (Pt 3)) : Option (List (Pt 3)) := (List.range ts.length).mapM (fun i => do unitize (← velOf ts i))

/-- the loop `swept_volume.py:121-123`: `v` is the velocity before, `R` the last rotation -/
def chain (v : Pt 3) (R : Mat3) : List (Pt 3) → Option (List Mat3)
  | [] => some []
  | w :: ws => do
    let delta ← rotVec v w
    let R' := delta * R
    let rest ← chain w R' ws
    some (R' :: rest)

/-- `velocity_alignment_rotations`, `swept_volume.py:105-124` -/
def alignment (ts : List (Pt 3)) : Option (List Mat3) := do
  match (← velocities ts) with
  | [] => none                                          -- `velocities[0]`
  | v :: vs =>
    let R ← rotVec ![1, 0, 0] v
    let rest ← chain v R vs
    some (R :: rest)

/-- `this_transformation` with translation, rotation block and scale, `swept_volume.py:85-92` -/
def keyframe (t : Pt 3) (R : Option Mat3) (s : Option ℝ) : Mat4 :=
  let A : Mat4 := fun i j => if i = j then 1 else 0                                                                   -- line 85
  let A : Mat4 := fun i j => if h : i.val < 3 ∧ j = 3 then t ⟨i.val, h.1⟩ else A i j                                    -- line 86
  let A : Mat4 := match R with
    | some R => fun i j => if h : i.val < 3 ∧ j.val < 3 then R ⟨i.val, h.1⟩ ⟨j.val, h.2⟩ else A i j                     -- lines 88, 90
    | none => A
  match s with
  | some s => fun i j => if i.val < 3 ∧ j.val < 3 then s * A i j else A i j                                            -- line 92
  | none => A

/-- an entry of an optional list; an index out of range raises an exception -/
def entry {α : Type} (l : Option (List α)) (i : ℕ) : Option (Option α) :=
  match l with
  | none => some none
  | some l => (l[i]?).map some

/-- `transformations`, `swept_volume.py:75-93` -/
def keyframes (ts : List (Pt 3)) (rotations : Option (List Mat3)) (scales : Option (List ℝ)) (align : Bool) : Option (List Mat4) := do
  let vr ← if rotations.isNone && align then (alignment ts).map some else some none
  let rot := match rotations with
    | some r => some r
    | none => vr
  (List.range ts.length).mapM (fun i => do
    let t ← ts[i]?
    let R ← entry rot i
    let s ← entry scales i
    some (keyframe t R s))

/-- `np.vstack`, `swept_volume.py:95`: the rows one after another -/
def vstack (Ts : List Mat4) : List (Fin 4 → ℝ) := Ts.flatMap (fun T => [T 0, T 1, T 2, T 3])

/-- the transformations that `swept_volume.cpp:58-61` cuts out of the stacked matrix -/
def unstack (M : List (Fin 4 → ℝ)) : List Mat4 := (List.range (M.length / 4)).map (fun i => Matrix.of (fun r => M.getD (4 * i + r.val) 0))

end

end Gpy.SweptAlign
