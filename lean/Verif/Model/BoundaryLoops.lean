import Verif.Model.Edges

/-! `boundary_loops.py`. -/

set_option autoImplicit false
namespace Gpy
open Np

/-- `np.where(mask & unseen)[0]` for a condition on the rows of `bE` (lines 56, 57, 65). -/
def blWhere (bE : List Edge) (unseen : List Bool) (p : Edge → Bool) : List ℕ :=
  (List.range bE.length).filter (fun i => (bE[i]?.map p == some true) && (unseen[i]? == some true))

/-- Lines 55-71: the next boundary edge and the next head; `none` is the failed assertion of line 67. -/
def blNext (bE : List Edge) (allow : Bool) (unseen : List Bool) (head : ℕ) : Option (ℕ × ℕ) :=
  let c0 := blWhere bE unseen (fun e => e.s == head)
  let c1 := blWhere bE unseen (fun e => e.t == head)
  if allow then
    if c0.length > c1.length then
      match c0 with
      | [i] => (bE[i]?).map (fun e => (i, e.t))                       -- lines 58-60, 71
      | _ => none
    else
      match c1 with
      | [i] => (bE[i]?).map (fun e => (i, e.s))                       -- lines 61-63, 71
      | _ => none
  else
    match c0 with
    | [i] => (bE[i]?).map (fun e => (i, e.t))                         -- lines 65-66, 71
    | _ => none

/-- The inner loop, lines 52-71: `(loop_vertices, unseen)`.  The fuel bounds the number of rounds; see `C14_fuel`. -/
def blTrace (bE : List Edge) (allow : Bool) (start : ℕ) : ℕ → List Bool → ℕ → List ℕ → Option (List ℕ × List Bool)
  | 0, _, _, _ => none
  | fuel + 1, unseen, head, acc =>
    if head = start then some (acc, unseen)
    else
      match blNext bE allow unseen head with
      | none => none
      | some (i, head') => blTrace bE allow start fuel (unseen.set i false) head' (acc ++ [head])

/-- The outer loop, lines 42-73. -/
def blLoops (bE : List Edge) (allow : Bool) (inner : ℕ) : ℕ → List Bool → List (List ℕ) → Option (List (List ℕ))
  | 0, _, _ => none
  | fuel + 1, unseen, loops =>
    if unseen.any (fun b => b) then
      let i := unseen.idxOf true                                      -- line 43
      match bE[i]? with
      | none => none
      | some e =>
        match blTrace bE allow e.s inner (unseen.set i false) e.t [e.s] with
        | none => none
        | some (loop, unseen') => blLoops bE allow inner fuel unseen' (loops ++ [loop])
    else some loops

/-- `boundary_loops(f, allow_wrong_orientations)`, `boundary_loops.py:30-76`, with `fuel` rounds for each `while` loop. -/
def boundaryLoopsFuel (fuel : ℕ) (F : List Tri) (allow : Bool) : Option (List (List ℕ)) := do
  if F.length = 0 then none else                                      -- line 30
  let nm ← nonManifoldEdges F
  if nm.length ≠ 0 then none else                                     -- line 34
  let bE ← boundaryEdges F                                            -- line 36
  let loops ← blLoops bE allow fuel fuel (List.replicate bE.length true) []     -- lines 40-73
  if (loops.map List.length).sum ≠ bE.length then none else           -- line 75
  some loops

/-- `boundary_loops(f, allow_wrong_orientations)`: both `while` loops together make at most as many rounds as there are boundary edges
(`C14_fuel` proves that more rounds change nothing). -/
def boundaryLoops (F : List Tri) (allow : Bool) : Option (List (List ℕ)) := boundaryLoopsFuel (3 * F.length + 1) F allow

end Gpy
