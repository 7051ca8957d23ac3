import Mathlib.Algebra.Order.Field.Basic
import Mathlib.Algebra.Order.Group.Abs
import Mathlib.Data.Fin.VecNotation
import Mathlib.Data.List.Basic

/-!
# `copyleft/lazy_cage.py`, `copyleft/do_meshes_intersect.py`

The external routines (libigl, CGAL) are parameters: `offset d` is the offset surface at distance `d` on the grid, `decimateTo n m` the decimation to `n` faces,
`unite a b` the union of two meshes, `pairs m` the list of intersecting pairs of triangles of `m` and the input.
-/

set_option autoImplicit false
namespace Gpy.Cage

variable {K : Type} [Field K] [LinearOrder K]

/-- The external routines, for one input mesh.  `none` = exception. -/
structure Ext (K M P : Type) where
  offset : K → Option M
  decimateTo : ℕ → M → Option M
  unite : M → M → Option M
  pairs : M → Option (List P)

/-- `np.max`/`np.min` of a list of numbers; `none` (exception) when there are none -/
def amax : List K → Option K
  | [] => none
  | x :: l => some (l.foldl max x)

def amin : List K → Option K
  | [] => none
  | x :: l => some (l.foldl min x)

/-- `max_bb`, `lazy_cage.py:52`; `V` has rows of `d` numbers -/
def maxBB {d : ℕ} (V : List (Fin d → K)) : Option K :=
  ((List.finRange d).mapM (fun j => (amax (V.map (fun v => v j))).bind (fun a => (amin (V.map (fun v => v j))).map (fun b => |a - b|)))).bind
    (fun l => (amax l).map (fun x => x / 2))

variable {M P : Type}

/-- `do_meshes_intersect`, `do_meshes_intersect.py:48-56` -/
def doMeshesIntersect (inters : List P) : Bool × Option (List P) := if inters.length > 0 then (true, some inters) else (false, none)

/-- the variables of the loop; `clean` is unbound before the first round -/
structure St (K M : Type) where
  lo : K
  hi : K
  out : Option M
  clean : Option M

/-- one round, `lazy_cage.py:57-74` -/
def step (x : Ext K M P) (numFaces : ℕ) (st : St K M) : Option (St K M) :=
  let d := (st.lo + st.hi) / 2
  (x.offset d).bind (fun m => (x.decimateTo numFaces m).bind (fun m2 => (x.unite m2 m2).bind (fun c => (x.pairs c).map (fun ps =>
    if (doMeshesIntersect ps).1 then { st with lo := d, clean := some c } else { st with hi := d, out := some c, clean := some c }))))

/-- `max_iter` rounds, `lazy_cage.py:55-74` -/
def loop (x : Ext K M P) (numFaces : ℕ) : ℕ → St K M → Option (St K M)
  | 0, st => some st
  | n + 1, st => (step x numFaces st).bind (loop x numFaces n)

/-- `lazy_cage`, `lazy_cage.py:50-80`.  Outer `none` = exception (also of a name that is not bound, line 77), inner `none` = `(None, None)`. -/
def lazyCage {d : ℕ} (x : Ext K M P) (V : List (Fin d → K)) (maxIter numFaces : ℕ) (force : Bool) : Option (Option M) :=
  (maxBB V).bind (fun bb => (loop x numFaces maxIter ⟨0, bb, none, none⟩).bind (fun st =>
    match st.out with
    | some m => some (some m)
    | none => if force then st.clean.map some else some none))

end Gpy.Cage
