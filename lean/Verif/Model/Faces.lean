import Verif.Model.Edges
import Verif.Spec.TetFaces
import Mathlib.Data.List.Sort

/-! # `halffaces.py`, `faces.py`, `boundary_faces.py`, `volume.py` -/

set_option autoImplicit false
namespace Gpy
open Np

/-! Lexicographic order on rows of three integers, the order in which `np.unique(..., axis=0)` sorts rows. -/

instance : LE Tri := ⟨fun x y => x.a < y.a ∨ (x.a = y.a ∧ (x.b < y.b ∨ (x.b = y.b ∧ x.c ≤ y.c)))⟩
instance : LT Tri := ⟨fun x y => x.a < y.a ∨ (x.a = y.a ∧ (x.b < y.b ∨ (x.b = y.b ∧ x.c < y.c)))⟩
theorem Tri.le_def (x y : Tri) : x ≤ y ↔ x.a < y.a ∨ (x.a = y.a ∧ (x.b < y.b ∨ (x.b = y.b ∧ x.c ≤ y.c))) := Iff.rfl
theorem Tri.lt_def (x y : Tri) : x < y ↔ x.a < y.a ∨ (x.a = y.a ∧ (x.b < y.b ∨ (x.b = y.b ∧ x.c < y.c))) := Iff.rfl
instance (x y : Tri) : Decidable (x ≤ y) := by rw [Tri.le_def]; infer_instance
instance (x y : Tri) : Decidable (x < y) := by rw [Tri.lt_def]; infer_instance

instance : LinearOrder Tri where
  le_refl x := by rw [Tri.le_def]; omega
  le_trans x y z := by rw [Tri.le_def, Tri.le_def, Tri.le_def]; omega
  lt_iff_le_not_ge x y := by rw [Tri.le_def, Tri.le_def, Tri.lt_def]; omega
  le_antisymm x y := by
    rw [Tri.le_def, Tri.le_def]; intro h1 h2
    cases x; cases y; simp_all; omega
  le_total x y := by rw [Tri.le_def, Tri.le_def]; omega
  toDecidableLE := inferInstance
  toDecidableLT := inferInstance
  toDecidableEq := inferInstance

/-- One row of the array returned by `halffaces.py:41-44`. -/
structure Halffaces4 where
  h0 : Tri
  h1 : Tri
  h2 : Tri
  h3 : Tri
deriving DecidableEq, Repr

/-- `halffaces.py:38-45`; `none` models the failed assert in line 38. -/
def halffaces (T : List Tet) : Option (List Halffaces4) :=
  if T.length = 0 then none
  else some (T.map (fun t => ⟨⟨t.b, t.c, t.d⟩, ⟨t.d, t.c, t.a⟩, ⟨t.d, t.a, t.b⟩, ⟨t.b, t.a, t.c⟩⟩))

/-- `np.sort(., axis=1)` on a row of length three. -/
def Tri.sort (t : Tri) : Tri := match [t.a, t.b, t.c].insertionSort (· ≤ ·) with
  | [x, y, z] => ⟨x, y, z⟩
  | _ => t

/-- All outputs of `faces` (`faces.py:47-77`). -/
structure FacesOut where
  F : List Tri
  boundaryIndices : List ℕ
  interiorIndices : List ℕ
  nonmanifoldIndices : List ℕ
deriving DecidableEq, Repr

/-- `faces.py:47-77`.  `none` models the asserts in lines 47 and 64 and an `IndexError`. -/
def faces (T : List Tet) : Option FacesOut := do
  let hf ← halffaces T
  let flat := hf.map (·.h0) ++ hf.map (·.h1) ++ hf.map (·.h2) ++ hf.map (·.h3)          -- line 52
  let sorted := flat.map Tri.sort                                                      -- line 53
  let uniqueHf := npUnique sorted                                                      -- lines 54-55
  let uniqueIndices := npUniqueIndex sorted
  let uniqueCount := npUniqueCounts sorted
  let bdry ← npTakeN flat (npMask uniqueIndices (uniqueCount.map (fun c => c == 1)))    -- line 60
  let interior := npMask uniqueHf (uniqueCount.map (fun c => decide (c > 1)))           -- line 62
  let F := bdry ++ interior                                                            -- line 63
  if F.length ≠ uniqueHf.length then none else                                         -- line 64
  some {
    F := F
    boundaryIndices := List.range bdry.length                                          -- line 69
    interiorIndices := npWhere (uniqueCount.map (fun c => decide (c > 1)))             -- line 71
    nonmanifoldIndices := npWhere (uniqueCount.map (fun c => decide (c > 2))) }        -- line 74

/-- `boundary_faces.py:27-28`. -/
def boundaryFaces (T : List Tet) : Option (List Tri) := do
  let r ← faces T
  npTakeN r.F r.boundaryIndices

/-- One row of `vols`, `volume.py:44`. -/
def tetVolume {K : Type} [Field K] (a b c d : V3 K) : K := -V3.dot (a - d) (V3.cross (b - c) (c - d)) / 6

/-- `volume(V,T)`, `volume.py:39-46`; `none` = `IndexError`. -/
def volume {K : Type} [Field K] (V : List (V3 K)) (T : List Tet) : Option (List K) :=
  T.mapM (fun t => do some (tetVolume (← V[t.a]?) (← V[t.b]?) (← V[t.c]?) (← V[t.d]?)))

end Gpy
