import Verif.Model.CubeMesh
import Verif.Proofs.GridMesh
import Mathlib.Algebra.Order.Floor.Ring
import Mathlib.Data.Real.Archimedean
import Mathlib.Tactic.Positivity
import Mathlib.Algebra.BigOperators.Ring.List

set_option autoImplicit false
namespace Gpy
open Np

/-- a cell: row in z, x, y -/
structure Cell where
  k : ℕ
  i : ℕ
  j : ℕ
deriving DecidableEq

/-- a corner of a cell, as offsets in x, y, z -/
structure Off where
  x : ℕ
  y : ℕ
  z : ℕ
deriving DecidableEq

def cubeCells (nx ny nz : ℕ) : List Cell :=
  (List.range (nz - 1)).flatMap (fun k => (List.range (nx - 1)).flatMap (fun i => (List.range (ny - 1)).map (fun j => ⟨k, i, j⟩)))

theorem mem_cubeCells {nx ny nz : ℕ} {q : Cell} : q ∈ cubeCells nx ny nz ↔ q.k < nz - 1 ∧ q.i < nx - 1 ∧ q.j < ny - 1 := by
  unfold cubeCells
  simp only [List.mem_flatMap, List.mem_range, List.mem_map]
  constructor
  · rintro ⟨k, hk, i, hi, j, hj, rfl⟩; exact ⟨hk, hi, hj⟩
  · rintro ⟨h1, h2, h3⟩; exact ⟨q.k, h1, q.i, h2, q.j, h3, rfl⟩

theorem length_cubeCells (nx ny nz : ℕ) : (cubeCells nx ny nz).length = (nz - 1) * ((nx - 1) * (ny - 1)) := by
  unfold cubeCells; simp [List.length_flatMap]

/-- number of a corner -/
def crn (nx nz : ℕ) (o : Off) (q : Cell) : ℕ := cubeIdx nx nz (q.k + o.z) (q.i + o.x) (q.j + o.y)

theorem cubeSlice_eq (nx ny nz ok oi oj : ℕ) : cubeSlice nx ny nz ok oi oj = (cubeCells nx ny nz).map (crn nx nz ⟨oi, oj, ok⟩) := by
  unfold cubeSlice cubeCells crn
  simp [List.map_flatMap, Function.comp_def]

/-- a tetrahedron by its corners in a cell -/
structure TetOff where
  a : Off
  b : Off
  c : Off
  d : Off
deriving DecidableEq

def mkTet (nx nz : ℕ) (τ : TetOff) (q : Cell) : Tet := ⟨crn nx nz τ.a q, crn nx nz τ.b q, crn nx nz τ.c q, crn nx nz τ.d q⟩

theorem hstack4_map {α : Type} (l : List α) (f g h k : α → ℕ) : hstack4 (l.map f) (l.map g) (l.map h) (l.map k) = l.map (fun x => ⟨f x, g x, h x, k x⟩) := by
  unfold hstack4
  rw [List.zip_map', List.zip_map', List.zip_map', List.map_map]; rfl

/-- `v1 .. v8` -/
abbrev w1 : Off := ⟨0, 0, 0⟩
abbrev w2 : Off := ⟨1, 0, 0⟩
abbrev w3 : Off := ⟨0, 1, 0⟩
abbrev w4 : Off := ⟨1, 1, 0⟩
abbrev w5 : Off := ⟨0, 0, 1⟩
abbrev w6 : Off := ⟨1, 0, 1⟩
abbrev w7 : Off := ⟨0, 1, 1⟩
abbrev w8 : Off := ⟨1, 1, 1⟩

def tetTable : CubeType → List TetOff
  | .five => [⟨w5, w3, w2, w1⟩, ⟨w3, w2, w8, w5⟩, ⟨w3, w4, w8, w2⟩, ⟨w3, w8, w7, w5⟩, ⟨w2, w6, w8, w5⟩]
  | .reflectionally => [⟨w3, w4, w7, w1⟩, ⟨w4, w5, w7, w1⟩, ⟨w4, w8, w7, w5⟩, ⟨w2, w6, w8, w5⟩, ⟨w4, w2, w8, w5⟩, ⟨w4, w2, w5, w1⟩]
  | .rotationally => [⟨w1, w3, w7, w8⟩, ⟨w1, w8, w7, w5⟩, ⟨w1, w3, w8, w4⟩, ⟨w1, w4, w8, w2⟩, ⟨w1, w6, w8, w5⟩, ⟨w1, w2, w8, w6⟩]

theorem cubeT_eq (type : CubeType) (nx ny nz : ℕ) :
    cubeT type nx ny nz = (tetTable type).flatMap (fun τ => (cubeCells nx ny nz).map (mkTet nx nz τ)) := by
  unfold cubeT
  simp only [cubeSlice_eq, hstack4_map]
  cases type <;> simp [tetTable, mkTet]
  all_goals (repeat' constructor)

theorem mem_cubeT {type : CubeType} {nx ny nz : ℕ} {t : Tet} :
    t ∈ cubeT type nx ny nz ↔ ∃ τ ∈ tetTable type, ∃ q ∈ cubeCells nx ny nz, t = mkTet nx nz τ q := by
  rw [cubeT_eq, List.mem_flatMap]
  constructor
  · rintro ⟨τ, h1, h2⟩
    obtain ⟨q, h3, rfl⟩ := List.mem_map.mp h2
    exact ⟨τ, h1, q, h3, rfl⟩
  · rintro ⟨τ, h1, q, h2, rfl⟩
    exact ⟨τ, h1, List.mem_map_of_mem h2⟩

def Off.ok (o : Off) : Prop := o.x ≤ 1 ∧ o.y ≤ 1 ∧ o.z ≤ 1
instance (o : Off) : Decidable o.ok := by unfold Off.ok; infer_instance

theorem tetTable_ok : ∀ type, ∀ τ ∈ tetTable type, τ.a.ok ∧ τ.b.ok ∧ τ.c.ok ∧ τ.d.ok := by
  intro type; cases type <;> decide

theorem cubeIdx_lt {nx ny nz k i j : ℕ} (hk : k < nz) (hi : i < nx) (hj : j < ny) : cubeIdx nx nz k i j < nx * ny * nz := by
  unfold cubeIdx
  have h1 : i + nx * j < nx * ny := by
    calc i + nx * j < nx + nx * j := by omega
      _ = nx * (j + 1) := by ring
      _ ≤ nx * ny := Nat.mul_le_mul_left _ hj
  calc k + nz * (i + nx * j) < nz + nz * (i + nx * j) := by omega
    _ = nz * (i + nx * j + 1) := by ring
    _ ≤ nz * (nx * ny) := Nat.mul_le_mul_left _ h1
    _ = nx * ny * nz := by ring

theorem cubeIdx_inj {nx ny nz k i j k' i' j' : ℕ} (hk : k < nz) (hi : i < nx) (_ : j < ny) (hk' : k' < nz) (hi' : i' < nx) (_ : j' < ny)
    (h : cubeIdx nx nz k i j = cubeIdx nx nz k' i' j') : k = k' ∧ i = i' ∧ j = j' := by
  unfold cubeIdx at h
  have hz : 0 < nz := by omega
  have hx : 0 < nx := by omega
  have e1 : k = k' := by
    have := congrArg (· % nz) h
    simpa [Nat.add_mul_mod_self_left, Nat.mod_eq_of_lt hk, Nat.mod_eq_of_lt hk'] using this
  subst e1
  have h2 : i + nx * j = i' + nx * j' := Nat.eq_of_mul_eq_mul_left hz (by omega)
  have e2 : i = i' := by
    have := congrArg (· % nx) h2
    simpa [Nat.add_mul_mod_self_left, Nat.mod_eq_of_lt hi, Nat.mod_eq_of_lt hi'] using this
  subst e2
  exact ⟨rfl, rfl, Nat.eq_of_mul_eq_mul_left hx (by omega)⟩

theorem crn_lt {nx ny nz : ℕ} {o : Off} {q : Cell} (ho : o.ok) (hq : q ∈ cubeCells nx ny nz) : crn nx nz o q < nx * ny * nz := by
  rw [mem_cubeCells] at hq
  unfold Off.ok at ho
  exact cubeIdx_lt (by omega) (by omega) (by omega)

/-- width of a cell of the unit interval -/
noncomputable def ucell (n : ℕ) : ℝ := 1 / ((n : ℝ) - 1)

theorem ucell_pos {n : ℕ} (h : 2 ≤ n) : 0 < ucell n := by
  unfold ucell
  have : (2 : ℝ) ≤ n := by exact_mod_cast h
  apply div_pos <;> linarith

theorem ucell_mul {n : ℕ} (h : 2 ≤ n) : ((n : ℝ) - 1) * ucell n = 1 := by
  unfold ucell
  have : (2 : ℝ) ≤ n := by exact_mod_cast h
  field_simp [show (n : ℝ) - 1 ≠ 0 by linarith]

/-- position of a corner -/
noncomputable def cpos (nx ny nz : ℕ) (o : Off) (q : Cell) : V3 ℝ := ⟨(q.i + o.x) * ucell nx, (q.j + o.y) * ucell ny, (q.k + o.z) * ucell nz⟩

theorem flatMap_getElem?_block {α : Type} (m L : ℕ) (f : ℕ → List α) (hf : ∀ j, (f j).length = L) : ∀ {j r : ℕ}, j < m → r < L →
    ((List.range m).flatMap f)[j * L + r]? = (f j)[r]? := by
  induction m with
  | zero => intro j r h; omega
  | succ m ih =>
    intro j r hj hr
    have hl : ((List.range m).flatMap f).length = m * L := by simp [List.length_flatMap, hf]
    rw [List.range_succ, List.flatMap_append]
    by_cases h : j < m
    · rw [List.getElem?_append_left, ih h hr]
      rw [hl]
      calc j * L + r < j * L + L := by omega
        _ = (j + 1) * L := by ring
        _ ≤ m * L := Nat.mul_le_mul_right _ h
    · have : j = m := by omega
      subst this
      rw [List.getElem?_append_right (by omega), hl, Nat.add_sub_cancel_left]
      simp

theorem cubeV_get {nx ny nz k i j : ℕ} (hk : k < nz) (hi : i < nx) (hj : j < ny) :
    (cubeV nx ny nz)[cubeIdx nx nz k i j]? = some ⟨linspace 0 1 nx i, linspace 0 1 ny j, linspace 0 1 nz k⟩ := by
  unfold cubeV
  have e : cubeIdx nx nz k i j = j * (nx * nz) + (i * nz + k) := by unfold cubeIdx; ring
  have hr : i * nz + k < nx * nz := by
    calc i * nz + k < i * nz + nz := by omega
      _ = (i + 1) * nz := by ring
      _ ≤ nx * nz := Nat.mul_le_mul_right _ hi
  rw [e, flatMap_getElem?_block ny (nx * nz) _ (by intro j; simp [List.length_flatMap]) hj hr,
    flatMap_getElem?_block nx nz _ (by intro j; simp) hi hk]
  simp [hk]

theorem cubeV_crn {nx ny nz : ℕ} {o : Off} {q : Cell} (ho : o.ok) (hq : q ∈ cubeCells nx ny nz) :
    (cubeV nx ny nz)[crn nx nz o q]? = some (cpos nx ny nz o q) := by
  rw [mem_cubeCells] at hq
  unfold Off.ok at ho
  unfold crn cpos
  rw [cubeV_get (by omega) (by omega) (by omega)]
  unfold linspace ucell
  push_cast
  simp

/-- six times the volume, in cells -/
def offVol (τ : TetOff) : ℤ :=
  sixVol (K := ℤ) ⟨τ.a.x, τ.a.y, τ.a.z⟩ ⟨τ.b.x, τ.b.y, τ.b.z⟩ ⟨τ.c.x, τ.c.y, τ.c.z⟩ ⟨τ.d.x, τ.d.y, τ.d.z⟩

theorem sixVol_cpos (nx ny nz : ℕ) (τ : TetOff) (q : Cell) :
    sixVol (cpos nx ny nz τ.a q) (cpos nx ny nz τ.b q) (cpos nx ny nz τ.c q) (cpos nx ny nz τ.d q) =
      ucell nx * ucell ny * ucell nz * (offVol τ : ℝ) := by
  unfold offVol sixVol cpos V3.dot V3.cross
  simp only [V3.sub_x, V3.sub_y, V3.sub_z]
  push_cast
  ring

theorem offVol_pos : ∀ type, ∀ τ ∈ tetTable type, 1 ≤ offVol τ := by intro type; cases type <;> decide

theorem offVol_sum : ∀ type, ((tetTable type).map offVol).sum = 6 := by intro type; cases type <;> decide

end Gpy
