import Verif.Proofs.Ply7

/-!
# PLY: the file written for a mesh
-/

set_option autoImplicit false
namespace Gpy.Ply

def kV : List Name := [c! "x", c! "y", c! "z"]
def kN : List Name := [c! "nx", c! "ny", c! "nz"]
def kC : List Name := [c! "red", c! "green", c! "blue", c! "alpha"]
def kF : List Name := [c! "vertex_indices"]

/-- the group numbers of normals, vertex colours, face colours, faces -/
def gC (n : Bool) : ℕ := 1 + n.toNat
def gFC (n c : Bool) : ℕ := 1 + n.toNat + c.toNat
def gF (n c fc : Bool) : ℕ := 1 + n.toNat + c.toNat + fc.toNat

def ents (e : Name) (keys : List Name) (g : ℕ) : Table := keys.map (fun k => (fnv1a (e ++ k), g))

/-- the table of a file with or without normals, vertex colours, face colours, faces -/
def wtab (n c fc f : Bool) : Table :=
  ents (c! "vertex") kV 0 ++ (if n then ents (c! "vertex") kN 1 else []) ++ (if c then ents (c! "vertex") kC (gC n) else [])
    ++ (if fc then ents (c! "face") kC (gFC n c) else []) ++ (if f then ents (c! "face") kF (gF n c fc) else [])

/-- a block of properties -/
def blk (t : Ty) (l : Option Ty) (keys : List Name) : List DProp := keys.map (fun k => ⟨k, t, l⟩)

/-- the arrays -/
def wbufs (n c fc f : Bool) (M : Mesh) : List (List Byte) :=
  [bytesD M.V] ++ (if n then [bytesD M.N] else []) ++ (if c then [bytesC M.C] else []) ++ (if fc then [bytesC M.C] else []) ++ (if f then [bytesW M.F] else [])

/-- the properties of the elements -/
def vProps (n c : Bool) : List DProp := blk .float64 none kV ++ (if n then blk .float64 none kN else []) ++ (if c then blk .uint8 none kC else [])
def fProps (fc : Bool) : List DProp := (if fc then blk .uint8 none kC else []) ++ blk .uint32 (some .uint8) kF

theorem find_vV : ∀ n c fc f : Bool, ∀ k ∈ kV, (wtab n c fc f).find (c! "vertex") k = some 0 := by decide +kernel
theorem find_vN : ∀ n c fc f : Bool, n = true → ∀ k ∈ kN, (wtab n c fc f).find (c! "vertex") k = some 1 := by decide +kernel
theorem find_vC : ∀ n c fc f : Bool, c = true → ∀ k ∈ kC, (wtab n c fc f).find (c! "vertex") k = some (gC n) := by decide +kernel
theorem find_fC : ∀ n c fc f : Bool, fc = true → ∀ k ∈ kC, (wtab n c fc f).find (c! "face") k = some (gFC n c) := by decide +kernel
theorem find_fF : ∀ n c fc f : Bool, f = true → ∀ k ∈ kF, (wtab n c fc f).find (c! "face") k = some (gF n c fc) := by decide +kernel

/-- `plyFile` with the tests as parameters -/
def plyFileB (n c fc f : Bool) (M : Mesh) : WFile :=
  let f0 := addProps ⟨[], [], []⟩ (c! "vertex") kV .float64 M.V.length (bytesD M.V) none
  let f1 := if n then addProps f0 (c! "vertex") kN .float64 M.N.length (bytesD M.N) none else f0
  let f2 := if c then addProps f1 (c! "vertex") kC .uint8 M.C.length (bytesC M.C) none else f1
  let f3 := if fc then addProps f2 (c! "face") kC .uint8 M.C.length (bytesC M.C) none else f2
  if f then addProps f3 (c! "face") kF .uint32 M.F.length (bytesW M.F) (some (.uint8, 3)) else f3

theorem plyFile_eq (M : Mesh) : plyFile M = plyFileB (decide (0 < M.N.length)) (decide (0 < M.C.length ∧ M.C.length = M.V.length))
    (decide (0 < M.C.length ∧ M.C.length = M.F.length)) (decide (0 < M.F.length)) M := by
  unfold plyFile plyFileB
  simp only [decide_eq_true_eq]
  rfl

theorem plyFileB_tab (n c fc f : Bool) (M : Mesh) : (plyFileB n c fc f M).tab = wtab n c fc f := by
  cases n <;> cases c <;> cases fc <;> cases f <;> rfl

theorem plyFileB_bufs (n c fc f : Bool) (M : Mesh) : (plyFileB n c fc f M).bufs = wbufs n c fc f M := by
  cases n <;> cases c <;> cases fc <;> cases f <;> rfl

theorem plyFileB_elems (n c fc f : Bool) (M : Mesh) (h : fc = true → f = true ∧ M.C.length = M.F.length) :
    (plyFileB n c fc f M).elems = ⟨c! "vertex", M.V.length, (vProps n c).map DProp.wprp⟩
      :: (if f then [⟨c! "face", M.F.length, (fProps fc).map DProp.wprp⟩] else []) := by
  have hne : (c! "vertex" : Name) ≠ c! "face" := by decide
  cases fc with
  | false => cases n <;> cases c <;> cases f <;> simp [plyFileB, addProps, addToElem, hne, vProps, fProps, blk, kV, kN, kC, kF, DProp.wprp]
  | true =>
    obtain ⟨hf, hl⟩ := h rfl
    subst hf
    cases n <;> cases c <;> simp [plyFileB, addProps, addToElem, hne, vProps, fProps, blk, kV, kN, kC, kF, DProp.wprp, hl]

/-! ## rows -/

theorem pickRow_blk (tab : Table) (g g0 : ℕ) (en : Name) (t : Ty) (l : Option Ty) (keys : List Name) (cells : List (List (List Byte)))
    (hlen : cells.length = keys.length) (hf : ∀ k ∈ keys, tab.find en k = some g0) (ps : List DProp) (row : List (List (List Byte))) :
    pickRow same tab g en (blk t l keys ++ ps) (cells ++ row) = (if g = g0 then cells.flatMap List.flatten else []) ++ pickRow same tab g en ps row := by
  induction keys generalizing cells with
  | nil =>
    have : cells = [] := by simpa using hlen
    subst this
    simp [blk]
  | cons k keys ih =>
    cases cells with
    | nil => simp at hlen
    | cons c cells =>
      have := ih cells (by simpa using hlen) (fun k hk => hf k (by simp [hk]))
      simp only [blk, List.map_cons, List.cons_append, pickRow, List.zip_cons_cons, List.flatMap_cons] at *
      rw [this]
      have hk := hf k (by simp)
      by_cases hg : g = g0
      · subst hg; simp [pickCell, hk, flatMap_same]
      · have : ¬ g0 = g := fun h => hg h.symm
        simp [pickCell, hk, hg, this]

/-- the cells of a row of `V` or `N` -/
def cellsD (R : List (Fin 3 → D64)) (i : ℕ) : List (List (List Byte)) := (R[i]?).elim [] (fun r => (List.ofFn r).map (fun x => [List.ofFn x]))
/-- the cells of a colour -/
def cellsC (R : List (Fin 4 → Byte)) (i : ℕ) : List (List (List Byte)) := (R[i]?).elim [] (fun r => (List.ofFn r).map (fun x => [[x]]))
/-- the cells of a face -/
def cellsF (R : List (Fin 3 → W32)) (i : ℕ) : List (List (List Byte)) := (R[i]?).elim [] (fun r => [(List.ofFn r).map (fun x => List.ofFn x)])

theorem range_getElem {α β : Type} (R : List α) (f : α → List β) : (List.range R.length).flatMap (fun i => (R[i]?).elim [] f) = R.flatMap f := by
  induction R with
  | nil => rfl
  | cons a R ih =>
    rw [List.length_cons, List.range_succ_eq_map, List.flatMap_cons, List.flatMap_map, List.flatMap_cons]
    simp only [List.getElem?_cons_zero, Option.elim_some, List.getElem?_cons_succ]
    rw [ih]

theorem elim_flat {α : Type} (o : Option α) (f : α → List (List (List Byte))) : (o.elim [] f).flatMap List.flatten = o.elim [] (fun r => (f r).flatMap List.flatten) := by
  cases o <;> rfl

theorem flat_cellsD (R : List (Fin 3 → D64)) : (List.range R.length).flatMap (fun i => (cellsD R i).flatMap List.flatten) = bytesD R := by
  unfold cellsD bytesD
  simp only [elim_flat]
  rw [range_getElem R (fun r => ((List.ofFn r).map (fun x => [List.ofFn x])).flatMap List.flatten)]
  congr 1

theorem flat_cellsF (R : List (Fin 3 → W32)) : (List.range R.length).flatMap (fun i => (cellsF R i).flatMap List.flatten) = bytesW R := by
  unfold cellsF bytesW
  simp only [elim_flat]
  rw [range_getElem R (fun r => ([(List.ofFn r).map (fun x => List.ofFn x)] : List (List (List Byte))).flatMap List.flatten)]
  congr 1

theorem flat_cellsC (R : List (Fin 4 → Byte)) :
    (List.range R.length).flatMap (fun i => (cellsC R i).flatMap List.flatten) = R.flatMap (fun r => [r 0, r 1, r 2, r 3]) := by
  unfold cellsC
  simp only [elim_flat]
  rw [range_getElem R (fun r => ((List.ofFn r).map (fun x => [[x]])).flatMap List.flatten)]
  congr 1

end Gpy.Ply
