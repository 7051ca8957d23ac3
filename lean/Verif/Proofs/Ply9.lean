import Verif.Proofs.Ply8
import Mathlib.Tactic.IntervalCases

/-!
# PLY: what `write_mesh` writes
-/

set_option autoImplicit false
namespace Gpy.Ply

/-! ## the arrays -/

theorem bytesD_prefix (R : List (Fin 3 → D64)) (n : ℕ) (h : n ≤ R.length) : (List.range n).flatMap (fun i => (cellsD R i).flatMap List.flatten) <+: bytesD R := by
  rw [← flat_cellsD R]
  obtain ⟨k, hk⟩ := Nat.exists_eq_add_of_le h
  rw [hk, List.range_add, List.flatMap_append]
  exact List.prefix_append _ _

/-- the components of colours one after the other -/
def comps (C : List (Fin 4 → Byte)) : List Byte := C.flatMap (fun r => [r 0, r 1, r 2, r 3])

theorem comps_length (C : List (Fin 4 → Byte)) : (comps C).length = 4 * C.length := by
  induction C with
  | nil => rfl
  | cons r C ih =>
    have : comps (r :: C) = [r 0, r 1, r 2, r 3] ++ comps C := by simp [comps]
    rw [this, List.length_append, ih]; simp; ring

theorem comps_get (C : List (Fin 4 → Byte)) (i : ℕ) (hi : i < 4 * C.length) :
    (comps C)[i]? = some ((C.getD (i / 4) (fun _ => 0)) ⟨i % 4, Nat.mod_lt _ (by decide)⟩) := by
  induction C generalizing i with
  | nil => simp at hi
  | cons r C ih =>
    have hc : comps (r :: C) = [r 0, r 1, r 2, r 3] ++ comps C := by simp [comps]
    rw [hc]
    by_cases h4 : i < 4
    · rw [List.getElem?_append_left (by simpa using h4)]
      interval_cases i <;> rfl
    · rw [List.getElem?_append_right (by simp; omega)]
      have hlen : ([r 0, r 1, r 2, r 3] : List Byte).length = 4 := rfl
      rw [hlen, ih (i - 4) (by rw [List.length_cons] at hi; omega)]
      have h1 : i / 4 = (i - 4) / 4 + 1 := by omega
      have h2 : (i - 4) % 4 = i % 4 := by omega
      have h3 : ((r :: C).getD (i / 4) (fun _ => 0)) = (C.getD ((i - 4) / 4) (fun _ => 0)) := by rw [h1]; rfl
      rw [h3]
      exact congrArg (fun x => some (C.getD ((i - 4) / 4) (fun _ => 0) x)) (Fin.ext h2)

theorem bytesC_comps (C : List (Fin 4 → Byte)) : bytesC C = (comps C).flatMap (fun b => [b, 0, 0, 0]) := by
  induction C with
  | nil => rfl
  | cons r C ih =>
    have hc : comps (r :: C) = [r 0, r 1, r 2, r 3] ++ comps C := by simp [comps]
    have hb : bytesC (r :: C) = ([r 0, 0, 0, 0] ++ [r 1, 0, 0, 0] ++ [r 2, 0, 0, 0] ++ [r 3, 0, 0, 0]) ++ bytesC C := by simp [bytesC]
    rw [hb, hc, List.flatMap_append, ih]
    rfl

theorem scrambled_eq (C : List (Fin 4 → Byte)) : scrambled C = ((comps C).take C.length).map (fun b => fun j => if j = 0 then b else 0) := by
  apply List.ext_getElem?
  intro i
  unfold scrambled
  by_cases hi : i < C.length
  · rw [List.getElem?_map, List.getElem?_range hi, List.getElem?_map, List.getElem?_take_of_lt hi, comps_get C i (by omega)]
    rfl
  · rw [List.getElem?_eq_none (by simp; omega), List.getElem?_eq_none (by simp; omega)]

theorem scrambled_length (C : List (Fin 4 → Byte)) : (scrambled C).length = C.length := by simp [scrambled]

theorem bytesC_prefix (C : List (Fin 4 → Byte)) :
    (List.range (scrambled C).length).flatMap (fun i => (cellsC (scrambled C) i).flatMap List.flatten) <+: bytesC C := by
  rw [flat_cellsC, bytesC_comps, scrambled_eq, List.flatMap_map]
  have h1 : ((comps C).take C.length).flatMap (fun b => [if (0 : Fin 4) = 0 then b else 0, if (1 : Fin 4) = 0 then b else 0, if (2 : Fin 4) = 0 then b else 0,
      if (3 : Fin 4) = 0 then b else 0]) = ((comps C).take C.length).flatMap (fun b => [b, 0, 0, 0]) := rfl
  rw [h1]
  conv_rhs => rw [← List.take_append_drop C.length (comps C), List.flatMap_append]
  exact List.prefix_append _ _

/-! ## the document -/

/-- colours written with the vertices -/
def colV (M : Mesh) : List (Fin 4 → Byte) := if M.C.length = M.V.length then scrambled M.C else []
/-- colours written with the faces -/
def colF (M : Mesh) : List (Fin 4 → Byte) := if M.C.length = M.F.length then scrambled M.C else []

def vElem (n c : Bool) (M : Mesh) (cv : List (Fin 4 → Byte)) : DElem :=
  ⟨c! "vertex", vProps n c, (List.range M.V.length).map (fun i => cellsD M.V i ++ cellsD M.N i ++ cellsC cv i)⟩
def fElem (fc : Bool) (M : Mesh) (cf : List (Fin 4 → Byte)) : DElem :=
  ⟨c! "face", fProps fc, (List.range M.F.length).map (fun i => cellsC cf i ++ cellsF M.F i)⟩

theorem meshDoc_eq (M : Mesh) (cv cf : List (Fin 4 → Byte)) : meshDoc M cv cf
    = if decide (0 < M.F.length) then [vElem (decide (0 < M.N.length)) (decide (0 < cv.length)) M cv, fElem (decide (0 < cf.length)) M cf]
      else [vElem (decide (0 < M.N.length)) (decide (0 < cv.length)) M cv] := by
  have h : ∀ {α β : Type} (l : List α) (a b : β), (if l = [] then a else b) = if decide (0 < l.length) then b else a := by
    intro α β l a b
    cases l <;> simp
  unfold meshDoc
  simp only [h]
  rfl

theorem pickElem_v (n c fc f : Bool) (M : Mesh) (cv : List (Fin 4 → Byte)) (hn : n = false → M.N = []) (hN : n = true → M.V.length ≤ M.N.length)
    (hc : c = false → cv = []) (hC : c = true → cv.length = M.V.length) (g : ℕ) :
    pickElem same (wtab n c fc f) g (vElem n c M cv) = (List.range M.V.length).flatMap (fun i =>
      (if g = 0 then (cellsD M.V i).flatMap List.flatten else []) ++ ((if n = true ∧ g = 1 then (cellsD M.N i).flatMap List.flatten else [])
        ++ (if c = true ∧ g = gC n then (cellsC cv i).flatMap List.flatten else []))) := by
  unfold pickElem vElem
  rw [List.flatMap_map]
  rw [List.flatMap_def, List.flatMap_def]
  congr 1
  apply List.map_congr_left
  intro i hi
  have hi' := List.mem_range.mp hi
  have lV : (cellsD M.V i).length = kV.length := by
    unfold cellsD
    rw [List.getElem?_eq_getElem hi']; rfl
  simp only [vProps, List.append_assoc]
  rw [pickRow_blk _ g 0 _ _ _ kV (cellsD M.V i) lV (find_vV n c fc f)]
  congr 1
  have hlast : pickRow same (wtab n c fc f) g (c! "vertex") (if c then blk .uint8 none kC else []) (cellsC cv i)
      = if c = true ∧ g = gC n then (cellsC cv i).flatMap List.flatten else [] := by
    cases c with
    | false =>
      simp [pickRow]
    | true =>
      have hi2 : i < cv.length := by rw [hC rfl]; exact hi'
      have lC : (cellsC cv i).length = kC.length := by
        unfold cellsC
        rw [List.getElem?_eq_getElem hi2]; rfl
      have := pickRow_blk (wtab n true fc f) g (gC n) (c! "vertex") .uint8 none kC (cellsC cv i) lC (find_vC n true fc f rfl) [] []
      simp only [List.append_nil] at this
      simp only [if_true, true_and]
      rw [this]
      simp [pickRow]
  cases n with
  | false =>
    rw [hn rfl]
    have : cellsD [] i = [] := by simp [cellsD]
    rw [this]
    simp only [Bool.false_eq_true, if_false, List.nil_append, false_and]
    exact hlast
  | true =>
    have hi2 : i < M.N.length := lt_of_lt_of_le hi' (hN rfl)
    have lN : (cellsD M.N i).length = kN.length := by
      unfold cellsD
      rw [List.getElem?_eq_getElem hi2]; rfl
    simp only [if_true, true_and]
    rw [pickRow_blk _ g 1 _ _ _ kN (cellsD M.N i) lN (find_vN true c fc f rfl), hlast]

theorem pickElem_f (n c fc : Bool) (M : Mesh) (cf : List (Fin 4 → Byte)) (hc : fc = false → cf = []) (hC : fc = true → cf.length = M.F.length) (g : ℕ) :
    pickElem same (wtab n c fc true) g (fElem fc M cf) = (List.range M.F.length).flatMap (fun i =>
      (if fc = true ∧ g = gFC n c then (cellsC cf i).flatMap List.flatten else []) ++ (if g = gF n c fc then (cellsF M.F i).flatMap List.flatten else [])) := by
  unfold pickElem fElem
  rw [List.flatMap_map]
  rw [List.flatMap_def, List.flatMap_def]
  congr 1
  apply List.map_congr_left
  intro i hi
  have hi' := List.mem_range.mp hi
  have lF : (cellsF M.F i).length = kF.length := by
    unfold cellsF
    rw [List.getElem?_eq_getElem hi']; rfl
  have hF := pickRow_blk (wtab n c fc true) g (gF n c fc) (c! "face") .uint32 (some .uint8) kF (cellsF M.F i) lF (find_fF n c fc true rfl) [] []
  simp only [List.append_nil] at hF
  have hF' : pickRow same (wtab n c fc true) g (c! "face") (blk .uint32 (some .uint8) kF) (cellsF M.F i)
      = if g = gF n c fc then (cellsF M.F i).flatMap List.flatten else [] := by rw [hF]; simp [pickRow]
  simp only [fProps]
  cases fc with
  | false =>
    rw [hc rfl]
    have : cellsC [] i = [] := by simp [cellsC]
    rw [this]
    simp only [Bool.false_eq_true, if_false, List.nil_append, false_and]
    exact hF'
  | true =>
    have hi2 : i < cf.length := by rw [hC rfl]; exact hi'
    have lC : (cellsC cf i).length = kC.length := by
      unfold cellsC
      rw [List.getElem?_eq_getElem hi2]; rfl
    simp only [if_true, true_and]
    rw [pickRow_blk _ g (gFC n c) _ _ _ kC (cellsC cf i) lC (find_fC n c true true rfl), hF']

/-! ## cells -/

theorem f2_append {ps ps' : List DProp} {r r' : List (List (List Byte))} (h : List.Forall₂ WCell ps r) (h' : List.Forall₂ WCell ps' r') :
    List.Forall₂ WCell (ps ++ ps') (r ++ r') := by
  induction h with
  | nil => exact h'
  | cons a _ ih => exact List.Forall₂.cons a ih

theorem wcell_D (R : List (Fin 3 → D64)) (i : ℕ) (hi : i < R.length) (keys : List Name) (hk : keys.length = 3) : List.Forall₂ WCell (blk .float64 none keys) (cellsD R i) := by
  unfold cellsD
  rw [List.getElem?_eq_getElem hi]
  obtain ⟨a, b, c, rfl⟩ := List.length_eq_three.mp hk
  have h : ∀ (k : Name) (x : D64), WCell ⟨k, .float64, none⟩ [List.ofFn x] := fun k x => ⟨by
    intro v hv; rw [List.mem_singleton.mp hv, List.length_ofFn]; rfl, rfl⟩
  exact .cons (h _ _) (.cons (h _ _) (.cons (h _ _) .nil))

theorem wcell_C (R : List (Fin 4 → Byte)) (i : ℕ) (hi : i < R.length) : List.Forall₂ WCell (blk .uint8 none kC) (cellsC R i) := by
  unfold cellsC
  rw [List.getElem?_eq_getElem hi]
  have h : ∀ (k : Name) (x : Byte), WCell ⟨k, .uint8, none⟩ [[x]] := fun k x => ⟨by
    intro v hv; rw [List.mem_singleton.mp hv]; rfl, rfl⟩
  exact .cons (h _ _) (.cons (h _ _) (.cons (h _ _) (.cons (h _ _) .nil)))

theorem wcell_F (R : List (Fin 3 → W32)) (i : ℕ) (hi : i < R.length) : List.Forall₂ WCell (blk .uint32 (some .uint8) kF) (cellsF R i) := by
  unfold cellsF
  rw [List.getElem?_eq_getElem hi]
  refine .cons ⟨?_, ?_⟩ .nil
  · intro v hv
    obtain ⟨x, _, rfl⟩ := List.mem_map.mp hv
    rw [List.length_ofFn]; rfl
  · simp

end Gpy.Ply
