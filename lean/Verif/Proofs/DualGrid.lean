import Verif.Model.DualContouring
import Verif.Spec.DualMesh
import Mathlib.Tactic.Linarith
import Mathlib.Tactic.IntervalCases

/-! Cells keep their place, corners, samples and sign pattern through all passes. -/

set_option autoImplicit false
namespace Gpy.Dual

theorem block_length {β : Type} (B : ℕ → List β) (n m : ℕ) (hB : ∀ k < n, (B k).length = m) : ((List.range n).flatMap B).length = n * m := by
  induction n with
  | zero => simp
  | succ n ih =>
    rw [List.range_succ, List.flatMap_append, List.length_append, ih (fun k hk => hB k (by omega))]
    simp [hB n (by omega)]; ring

theorem block_get {β : Type} (B : ℕ → List β) (n m : ℕ) (hB : ∀ k < n, (B k).length = m) (k r : ℕ) (hk : k < n) (hr : r < m) :
    ((List.range n).flatMap B)[r + m * k]? = (B k)[r]? := by
  induction n with
  | zero => omega
  | succ n ih =>
    have hl : ((List.range n).flatMap B).length = n * m := block_length B n m (fun k hk => hB k (by omega))
    rw [List.range_succ, List.flatMap_append]
    by_cases h : k < n
    · have : r + m * k < n * m := by
        have : m * (k + 1) ≤ m * n := Nat.mul_le_mul_left m h
        nlinarith
      rw [List.getElem?_append_left (by omega)]
      exact ih (fun k hk => hB k (by omega)) h
    · have : k = n := by omega
      subst this
      rw [List.getElem?_append_right (by rw [hl, Nat.mul_comm]; omega), hl]
      simp [Nat.mul_comm]

/-- the number of a cell -/
def cellNo (g : Grid) (c : Ijk) : ℕ := c.1 + (g.nx - 1) * (c.2.1 + (g.ny - 1) * c.2.2)

/-- a cell of the grid -/
def Grid.Cell (g : Grid) (c : Ijk) : Prop := c.1 + 1 < g.nx ∧ c.2.1 + 1 < g.ny ∧ c.2.2 + 1 < g.nz

theorem cellIdx_eq (g : Grid) (c : Ijk) (hc : g.Cell c) : cellIdx g.nx g.ny c.1 c.2.1 c.2.2 = (cellNo g c : ℤ) := by
  obtain ⟨h1, h2, h3⟩ := hc
  unfold cellIdx cellNo
  push_cast [Nat.cast_sub (show 1 ≤ g.nx by omega), Nat.cast_sub (show 1 ≤ g.ny by omega)]
  ring

theorem row_length (g : Grid) (j k : ℕ) : ((List.range (g.nx - 1)).map (fun i => genCell g i j k)).length = g.nx - 1 := by simp

theorem gen_length (g : Grid) : (generateCells g).length = (g.nz - 1) * ((g.ny - 1) * (g.nx - 1)) := by
  unfold generateCells
  exact block_length _ _ _ (fun k _ => block_length _ _ _ (fun j _ => row_length g j k))

theorem cellNo_lt (g : Grid) (c : Ijk) (hc : g.Cell c) : cellNo g c < (generateCells g).length := by
  obtain ⟨h1, h2, h3⟩ := hc
  rw [gen_length]; unfold cellNo
  have a1 : c.1 + 1 ≤ g.nx - 1 := by omega
  have a2 : c.2.1 + 1 ≤ g.ny - 1 := by omega
  have a3 : c.2.2 + 1 ≤ g.nz - 1 := by omega
  generalize g.nx - 1 = X at *
  generalize g.ny - 1 = Y at *
  generalize g.nz - 1 = Z at *
  have e1 : Y * (c.2.2 + 1) ≤ Y * Z := Nat.mul_le_mul_left Y a3
  have e2 : X * (c.2.1 + Y * c.2.2 + 1) ≤ X * (Y * Z) := Nat.mul_le_mul_left X (by nlinarith)
  nlinarith

theorem gen_get (g : Grid) (c : Ijk) (hc : g.Cell c) : (generateCells g)[cellNo g c]? = some (genCell g c.1 c.2.1 c.2.2) := by
  obtain ⟨h1, h2, h3⟩ := hc
  have a1 : c.1 < g.nx - 1 := by omega
  have a2 : c.2.1 < g.ny - 1 := by omega
  have a3 : c.2.2 < g.nz - 1 := by omega
  have e : cellNo g c = (c.1 + (g.nx - 1) * c.2.1) + ((g.ny - 1) * (g.nx - 1)) * c.2.2 := by unfold cellNo; ring
  have lt : c.1 + (g.nx - 1) * c.2.1 < (g.ny - 1) * (g.nx - 1) := by
    have : (g.nx - 1) * (c.2.1 + 1) ≤ (g.nx - 1) * (g.ny - 1) := Nat.mul_le_mul_left _ a2
    nlinarith
  unfold generateCells
  rw [e, block_get _ _ ((g.ny - 1) * (g.nx - 1)) (fun k _ => block_length _ _ _ (fun j _ => row_length g j k)) _ _ a3 lt,
    block_get _ _ (g.nx - 1) (fun j _ => row_length g j _) _ _ a2 a1]
  simp [a1]

theorem cellNo_surj (g : Grid) (n : ℕ) (hn : n < (generateCells g).length) : ∃ c, g.Cell c ∧ cellNo g c = n := by
  rw [gen_length] at hn
  have hX : 0 < g.nx - 1 := by
    rcases Nat.eq_zero_or_pos (g.nx - 1) with h | h
    · rw [h] at hn; simp at hn
    · exact h
  have hY : 0 < g.ny - 1 := by
    rcases Nat.eq_zero_or_pos (g.ny - 1) with h | h
    · rw [h] at hn; simp at hn
    · exact h
  refine ⟨(n % (g.nx - 1), n / (g.nx - 1) % (g.ny - 1), n / (g.nx - 1) / (g.ny - 1)), ⟨?_, ?_, ?_⟩, ?_⟩
  · have := Nat.mod_lt n hX; simp only; omega
  · have := Nat.mod_lt (n / (g.nx - 1)) hY; simp only; omega
  · have h : n / (g.nx - 1) / (g.ny - 1) < g.nz - 1 := by
      rw [Nat.div_div_eq_div_mul, Nat.div_lt_iff_lt_mul (Nat.mul_pos hX hY)]
      calc n < (g.nz - 1) * ((g.ny - 1) * (g.nx - 1)) := hn
        _ = (g.nz - 1) * ((g.nx - 1) * (g.ny - 1)) := by ring
    show n / (g.nx - 1) / (g.ny - 1) + 1 < g.nz
    generalize n / (g.nx - 1) / (g.ny - 1) = z at h
    clear hn; omega
  · unfold cellNo
    simp only [Nat.mod_add_div]

theorem cellNo_inj (g : Grid) (c c' : Ijk) (hc : g.Cell c) (hc' : g.Cell c') (h : cellNo g c = cellNo g c') : c = c' := by
  have e1 := gen_get g c hc
  have key : ∀ d : Ijk, g.Cell d → d = (cellNo g d % (g.nx - 1), cellNo g d / (g.nx - 1) % (g.ny - 1), cellNo g d / (g.nx - 1) / (g.ny - 1)) := by
    rintro ⟨i, j, k⟩ ⟨h1, h2, h3⟩
    simp only at h1 h2 h3
    have a : (i + (g.nx - 1) * (j + (g.ny - 1) * k)) % (g.nx - 1) = i := by rw [Nat.add_mul_mod_self_left]; exact Nat.mod_eq_of_lt (by omega)
    have b : (i + (g.nx - 1) * (j + (g.ny - 1) * k)) / (g.nx - 1) = j + (g.ny - 1) * k := by
      rw [Nat.add_mul_div_left _ _ (by omega), Nat.div_eq_of_lt (by omega)]; omega
    have c : (j + (g.ny - 1) * k) % (g.ny - 1) = j := by rw [Nat.add_mul_mod_self_left]; exact Nat.mod_eq_of_lt (by omega)
    have d : (j + (g.ny - 1) * k) / (g.ny - 1) = k := by
      rw [Nat.add_mul_div_left _ _ (by omega), Nat.div_eq_of_lt (by omega)]; omega
    simp only [cellNo, a, b, c, d]
  rw [key c hc, key c' hc', h]

/-- two lists of cells agree place by place -/
def Rel (R : Cell → Cell → Prop) (l l' : List Cell) : Prop := l'.length = l.length ∧ ∀ (n : ℕ) (b c : Cell), l[n]? = some b → l'[n]? = some c → R b c

theorem Rel.refl {R : Cell → Cell → Prop} (h : ∀ b, R b b) (l : List Cell) : Rel R l l :=
  ⟨rfl, fun n b c hb hc => by rw [hb] at hc; cases hc; exact h b⟩

theorem Rel.get {R : Cell → Cell → Prop} {l l' : List Cell} (h : Rel R l l') {n : ℕ} {b : Cell} (hb : l[n]? = some b) : ∃ c, l'[n]? = some c ∧ R b c := by
  have hn : n < l'.length := by rw [h.1]; exact (List.getElem?_eq_some_iff.mp hb).1
  exact ⟨l'[n], List.getElem?_eq_getElem hn, h.2 n b _ hb (List.getElem?_eq_getElem hn)⟩

theorem Rel.get' {R : Cell → Cell → Prop} {l l' : List Cell} (h : Rel R l l') {n : ℕ} {c : Cell} (hc : l'[n]? = some c) : ∃ b, l[n]? = some b ∧ R b c := by
  have hn : n < l.length := by rw [← h.1]; exact (List.getElem?_eq_some_iff.mp hc).1
  exact ⟨l[n], List.getElem?_eq_getElem hn, h.2 n _ c (List.getElem?_eq_getElem hn) hc⟩

theorem Rel.map {R R' : Cell → Cell → Prop} {l l' : List Cell} (h : Rel R l l') (f : Cell → Cell) (hf : ∀ (n : ℕ) (b c : Cell), l[n]? = some b → l'[n]? = some c → R b c → R' b (f c)) : Rel R' l (l'.map f) := by
  refine ⟨by rw [List.length_map, h.1], fun n b c hb hc => ?_⟩
  obtain ⟨c', hc', hR⟩ := h.get hb
  rw [List.getElem?_map, hc'] at hc
  cases hc
  exact hf n b c' hb hc' hR

theorem Rel.modify {R : Cell → Cell → Prop} {l l' : List Cell} (h : Rel R l l') (i : ℕ) (f : Cell → Cell) (hf : ∀ b c, l[i]? = some b → l'[i]? = some c → R b c → R b (f c)) :
    Rel R l (l'.modify i f) := by
  refine ⟨by rw [List.length_modify, h.1], fun n b c hb hc => ?_⟩
  obtain ⟨c', hc', hR⟩ := h.get hb
  rw [List.getElem?_modify] at hc
  by_cases hi : i = n
  · subst hi
    rw [hc'] at hc
    simp at hc
    rw [← hc]; exact hf b c' hb hc' hR
  · rw [hc'] at hc
    simp [hi] at hc
    rw [← hc]; exact hR

end Gpy.Dual
