import Verif.Proofs.GridEigen
import Verif.Props.Generators
import Mathlib.Algebra.Order.Floor.Semiring
import Mathlib.Data.Fintype.Card
import Mathlib.Data.Fintype.EquivFin
import Mathlib.Tactic.IntervalCases

/-! C95: `grid_laplacian_eigenfunctions`. -/

set_option autoImplicit false
namespace Gpy
open Np Finset

/-- `mode s`, `s < num`, lists `num` different modes of the box by increasing eigenvalue, and no mode left out has a smaller eigenvalue than one listed -/
structure LowestModes {d : ℕ} (l : Fin d → ℝ) (num : ℕ) (mode : ℕ → Fin d → ℕ) : Prop where
  distinct : ∀ s < num, ∀ s' < num, mode s = mode s' → s = s'
  sorted : ∀ s < num, ∀ s' < num, s ≤ s' → modeVal l (mode s) ≤ modeVal l (mode s')
  lowest : ∀ n, (∀ s < num, mode s ≠ n) → ∀ s < num, modeVal l (mode s) ≤ modeVal l n

/-- the sorted candidates -/
theorem modes_of_order {d : ℕ} {argsort : List ℝ → List ℕ} (hA : IsArgsort argsort) (l : Fin d → ℝ) (cnt : ℕ) (cand : ℕ → Fin d → ℕ)
    (hinj : ∀ k < cnt, ∀ k' < cnt, cand k = cand k' → k = k') :
    ∃ o : List ℕ, argsort ((List.range cnt).map (fun k => modeVal l (cand k))) = o ∧ o.length = cnt ∧
      (∀ s < cnt, ∀ s' < cnt, cand (o.getD s 0) = cand (o.getD s' 0) → s = s') ∧
      (∀ s < cnt, ∀ s' < cnt, s ≤ s' → modeVal l (cand (o.getD s 0)) ≤ modeVal l (cand (o.getD s' 0))) ∧
      (∀ s < cnt, o.getD s 0 < cnt ∧ o[s]? = some (o.getD s 0)) ∧
      (∀ k < cnt, ∃ s < cnt, o.getD s 0 = k) := by
  obtain ⟨o, ho, hp, hs⟩ := order_spec hA cnt (fun k => modeVal l (cand k))
  have hlen : o.length = cnt := by rw [hp.length_eq, List.length_range]
  have hget : ∀ s (h : s < cnt), o.getD s 0 = o[s]'(by omega) := fun s h => by
    rw [List.getD_eq_getElem?_getD, List.getElem?_eq_getElem (by omega), Option.getD_some]
  have hlt : ∀ s (h : s < cnt), o[s]'(by omega) < cnt := fun s h => List.mem_range.mp (hp.mem_iff.mp (List.getElem_mem (by omega)))
  refine ⟨o, ho, hlen, ?_, ?_, ?_, ?_⟩
  · intro s h s' h' he
    rw [hget s h, hget s' h'] at he
    have := hinj _ (hlt s h) _ (hlt s' h') he
    exact ((hp.nodup_iff.mpr List.nodup_range).getElem_inj_iff (hi := by omega) (hj := by omega)).mp this
  · intro s h s' h' hle
    rw [hget s h, hget s' h']
    rcases Nat.lt_or_ge s s' with h1 | h1
    · exact hs s s' (by omega) (by omega) h1
    · have : s = s' := by omega
      subst this; exact le_refl _
  · intro s h
    rw [hget s h]
    exact ⟨hlt s h, List.getElem?_eq_getElem (by omega)⟩
  · intro k hk
    obtain ⟨s, hs, rfl⟩ := List.getElem_of_mem (hp.mem_iff.mpr (List.mem_range.mpr hk))
    exact ⟨s, by omega, hget s (by omega)⟩

theorem modeVal_two (l : Fin 2 → ℝ) (n : Fin 2 → ℕ) : modeVal l n = (n 0 * Real.pi / l 0) ^ 2 + (n 1 * Real.pi / l 1) ^ 2 := by
  simp [modeVal, Fin.sum_univ_two]

theorem cand2_inj {num k k' : ℕ} (h : (![k / num, k % num] : Fin 2 → ℕ) = ![k' / num, k' % num]) : k = k' := by
  have h0 := congrFun h 0
  have h1 := congrFun h 1
  simp only [Matrix.cons_val_zero, Matrix.cons_val_one] at h0 h1
  rw [← Nat.div_add_mod k num, ← Nat.div_add_mod k' num, h0, h1]

theorem sq_mono_div {a b : ℕ} (h : a ≤ b) (c x : ℝ) : (a * c / x) ^ 2 ≤ (b * c / x) ^ 2 := by
  have h1 : (a : ℝ) ≤ b := by exact_mod_cast h
  have h0 : (0 : ℝ) ≤ a := Nat.cast_nonneg a
  rw [div_pow, div_pow, mul_pow, mul_pow]
  have : (a : ℝ) ^ 2 ≤ b ^ 2 := by nlinarith
  exact div_le_div_of_nonneg_right (mul_le_mul_of_nonneg_right this (sq_nonneg _)) (sq_nonneg _)

/-- **C95** on a planar grid the columns are `num_modes` different eigenfunctions of the Laplacian on the box `[0,l₀]×[0,l₁]` with Neumann
conditions, sampled at the grid points (first coordinate fastest), sorted by eigenvalue, and there is no mode with a smaller eigenvalue
than a returned one that is not returned itself. -/
theorem C95_planar {argsort : List ℝ → List ℕ} (hA : IsArgsort argsort) (num : ℕ) (g : Fin 2 → ℕ) (l : Fin 2 → ℝ) (hl : ∀ k, l k ≠ 0) :
    ∃ M mode, gridEig2 argsort num g l = some M ∧ M.nrows = g 1 * g 0 ∧ M.ncols = num ∧ LowestModes l num mode ∧
      (∀ s, IsNeumannMode l (modeVal l (mode s)) (cosMode l (mode s))) ∧ (∀ s < num, ∀ k, mode s k < num) ∧
      ∀ s < num, ∀ i < g 0, ∀ j < g 1, M.get (j * g 0 + i) s = cosMode l (mode s) ![i * (l 0 / (g 0 - 1)), j * (l 1 / (g 1 - 1))] := by
  obtain ⟨o, ho, hlen, h1, h2, h3, h4⟩ := modes_of_order hA l (num * num) (fun k => ![k / num, k % num]) (fun k _ k' _ h => cand2_inj h)
  have hle : ∀ s < num, s < num * num := fun s hs => lt_of_lt_of_le hs (Nat.le_mul_of_pos_left _ (by omega))
  refine ⟨_, fun s => ![o.getD s 0 / num, o.getD s 0 % num], if_neg (by push Not; exact hl), ?_, rfl, ⟨?_, ?_, ?_⟩, fun s => cosMode_neumann l hl _, ?_, ?_⟩
  · simp [eigFill, eigGrid2, List.length_flatMap]
  · exact fun s hs s' hs' h => h1 s (hle s hs) s' (hle s' hs') h
  · exact fun s hs s' hs' h => h2 s (hle s hs) s' (hle s' hs') h
  · intro n hn s hs
    by_cases hc : n 0 < num ∧ n 1 < num
    · obtain ⟨p, hp, hop⟩ := h4 (n 0 * num + n 1) (by
        calc n 0 * num + n 1 < n 0 * num + num := by omega
          _ = (n 0 + 1) * num := by ring
          _ ≤ num * num := Nat.mul_le_mul_right _ hc.1)
      have hmode : (![o.getD p 0 / num, o.getD p 0 % num] : Fin 2 → ℕ) = n := by
        rw [hop]
        funext k
        fin_cases k
        · simp only [Fin.zero_eta, Matrix.cons_val_zero]
          rw [Nat.mul_comm, Nat.mul_add_div (by omega), Nat.div_eq_of_lt hc.2, Nat.add_zero]
        · simp only [Fin.mk_one, Matrix.cons_val_one, Matrix.cons_val_zero]
          rw [Nat.mul_comm, Nat.mul_add_mod, Nat.mod_eq_of_lt hc.2]
      have hps : num ≤ p := by
        by_contra hlt
        exact hn p (by omega) hmode
      have := h2 s (hle s hs) p hp (by omega)
      simp only [hmode] at this
      exact this
    · by_contra hgt
      push Not at hgt
      -- `num` candidates are not above `n`, hence before position `s`
      have key : ∃ f : Fin num → Fin s, Function.Injective f := by
        obtain ⟨c, hcinj, hclt, hcv⟩ : ∃ c : ℕ → ℕ, (∀ k < num, ∀ k' < num, c k = c k' → k = k') ∧ (∀ k < num, c k < num * num) ∧
            ∀ k < num, modeVal l ![c k / num, c k % num] ≤ modeVal l n := by
          by_cases h0 : n 0 < num
          · have h1 : num ≤ n 1 := by
              by_contra h; exact hc ⟨h0, by omega⟩
            refine ⟨fun k => k, fun _ _ _ _ h => h, hle, fun k hk => ?_⟩
            rw [modeVal_two, modeVal_two]
            simp only [Matrix.cons_val_zero, Matrix.cons_val_one, Nat.div_eq_of_lt hk, Nat.mod_eq_of_lt hk]
            exact add_le_add (sq_mono_div (Nat.zero_le _) _ _) (sq_mono_div (by omega) _ _)
          · refine ⟨fun k => k * num, fun k hk k' _ h => Nat.eq_of_mul_eq_mul_right (by omega) h, fun k hk => Nat.mul_lt_mul_of_pos_right hk (by omega), fun k hk => ?_⟩
            rw [modeVal_two, modeVal_two]
            simp only [Matrix.cons_val_zero, Matrix.cons_val_one, Nat.mul_div_cancel k (show 0 < num by omega), Nat.mul_mod_left]
            exact add_le_add (sq_mono_div (by omega) _ _) (sq_mono_div (Nat.zero_le _) _ _)
        have hpos : ∀ k : Fin num, ∃ p : Fin s, o.getD p 0 = c k := by
          intro k
          obtain ⟨p, hp, hop⟩ := h4 (c k) (hclt k k.isLt)
          have hps : p < s := by
            by_contra hps
            have := h2 s (hle s hs) p hp (by omega)
            simp only [hop] at this
            exact absurd (lt_of_lt_of_le hgt (this.trans (hcv k k.isLt))) (lt_irrefl _)
          exact ⟨⟨p, hps⟩, hop⟩
        choose f hf using hpos
        refine ⟨f, fun a b hab => ?_⟩
        have := hf a
        rw [hab, hf b] at this
        exact Fin.ext (hcinj _ b.isLt _ a.isLt this).symm
      obtain ⟨f, hf⟩ := key
      have := Fintype.card_le_of_injective f hf
      simp only [Fintype.card_fin] at this
      omega
  · intro s hs k
    obtain ⟨ha, _⟩ := h3 s (hle s hs)
    fin_cases k
    · exact Nat.div_lt_of_lt_mul ha
    · exact Nat.mod_lt _ (by omega)
  · intro s hs i hi j hj
    have hp : (eigGrid2 g l)[j * g 0 + i]? = some ![linspace 0 (l 0) (g 0) i, linspace 0 (l 1) (g 1) j] :=
      flatMap_range_getElem? (g 1) (g 0) (fun j i => (![linspace 0 (l 0) (g 0) i, linspace 0 (l 1) (g 1) j] : Pt 2)) hj hi
    rw [eigFill_get argsort num l _ _ _ hp]
    have hk := (h3 s (hle s hs)).2
    rw [ho, List.getElem?_take_of_lt hs, hk]
    simp [linspace]

theorem cosMode_two (l : Fin 2 → ℝ) (n : Fin 2 → ℕ) (x y : ℝ) : cosMode l n ![x, y] = Real.cos (n 0 * Real.pi * x / l 0) * Real.cos (n 1 * Real.pi * y / l 1) := by
  simp [cosMode, Fin.prod_univ_two]

/-- at the grid points the lengths cancel -/
theorem cosMode_grid (l : Fin 2 → ℝ) (hl : ∀ k, l k ≠ 0) (n : Fin 2 → ℕ) (a b i j : ℕ) :
    cosMode l n ![i * (l 0 / a), j * (l 1 / b)] = Real.cos (n 0 * Real.pi * i / a) * Real.cos (n 1 * Real.pi * j / b) := by
  rw [cosMode_two]
  have h0 := hl 0
  have h1 := hl 1
  rw [show (n 0 : ℝ) * Real.pi * (i * (l 0 / a)) / l 0 = n 0 * Real.pi * i / a by field_simp, show (n 1 : ℝ) * Real.pi * (j * (l 1 / b)) / l 1 = n 1 * Real.pi * j / b by field_simp]

/-- **C95** if `num_modes` does not exceed the number of grid points along either axis, the columns are orthogonal with the weights of the
trapezoidal rule and none of them is zero: they are linearly independent. -/
theorem C95_orthogonal {argsort : List ℝ → List ℕ} (hA : IsArgsort argsort) {num : ℕ} {g : Fin 2 → ℕ} {l : Fin 2 → ℝ} (hg : ∀ k, 2 ≤ g k ∧ num ≤ g k) {M : Mat}
    (h : gridEig2 argsort num g l = some M) {s s' : ℕ} (hs : s < num) (hs' : s' < num) :
    (s ≠ s' → ∑ j ∈ range (g 1), ∑ i ∈ range (g 0), trapW (g 1) j * trapW (g 0) i * (M.get (j * g 0 + i) s * M.get (j * g 0 + i) s') = 0) ∧
    0 < ∑ j ∈ range (g 1), ∑ i ∈ range (g 0), trapW (g 1) j * trapW (g 0) i * (M.get (j * g 0 + i) s * M.get (j * g 0 + i) s) := by
  have hl : ∀ k, l k ≠ 0 := by
    by_contra hc
    push Not at hc
    rw [gridEig2, if_pos hc] at h
    cases h
  obtain ⟨M', mode, h', _, _, hlow, _, hlt, hval⟩ := C95_planar hA num g l hl
  rw [h] at h'
  cases h'
  obtain ⟨a, ha⟩ : ∃ a, g 0 = a + 1 := ⟨g 0 - 1, by have := (hg 0).1; omega⟩
  obtain ⟨b, hb⟩ : ∃ b, g 1 = b + 1 := ⟨g 1 - 1, by have := (hg 1).1; omega⟩
  have ha0 : 0 < a := by have := (hg 0).1; omega
  have hb0 : 0 < b := by have := (hg 1).1; omega
  have key : ∀ t < num, ∀ t' < num, ∑ j ∈ range (g 1), ∑ i ∈ range (g 0), trapW (g 1) j * trapW (g 0) i * (M.get (j * g 0 + i) t * M.get (j * g 0 + i) t') =
      (∑ j ∈ range (b + 1), trapW (b + 1) j * (Real.cos (mode t 1 * Real.pi * j / b) * Real.cos (mode t' 1 * Real.pi * j / b))) *
      (∑ i ∈ range (a + 1), trapW (a + 1) i * (Real.cos (mode t 0 * Real.pi * i / a) * Real.cos (mode t' 0 * Real.pi * i / a))) := by
    intro t ht t' ht'
    rw [sum_mul_sum, ← ha, ← hb]
    refine sum_congr rfl (fun j hj => sum_congr rfl (fun i hi => ?_))
    have e0 : ((g 0 : ℕ) : ℝ) - 1 = (a : ℕ) := by rw [ha]; push_cast; ring
    have e1 : ((g 1 : ℕ) : ℝ) - 1 = (b : ℕ) := by rw [hb]; push_cast; ring
    rw [hval t ht i (Finset.mem_range.mp hi) j (Finset.mem_range.mp hj), hval t' ht' i (Finset.mem_range.mp hi) j (Finset.mem_range.mp hj), e0, e1, cosMode_grid l hl, cosMode_grid l hl]
    ring
  refine ⟨fun hne => ?_, ?_⟩
  · rw [key s hs s' hs']
    have hm : mode s ≠ mode s' := fun he => hne (hlow.distinct s hs s' hs' he)
    have : mode s 0 ≠ mode s' 0 ∨ mode s 1 ≠ mode s' 1 := by
      by_contra hc
      push Not at hc
      exact hm (funext (fun k => by fin_cases k; exacts [hc.1, hc.2]))
    have b0 := hlt s hs 0
    have b1 := hlt s hs 1
    have b0' := hlt s' hs' 0
    have b1' := hlt s' hs' 1
    have g0 := (hg 0).2
    have g1 := (hg 1).2
    rcases this with h0 | h0
    · rw [trapW_ortho a ha0 _ _ (by omega) (by omega) h0, mul_zero]
    · rw [trapW_ortho b hb0 _ _ (by omega) (by omega) h0, zero_mul]
  · rw [key s hs s hs]
    exact mul_pos (trapW_norm _ _) (trapW_norm _ _)

/-- the hypotheses of the theorems above are met -/
example : ∃ M, gridEig2 (fun v => (List.range v.length).insertionSort (fun i j => v.getD i 0 ≤ v.getD j 0)) 5 ![7, 9] ![1, 2] = some M :=
  ⟨_, if_neg (by push Not; intro k; fin_cases k <;> norm_num)⟩

/-- **C95** with fewer grid points than modes along an axis different modes agree at all grid points: on a `2 × g` grid with equal sides two of
the first six columns are equal, whatever `g` is.  The columns are then no basis of eigenvectors. -/
theorem C95_aliased_violated {argsort : List ℝ → List ℕ} (hA : IsArgsort argsort) (g : ℕ) {M : Mat} (h : gridEig2 argsort 6 ![2, g] (fun _ => 1) = some M) :
    ∃ s < 6, ∃ s' < 6, s ≠ s' ∧ ∀ r < M.nrows, M.get r s = M.get r s' := by
  obtain ⟨M', mode, h', hr, _, hlow, _, hlt, hval⟩ := C95_planar hA 6 ![2, g] (fun _ => 1) (fun _ => one_ne_zero)
  rw [h] at h'
  cases h'
  have hmem : ∀ n : Fin 2 → ℕ, n = ![0, 0] ∨ n = ![2, 0] → ∃ s < 6, mode s = n := by
    intro n hn
    by_contra hc
    push Not at hc
    have h2 := hlow.lowest n hc
    have hv : modeVal (fun _ => 1) n ≤ 4 * Real.pi ^ 2 := by
      rw [modeVal_two]
      rcases hn with rfl | rfl
      · simp only [Matrix.cons_val_zero, Matrix.cons_val_one]; push_cast; nlinarith [sq_nonneg Real.pi]
      · simp only [Matrix.cons_val_zero, Matrix.cons_val_one]; push_cast; nlinarith
    -- six different modes with value at most four, none of them `n`: only five are left
    have hset : ∀ s < 6, mode s ∈ (({![0, 0], ![1, 0], ![0, 1], ![1, 1], ![2, 0], ![0, 2]} : Finset (Fin 2 → ℕ)).erase n) := by
      intro s hs
      refine Finset.mem_erase.mpr ⟨hc s hs, ?_⟩
      have h3 := (h2 s hs).trans hv
      rw [modeVal_two] at h3
      have h4 : ((mode s 0) ^ 2 + (mode s 1) ^ 2 : ℕ) ≤ 4 := by
        have hpi : 0 < Real.pi ^ 2 := by positivity
        have : (((mode s 0) ^ 2 + (mode s 1) ^ 2 : ℕ) : ℝ) * Real.pi ^ 2 ≤ 4 * Real.pi ^ 2 := by
          push_cast
          calc _ = _ := by ring
            _ ≤ _ := h3
        exact_mod_cast le_of_mul_le_mul_right this hpi
      have ha : mode s 0 ≤ 2 := by nlinarith
      have hb : mode s 1 ≤ 2 := by nlinarith
      have he : mode s = ![mode s 0, mode s 1] := funext (fun k => by fin_cases k <;> rfl)
      rw [he]
      generalize mode s 0 = x at *
      generalize mode s 1 = y at *
      interval_cases x <;> interval_cases y <;> first | omega | decide
    have hcard : (Finset.image mode (Finset.range 6)).card = 6 := by
      rw [Finset.card_image_of_injOn, Finset.card_range]
      intro a ha b hb hab
      exact hlow.distinct a (by simpa using ha) b (by simpa using hb) hab
    have hsub : Finset.image mode (Finset.range 6) ⊆ (({![0, 0], ![1, 0], ![0, 1], ![1, 1], ![2, 0], ![0, 2]} : Finset (Fin 2 → ℕ)).erase n) := by
      intro x hx
      obtain ⟨s, hs, rfl⟩ := Finset.mem_image.mp hx
      exact hset s (Finset.mem_range.mp hs)
    have := Finset.card_le_card hsub
    rw [hcard] at this
    rcases hn with rfl | rfl <;> revert this <;> decide
  obtain ⟨s, hs, es⟩ := hmem _ (Or.inl rfl)
  obtain ⟨s', hs', es'⟩ := hmem _ (Or.inr rfl)
  refine ⟨s, hs, s', hs', fun he => ?_, fun r hrr => ?_⟩
  · rw [he, es'] at es
    exact absurd (congrFun es 0) (by decide)
  · rw [hr] at hrr
    simp only [Matrix.cons_val_zero, Matrix.cons_val_one] at hrr hval
    have hi : r % 2 < 2 := Nat.mod_lt _ (by omega)
    have hj : r / 2 < g := Nat.div_lt_of_lt_mul (by omega)
    have e1 := hval s hs (r % 2) hi (r / 2) hj
    have e2 := hval s' hs' (r % 2) hi (r / 2) hj
    rw [show r / 2 * 2 + r % 2 = r by omega] at e1 e2
    rw [e1, e2, es, es', cosMode_two, cosMode_two]
    simp only [Matrix.cons_val_zero, Matrix.cons_val_one]
    congr 1
    generalize r % 2 = i at hi
    interval_cases i <;> norm_num

end Gpy
