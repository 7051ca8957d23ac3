import Verif.Props.GridEigen

/-! C95: `grid_laplacian_eigenfunctions` on spatial grids. -/

set_option autoImplicit false
namespace Gpy
open Np Finset

/-- how many modes per axis the spatial branch considers -/
noncomputable def perAxis (num : ℕ) : ℕ := ⌊Real.sqrt ((num / 8 : ℕ) : ℝ) + 1 / 2⌋₊

theorem cand3_inj {N k k' : ℕ} (h : (![k / (N * N), k / N % N, k % N] : Fin 3 → ℕ) = ![k' / (N * N), k' / N % N, k' % N]) : k = k' := by
  have h0 := congrFun h 0
  have h1 := congrFun h 1
  have h2 := congrFun h 2
  simp only [Matrix.cons_val_zero, Matrix.cons_val_one, Matrix.cons_val_two, Matrix.tail_cons, Matrix.head_cons, Matrix.cons_val] at h0 h1 h2
  rw [← Nat.div_div_eq_div_mul, ← Nat.div_div_eq_div_mul] at h0
  have h3 : k / N = k' / N := by rw [← Nat.div_add_mod (k / N) N, ← Nat.div_add_mod (k' / N) N, h0, h1]
  rw [← Nat.div_add_mod k N, ← Nat.div_add_mod k' N, h3, h2]

/-- **C95** on a spatial grid the first `N³` columns (`N` the number of modes per axis the code considers; at most `num_modes` columns) are different
eigenfunctions of the Laplacian with Neumann conditions, sampled at the grid points (first coordinate fastest) and sorted by eigenvalue; every
further column is constant one.  What is missing: the columns are not the lowest `num_modes` modes; see `C95_spatial_violated`. -/
theorem C95_spatial_partial {argsort : List ℝ → List ℕ} (hA : IsArgsort argsort) (num : ℕ) (g : Fin 3 → ℕ) (l : Fin 3 → ℝ) (hl : ∀ k, l k ≠ 0) :
    ∃ (M : Mat) (mode : ℕ → Fin 3 → ℕ), gridEig3 argsort num g l = some M ∧ M.nrows = g 2 * (g 1 * g 0) ∧ M.ncols = num ∧
      (∀ s < perAxis num ^ 3, ∀ s' < perAxis num ^ 3, mode s = mode s' → s = s') ∧
      (∀ s < perAxis num ^ 3, ∀ s' < perAxis num ^ 3, s ≤ s' → modeVal l (mode s) ≤ modeVal l (mode s')) ∧
      (∀ n : Fin 3 → ℕ, (∀ k, n k < perAxis num) → ∃ s < perAxis num ^ 3, mode s = n) ∧
      (∀ s, IsNeumannMode l (modeVal l (mode s)) (cosMode l (mode s))) ∧
      ∀ s < num, ∀ i < g 0, ∀ j < g 1, ∀ k < g 2,
        (s < perAxis num ^ 3 → M.get (k * (g 1 * g 0) + (j * g 0 + i)) s = cosMode l (mode s) ![i * (l 0 / (g 0 - 1)), j * (l 1 / (g 1 - 1)), k * (l 2 / (g 2 - 1))]) ∧
        (perAxis num ^ 3 ≤ s → M.get (k * (g 1 * g 0) + (j * g 0 + i)) s = 1) := by
  set N := perAxis num with hN
  obtain ⟨o, ho, hlen, h1, h2, h3, h4⟩ := modes_of_order hA l (N * N * N) (fun k => ![k / (N * N), k / N % N, k % N]) (fun k _ k' _ h => cand3_inj h)
  have hN3 : N ^ 3 = N * N * N := by ring
  refine ⟨_, fun s => ![o.getD s 0 / (N * N), o.getD s 0 / N % N, o.getD s 0 % N], if_neg (by push Not; exact hl), ?_, rfl, ?_, ?_, ?_, fun s => cosMode_neumann l hl _, ?_⟩
  · simp [eigFill, eigGrid3, List.length_flatMap]
  · rw [hN3]; exact h1
  · rw [hN3]; exact h2
  · intro n hn
    have hN0 : 0 < N := by have := hn 0; omega
    have e1 : n 1 * N + n 2 < N * N := by
      calc n 1 * N + n 2 < n 1 * N + N := by have := hn 2; omega
        _ = (n 1 + 1) * N := by ring
        _ ≤ N * N := Nat.mul_le_mul_right _ (hn 1)
    obtain ⟨p, hp, hop⟩ := h4 (N * N * n 0 + (n 1 * N + n 2)) (by
      calc N * N * n 0 + (n 1 * N + n 2) < N * N * n 0 + N * N := by omega
        _ = N * N * (n 0 + 1) := by ring
        _ ≤ N * N * N := Nat.mul_le_mul_left _ (hn 0))
    refine ⟨p, by rw [hN3]; exact hp, ?_⟩
    simp only [hop]
    have d1 : (N * N * n 0 + (n 1 * N + n 2)) / N = N * n 0 + n 1 := by
      rw [show N * N * n 0 + (n 1 * N + n 2) = N * (N * n 0 + n 1) + n 2 by ring, Nat.mul_add_div hN0, Nat.div_eq_of_lt (hn 2), Nat.add_zero]
    funext k
    fin_cases k
    · show (N * N * n 0 + (n 1 * N + n 2)) / (N * N) = n 0
      rw [Nat.mul_add_div (Nat.mul_pos hN0 hN0), Nat.div_eq_of_lt e1, Nat.add_zero]
    · show (N * N * n 0 + (n 1 * N + n 2)) / N % N = n 1
      rw [d1, Nat.mul_add_mod, Nat.mod_eq_of_lt (hn 1)]
    · show (N * N * n 0 + (n 1 * N + n 2)) % N = n 2
      rw [show N * N * n 0 + (n 1 * N + n 2) = N * (N * n 0 + n 1) + n 2 by ring, Nat.mul_add_mod, Nat.mod_eq_of_lt (hn 2)]
  · intro s hs i hi j hj k hk
    have hp : (eigGrid3 g l)[k * (g 1 * g 0) + (j * g 0 + i)]? = some ![linspace 0 (l 0) (g 0) i, linspace 0 (l 1) (g 1) j, linspace 0 (l 2) (g 2) k] := by
      unfold eigGrid3
      rw [flatMap_getElem?_block (g 2) (g 1 * g 0) _ (fun k => by simp [List.length_flatMap]) hk (by
        calc j * g 0 + i < j * g 0 + g 0 := by omega
          _ = (j + 1) * g 0 := by ring
          _ ≤ g 1 * g 0 := Nat.mul_le_mul_right _ hj)]
      exact flatMap_range_getElem? (g 1) (g 0) (fun j i => (![linspace 0 (l 0) (g 0) i, linspace 0 (l 1) (g 1) j, linspace 0 (l 2) (g 2) k] : Pt 3)) hj hi
    rw [eigFill_get argsort num l _ _ _ hp]
    constructor
    · intro hsN
      rw [hN3] at hsN
      have hk := (h3 s hsN).2
      have ho' : argsort ((List.range (⌊Real.sqrt ((num / 8 : ℕ) : ℝ) + 1 / 2⌋₊ * ⌊Real.sqrt ((num / 8 : ℕ) : ℝ) + 1 / 2⌋₊ * ⌊Real.sqrt ((num / 8 : ℕ) : ℝ) + 1 / 2⌋₊)).map (fun k => modeVal l (![k / (⌊Real.sqrt ((num / 8 : ℕ) : ℝ) + 1 / 2⌋₊ * ⌊Real.sqrt ((num / 8 : ℕ) : ℝ) + 1 / 2⌋₊), k / ⌊Real.sqrt ((num / 8 : ℕ) : ℝ) + 1 / 2⌋₊ % ⌊Real.sqrt ((num / 8 : ℕ) : ℝ) + 1 / 2⌋₊, k % ⌊Real.sqrt ((num / 8 : ℕ) : ℝ) + 1 / 2⌋₊]))) = o := ho
      rw [ho', List.getElem?_take_of_lt hs, hk]
      show cosMode l ![o.getD s 0 / (N * N), o.getD s 0 / N % N, o.getD s 0 % N] _ = _
      simp [linspace]
    · intro hsN
      rw [hN3] at hsN
      have hk : o[s]? = none := List.getElem?_eq_none (by omega)
      have ho' : argsort ((List.range (⌊Real.sqrt ((num / 8 : ℕ) : ℝ) + 1 / 2⌋₊ * ⌊Real.sqrt ((num / 8 : ℕ) : ℝ) + 1 / 2⌋₊ * ⌊Real.sqrt ((num / 8 : ℕ) : ℝ) + 1 / 2⌋₊)).map (fun k => modeVal l (![k / (⌊Real.sqrt ((num / 8 : ℕ) : ℝ) + 1 / 2⌋₊ * ⌊Real.sqrt ((num / 8 : ℕ) : ℝ) + 1 / 2⌋₊), k / ⌊Real.sqrt ((num / 8 : ℕ) : ℝ) + 1 / 2⌋₊ % ⌊Real.sqrt ((num / 8 : ℕ) : ℝ) + 1 / 2⌋₊, k % ⌊Real.sqrt ((num / 8 : ℕ) : ℝ) + 1 / 2⌋₊]))) = o := ho
      rw [ho', List.getElem?_take_of_lt hs, hk]

/-- the number of modes per axis grows like the square root of `num_modes/8` -/
theorem perAxis_bound (num : ℕ) (h : 0 < perAxis num) : 8 * (perAxis num ^ 2 + 1) ≤ num + 8 * perAxis num := by
  have h1 : (perAxis num : ℝ) ≤ Real.sqrt ((num / 8 : ℕ) : ℝ) + 1 / 2 := Nat.floor_le (by positivity)
  have h2 : (1 : ℝ) ≤ perAxis num := by exact_mod_cast h
  have h3 : ((perAxis num : ℝ) - 1 / 2) ^ 2 ≤ (num / 8 : ℕ) := by
    rw [← Real.sq_sqrt (Nat.cast_nonneg (num / 8))]
    exact pow_le_pow_left₀ (by linarith) (by linarith) 2
  have h4 : (4 * (perAxis num : ℝ) ^ 2 + 1) ≤ 4 * (num / 8 : ℕ) + 4 * perAxis num := by nlinarith
  have h5 : 4 * perAxis num ^ 2 + 1 ≤ 4 * (num / 8) + 4 * perAxis num := by exact_mod_cast h4
  have h6 : perAxis num ^ 2 + 1 ≤ num / 8 + perAxis num := by omega
  omega

/-- **C95** on a spatial grid the columns are not `num_modes` independent eigenfunctions: for every `num_modes` from 2 to 455 two columns are equal
at every grid point, for every grid and every box. -/
theorem C95_spatial_violated {argsort : List ℝ → List ℕ} (hA : IsArgsort argsort) {num : ℕ} (h2 : 2 ≤ num) (h456 : num < 456) {g : Fin 3 → ℕ} {l : Fin 3 → ℝ} {M : Mat}
    (h : gridEig3 argsort num g l = some M) :
    ∃ s < num, ∃ s' < num, s ≠ s' ∧ ∀ i < g 0, ∀ j < g 1, ∀ k < g 2, M.get (k * (g 1 * g 0) + (j * g 0 + i)) s = M.get (k * (g 1 * g 0) + (j * g 0 + i)) s' := by
  have hl : ∀ k, l k ≠ 0 := by
    by_contra hc
    push Not at hc
    rw [gridEig3, if_pos hc] at h
    cases h
  obtain ⟨M', mode, h', _, _, _, _, hall, _, hval⟩ := C95_spatial_partial hA num g l hl
  rw [h] at h'
  cases h'
  rcases Nat.eq_zero_or_pos (perAxis num) with h0 | h0
  · refine ⟨0, by omega, 1, by omega, by omega, fun i hi j hj k hk => ?_⟩
    rw [((hval 0 (by omega) i hi j hj k hk).2 (by rw [h0]; omega)), ((hval 1 (by omega) i hi j hj k hk).2 (by rw [h0]; omega))]
  · have hb := perAxis_bound num h0
    have hN : perAxis num ≤ 7 := by
      by_contra hc
      have : 8 ≤ perAxis num := by omega
      nlinarith
    have hlt : perAxis num ^ 3 < num := by
      generalize perAxis num = N at *
      interval_cases N <;> omega
    obtain ⟨s, hs, es⟩ := hall ![0, 0, 0] (fun k => by fin_cases k <;> exact h0)
    refine ⟨s, by omega, perAxis num ^ 3, hlt, by omega, fun i hi j hj k hk => ?_⟩
    rw [(hval s (by omega) i hi j hj k hk).1 hs, (hval _ hlt i hi j hj k hk).2 (le_refl _), es]
    simp [cosMode, Fin.prod_univ_three]

/-- the hypothesis of the theorem above is met -/
example : ∃ M, gridEig3 (fun v => (List.range v.length).insertionSort (fun i j => v.getD i 0 ≤ v.getD j 0)) 10 ![4, 5, 6] ![1, 2, 3] = some M :=
  ⟨_, if_neg (by push Not; intro k; fin_cases k <;> norm_num)⟩

end Gpy
