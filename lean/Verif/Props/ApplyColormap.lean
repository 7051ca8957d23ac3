import Verif.Model.ApplyColormap
import Verif.Props.RemoveDuplicate

/-! C96: `apply_colormap`. -/

set_option autoImplicit false
namespace Gpy

/-- `m` is a nearest integer to `x`, the even one of two -/
def IsRounded (x : ℝ) (m : ℤ) : Prop := |x - m| ≤ 1 / 2 ∧ (|x - m| = 1 / 2 → Even m)

theorem roundInt_spec (x : ℝ) : IsRounded x (roundInt x) := by
  obtain ⟨m, h1, h2, h3⟩ := C17_round_rule x
  have : roundInt x = m := by unfold roundInt; rw [h1, Int.floor_intCast]
  rw [this]
  exact ⟨h2, h3⟩

theorem IsRounded.eq_of_int {a m : ℤ} (h : IsRounded (a : ℝ) m) : m = a := by
  have h1 := abs_le.mp h.1
  have h2 : ((a - m : ℤ) : ℝ) ≤ 1 / 2 := by push_cast; exact h1.2
  have h3 : -(1 / 2) ≤ ((a - m : ℤ) : ℝ) := by push_cast; exact h1.1
  have h4 : (a - m : ℤ) < 1 := by
    have : ((a - m : ℤ) : ℝ) < (1 : ℤ) := by push_cast at h2 ⊢; linarith
    exact_mod_cast this
  have h5 : -1 < (a - m : ℤ) := by
    have : ((-1 : ℤ) : ℝ) < ((a - m : ℤ) : ℝ) := by push_cast at h3 ⊢; linarith
    exact_mod_cast this
  omega

theorem IsRounded.between {a b m : ℤ} {x : ℝ} (h : IsRounded x m) (ha : (a : ℝ) ≤ x) (hb : x ≤ b) : a ≤ m ∧ m ≤ b := by
  have h1 := abs_le.mp h.1
  constructor
  · have : ((a : ℤ) : ℝ) < ((m + 1 : ℤ) : ℝ) := by push_cast; linarith
    have : a < m + 1 := by exact_mod_cast this
    omega
  · have : ((m : ℤ) : ℝ) < ((b + 1 : ℤ) : ℝ) := by push_cast; linarith
    have : m < b + 1 := by exact_mod_cast this
    omega

/-- the number of values of an increasing sequence below `t` -/
theorem search_spec (n : ℕ) (x : ℕ → ℝ) (hx : ∀ i j, i < j → j < n → x i < x j) (t : ℝ) :
    ∃ j, searchLeft ((List.range n).map x) t = j ∧ j ≤ n ∧ (∀ k < j, x k < t) ∧ ∀ k, j ≤ k → k < n → t ≤ x k := by
  unfold searchLeft
  induction n with
  | zero => exact ⟨0, by simp, le_refl _, by simp, by simp⟩
  | succ n ih =>
    obtain ⟨j, h0, h1, h2, h3⟩ := ih (fun i j hij hj => hx i j hij (by omega))
    rw [List.range_succ, List.map_append, List.countP_append, h0]
    by_cases hn : x n < t
    · have hj : j = n := by
        by_contra hne
        have := h3 j (le_refl _) (by omega)
        have := hx j n (by omega) (by omega)
        linarith
      refine ⟨n + 1, by simp [hn, hj], le_refl _, fun k hk => ?_, fun k hk hk' => by omega⟩
      rcases Nat.lt_or_ge k n with h | h
      · exact h2 k (by omega)
      · rw [show k = n by omega]; exact hn
    · refine ⟨j, by simp [hn], by omega, h2, fun k hk hk' => ?_⟩
      rcases Nat.lt_or_ge k n with h | h
      · exact h3 k hk h
      · rw [show k = n by omega]; linarith

/-- the nodes of the axis: equally spaced, or equally spaced in the logarithm -/
noncomputable def node (mn mx : ℝ) (log : Bool) (n i : ℕ) : ℝ :=
  if log then mn * (mx / mn) ^ ((i : ℝ) / (n - 1)) else mn + (mx - mn) * (i / (n - 1))

theorem colorAxis_eq {mn mx : ℝ} {log : Bool} (n : ℕ) (hlog : log = true → 0 < mn ∧ 0 < mx) : colorAxis mn mx log n = (List.range n).map (node mn mx log n) := by
  unfold colorAxis node
  cases log with
  | false =>
    simp only [Bool.false_eq_true, if_false]
    exact List.map_congr_left (fun i _ => by unfold linspace; ring)
  | true =>
    obtain ⟨h1, h2⟩ := hlog rfl
    simp only [if_true]
    refine List.map_congr_left (fun i _ => ?_)
    unfold linspace
    rw [Real.rpow_add two_pos, Real.rpow_logb two_pos (by norm_num) h1, ← Real.logb_div h2.ne' h1.ne', mul_div_assoc', mul_comm (i : ℝ), ← mul_div_assoc', Real.rpow_mul two_pos.le,
      Real.rpow_logb two_pos (by norm_num) (div_pos h2 h1)]

theorem node_mono {mn mx : ℝ} {log : Bool} {n : ℕ} (hn : 2 ≤ n) (h : mn < mx) (hlog : log = true → 0 < mn) {i j : ℕ} (hij : i < j) : node mn mx log n i < node mn mx log n j := by
  have hn1 : (0 : ℝ) < n - 1 := by
    have : (2 : ℝ) ≤ n := by exact_mod_cast hn
    linarith
  have hij' : (i : ℝ) / (n - 1) < j / (n - 1) := div_lt_div_of_pos_right (by exact_mod_cast hij) hn1
  unfold node
  split_ifs with hl
  · have := hlog hl
    exact mul_lt_mul_of_pos_left (Real.rpow_lt_rpow_of_exponent_lt ((one_lt_div this).mpr h) hij') this
  · exact add_lt_add_right (mul_lt_mul_of_pos_left hij' (by linarith)) _

theorem node_zero (mn mx : ℝ) (log : Bool) (n : ℕ) : node mn mx log n 0 = mn := by
  unfold node
  split_ifs <;> simp

theorem node_last {mn mx : ℝ} {log : Bool} {n : ℕ} (hn : 2 ≤ n) (hlog : log = true → 0 < mn) : node mn mx log n (n - 1) = mx := by
  have hn1 : (0 : ℝ) < n - 1 := by
    have : (2 : ℝ) ≤ n := by exact_mod_cast hn
    linarith
  unfold node
  have hc : ((n - 1 : ℕ) : ℝ) = n - 1 := by rw [Nat.cast_sub (by omega)]; simp
  rw [hc, div_self hn1.ne']
  split_ifs with hl
  · have := hlog hl
    rw [Real.rpow_one, mul_div_cancel₀ _ this.ne']
  · ring

/-- `k` is the first of the nodes nearest to `t` -/
def FirstNearest (x : ℕ → ℝ) (n : ℕ) (t : ℝ) (k : ℕ) : Prop :=
  k < n ∧ (∀ j < n, |t - x k| ≤ |t - x j|) ∧ ∀ j < k, |t - x k| < |t - x j|

theorem nearest_spec {n : ℕ} (hn : 2 ≤ n) {x : ℕ → ℝ} (hx : ∀ i j, i < j → j < n → x i < x j) (C : List (Fin 3 → ℤ)) (t : ℝ) :
    ∃ k, FirstNearest x n t k ∧ ∀ c, interpNearest ((List.range n).map x) C t c = C.getD k 0 c := by
  have hb : List.zipWith (fun a b => a / 2 + b / 2) ((List.range n).map x).tail ((List.range n).map x).dropLast = (List.range (n - 1)).map (fun k => x (k + 1) / 2 + x k / 2) := by
    apply List.ext_getElem
    · simp
    · intro i h1 h2
      simp
  obtain ⟨j, hj, hjn, hlt, hge⟩ := search_spec (n - 1) (fun k => x (k + 1) / 2 + x k / 2) (fun i k hik hk => by
    have h1 := hx i k hik (by omega)
    have h2 := hx (i + 1) (k + 1) (by omega) (by omega)
    linarith) t
  have hk : min (searchLeft (List.zipWith (fun a b => a / 2 + b / 2) ((List.range n).map x).tail ((List.range n).map x).dropLast) t) (((List.range n).map x).length - 1) = j := by
    rw [hb, hj, List.length_map, List.length_range]; omega
  refine ⟨j, ⟨by omega, ?_, ?_⟩, fun c => by unfold interpNearest; simp only [hk]⟩
  · intro i hi
    rcases lt_trichotomy i j with h | h | h
    · have h1 := hlt (j - 1) (by omega)
      rw [show j - 1 + 1 = j by omega] at h1
      have h2 : x i ≤ x (j - 1) := by
        rcases Nat.lt_or_ge i (j - 1) with h3 | h3
        · exact (hx _ _ h3 (by omega)).le
        · rw [show i = j - 1 by omega]
      rw [abs_of_pos (show 0 < t - x i by have := hx (j - 1) j (by omega) (by omega); linarith), abs_le]
      constructor <;> linarith [hx i j h (by omega)]
    · rw [h]
    · have h1 := hge j (le_refl _) (by omega)
      have h2 : x (j + 1) ≤ x i := by
        rcases Nat.lt_or_ge (j + 1) i with h3 | h3
        · exact (hx _ _ h3 (by omega)).le
        · rw [show i = j + 1 by omega]
      have h3 := hx j (j + 1) (by omega) (by omega)
      rw [abs_of_neg (show t - x i < 0 by linarith), abs_le]
      constructor <;> linarith
  · intro i h
    have h1 := hlt (j - 1) (by omega)
    rw [show j - 1 + 1 = j by omega] at h1
    have h2 : x i ≤ x (j - 1) := by
      rcases Nat.lt_or_ge i (j - 1) with h3 | h3
      · exact (hx _ _ h3 (by omega)).le
      · rw [show i = j - 1 by omega]
    rw [abs_of_pos (show 0 < t - x i by have := hx (j - 1) j (by omega) (by omega); linarith), abs_lt]
    constructor <;> linarith [hx i j h (by omega)]

theorem linear_spec {n : ℕ} (hn : 2 ≤ n) {x : ℕ → ℝ} (hx : ∀ i j, i < j → j < n → x i < x j) (C : List (Fin 3 → ℤ)) {t : ℝ} (h0 : x 0 ≤ t) (h1 : t ≤ x (n - 1)) :
    ∃ (k : ℕ) (w : ℝ), k + 1 < n ∧ 0 ≤ w ∧ w ≤ 1 ∧ t = (1 - w) * x k + w * x (k + 1) ∧
      ∀ c, interpLinear ((List.range n).map x) C t c = (1 - w) * C.getD k 0 c + w * C.getD (k + 1) 0 c := by
  obtain ⟨j, hj, hjn, hlt, hge⟩ := search_spec n x hx t
  set hi := min (max j 1) (n - 1) with hhi
  obtain ⟨k, hk⟩ : ∃ k, hi = k + 1 := ⟨hi - 1, by omega⟩
  have hkn : k + 1 < n := by omega
  have hlo : x k ≤ t := by
    rcases Nat.eq_zero_or_pos k with h | h
    · rw [h]; exact h0
    · exact (hlt k (by omega)).le
  have hup : t ≤ x (k + 1) := by
    rcases Nat.lt_or_ge (k + 1) (n - 1) with h | h
    · exact hge _ (by omega) (by omega)
    · rw [show k + 1 = n - 1 by omega]; exact h1
  have hd := hx k (k + 1) (by omega) hkn
  have hd' : x (k + 1) - x k ≠ 0 := by linarith
  have g : ∀ i < n, ((List.range n).map x).getD i 0 = x i := fun i hi => by
    rw [List.getD_eq_getElem?_getD, List.getElem?_map, List.getElem?_range hi]; rfl
  refine ⟨k, (t - x k) / (x (k + 1) - x k), hkn, div_nonneg (by linarith) (by linarith), (div_le_one (by linarith)).mpr (by linarith), by field_simp; ring, fun c => ?_⟩
  unfold interpLinear
  simp only [hj, List.length_map, List.length_range, ← hhi, hk, Nat.add_sub_cancel]
  rw [g k (by omega), g (k + 1) hkn]
  field_simp
  ring

/-- what the limits mean: given, or taken from the data; with `log` raised to machine epsilon; and at least machine epsilon apart -/
def IsLimits (f : List ℝ) (lo hi : Option ℝ) (log : Bool) (mn mx : ℝ) : Prop :=
  ∃ m0 m1, (lo = some m0 ∨ lo = none ∧ m0 ∈ f ∧ ∀ t ∈ f, m0 ≤ t) ∧ (hi = some m1 ∨ hi = none ∧ m1 ∈ f ∧ ∀ t ∈ f, t ≤ m1) ∧
    mn = (if log then max m0 npEps else m0) ∧ mn ≤ m1 ∧ mx = max m1 (mn + npEps)

theorem npEps_pos : 0 < npEps := by unfold npEps; positivity

theorem fMin_spec {f : List ℝ} {m : ℝ} (h : fMin f = some m) : m ∈ f ∧ ∀ t ∈ f, m ≤ t := by
  cases f with
  | nil => cases h
  | cons a l =>
    simp only [fMin, Option.some.injEq] at h
    have key : ∀ (l : List ℝ) (a : ℝ), (l.foldl min a ∈ a :: l) ∧ ∀ t ∈ a :: l, l.foldl min a ≤ t := by
      intro l
      induction l with
      | nil => simp
      | cons b l ih =>
        intro a
        obtain ⟨h1, h2⟩ := ih (min a b)
        simp only [List.foldl_cons]
        constructor
        · rcases List.mem_cons.mp h1 with h | h
          · rw [h]
            rcases min_choice a b with h | h <;> rw [h] <;> simp
          · simp [h]
        · intro t ht
          have h3 := h2 (min a b) (by simp)
          rcases List.mem_cons.mp ht with rfl | ht
          · exact h3.trans (min_le_left _ _)
          · rcases List.mem_cons.mp ht with rfl | ht
            · exact h3.trans (min_le_right _ _)
            · exact h2 t (by simp [ht])
    rw [← h]; exact key l a

theorem fMax_spec {f : List ℝ} {m : ℝ} (h : fMax f = some m) : m ∈ f ∧ ∀ t ∈ f, t ≤ m := by
  cases f with
  | nil => cases h
  | cons a l =>
    simp only [fMax, Option.some.injEq] at h
    have key : ∀ (l : List ℝ) (a : ℝ), (l.foldl max a ∈ a :: l) ∧ ∀ t ∈ a :: l, t ≤ l.foldl max a := by
      intro l
      induction l with
      | nil => simp
      | cons b l ih =>
        intro a
        obtain ⟨h1, h2⟩ := ih (max a b)
        simp only [List.foldl_cons]
        constructor
        · rcases List.mem_cons.mp h1 with h | h
          · rw [h]
            rcases max_choice a b with h | h <;> rw [h] <;> simp
          · simp [h]
        · intro t ht
          have h3 := h2 (max a b) (by simp)
          rcases List.mem_cons.mp ht with rfl | ht
          · exact (le_max_left _ _).trans h3
          · rcases List.mem_cons.mp ht with rfl | ht
            · exact (le_max_right _ _).trans h3
            · exact h2 t (by simp [ht])
    rw [← h]; exact key l a

theorem limits_spec {f : List ℝ} {lo hi : Option ℝ} {log : Bool} {mn mx : ℝ} (h : colorLimits f lo hi log = some (mn, mx)) : IsLimits f lo hi log mn mx := by
  unfold colorLimits at h
  obtain ⟨m0, h0, h⟩ := Option.bind_eq_some_iff.mp h
  obtain ⟨m1, h1, h⟩ := Option.bind_eq_some_iff.mp h
  have a0 : lo = some m0 ∨ lo = none ∧ m0 ∈ f ∧ ∀ t ∈ f, m0 ≤ t := by
    cases lo with
    | some v => exact Or.inl h0
    | none => exact Or.inr ⟨rfl, fMin_spec h0⟩
  have a1 : hi = some m1 ∨ hi = none ∧ m1 ∈ f ∧ ∀ t ∈ f, t ≤ m1 := by
    cases hi with
    | some v => exact Or.inl h1
    | none => exact Or.inr ⟨rfl, fMax_spec h1⟩
  have e0 : (if log = true ∧ m0 < npEps then npEps else m0) = if log then max m0 npEps else m0 := by
    cases log with
    | false => simp
    | true =>
      simp only [true_and, if_true]
      split_ifs with h2
      · rw [max_eq_right h2.le]
      · rw [max_eq_left (not_lt.mp h2)]
  rw [e0] at h
  by_cases hc : (if log = true then max m0 npEps else m0) ≤ m1
  · rw [if_pos hc, Option.some.injEq, Prod.mk.injEq] at h
    refine ⟨m0, m1, a0, a1, h.1.symm, by rw [← h.1]; exact hc, ?_⟩
    rw [← h.2, ← h.1]
    split_ifs with h2 h2 h2
    · rw [max_eq_right h2.le]
    · rw [max_eq_left (not_lt.mp h2)]
    · rw [max_eq_right h2.le]
    · rw [max_eq_left (not_lt.mp h2)]
  · rw [if_neg hc] at h
    cases h

theorem IsLimits.lt {f : List ℝ} {lo hi : Option ℝ} {log : Bool} {mn mx : ℝ} (h : IsLimits f lo hi log mn mx) : mn < mx ∧ (log = true → 0 < mn) := by
  obtain ⟨m0, m1, _, _, e, _, e'⟩ := h
  have h0 := npEps_pos
  refine ⟨by rw [e']; exact lt_of_lt_of_le (by linarith) (le_max_right _ _), fun hl => ?_⟩
  rw [e, if_pos hl]
  exact lt_of_lt_of_le h0 (le_max_right _ _)

theorem applyColormap_two {C : List (Fin 3 → ℤ)} (hC : 2 ≤ C.length) (f : List ℝ) (lo hi : Option ℝ) (log pl : Bool) :
    applyColormap C f lo hi log pl = (colorLimits f lo hi log).bind (fun q => colorCore C f log pl q.1 q.2) := by
  cases C with
  | nil => simp at hC
  | cons x C =>
    cases C with
    | nil => simp at hC
    | cons y C => rfl

/-- the call with at least two colours, when the limits are accepted: `interp1d` never refuses a clamped value -/
theorem applyColormap_eq {C : List (Fin 3 → ℤ)} (hC : 2 ≤ C.length) {f : List ℝ} {lo hi : Option ℝ} {log : Bool} (pl : Bool) {mn mx : ℝ} (h : colorLimits f lo hi log = some (mn, mx)) :
    applyColormap C f lo hi log pl = some (f.map (fun t => if pl then fun c => roundInt (interpLinear ((List.range C.length).map (node mn mx log C.length)) C (min (max t mn) mx) c)
      else fun c => roundInt (interpNearest ((List.range C.length).map (node mn mx log C.length)) C (min (max t mn) mx) c))) := by
  have hl := (limits_spec h).lt
  have hax := colorAxis_eq (mn := mn) (mx := mx) (log := log) C.length (fun hlog => ⟨hl.2 hlog, (hl.2 hlog).trans hl.1⟩)
  have hg : ∀ i < C.length, ((List.range C.length).map (node mn mx log C.length)).getD i 0 = node mn mx log C.length i := fun i hi => by
    rw [List.getD_eq_getElem?_getD, List.getElem?_map, List.getElem?_range hi]; rfl
  have hin : ∀ t ∈ f.map (fun t => min (max t mn) mx), inAxis ((List.range C.length).map (node mn mx log C.length)) t := by
    intro t ht
    obtain ⟨s, _, rfl⟩ := List.mem_map.mp ht
    unfold inAxis
    rw [List.length_map, List.length_range, hg 0 (by omega), hg (C.length - 1) (by omega), node_zero, node_last hC hl.2]
    exact ⟨le_min (le_max_right _ _) hl.1.le, min_le_right _ _⟩
  rw [applyColormap_two hC, h, Option.bind_some, colorCore, hax]
  simp only
  rw [if_pos hin, List.map_map]
  rfl

/-- **C96** by default every value gets the colour whose node is nearest to the value clamped to the limits, the one with the smaller number
if two are equally near; there is one colour per value, and no colour is made up. -/
theorem C96_nearest {C : List (Fin 3 → ℤ)} (hC : 2 ≤ C.length) {f : List ℝ} {lo hi : Option ℝ} {log : Bool} {out : List (Fin 3 → ℤ)}
    (h : applyColormap C f lo hi log false = some out) :
    ∃ mn mx, IsLimits f lo hi log mn mx ∧ List.Forall₂ (fun t c => ∃ k, FirstNearest (node mn mx log C.length) C.length (min (max t mn) mx) k ∧ C[k]? = some c) f out := by
  have hne : ∃ q, colorLimits f lo hi log = some q := by
    by_contra hc
    push Not at hc
    rw [applyColormap_two hC, Option.eq_none_iff_forall_not_mem.mpr (fun q hq => hc q hq)] at h
    cases h
  obtain ⟨⟨mn, mx⟩, hq⟩ := hne
  have hl := (limits_spec hq).lt
  rw [applyColormap_eq hC false hq, Option.some.injEq] at h
  refine ⟨mn, mx, limits_spec hq, ?_⟩
  rw [← h, List.forall₂_map_right_iff]
  refine List.forall₂_same.mpr (fun t _ => ?_)
  obtain ⟨k, hk, hv⟩ := nearest_spec hC (x := node mn mx log C.length) (fun i j hij _ => node_mono hC hl.1 hl.2 hij) C (min (max t mn) mx)
  refine ⟨k, hk, ?_⟩
  rw [List.getElem?_eq_getElem hk.1, Option.some.injEq]
  funext c
  simp only [Bool.false_eq_true, if_false]
  have := roundInt_spec (interpNearest ((List.range C.length).map (node mn mx log C.length)) C (min (max t mn) mx) c)
  rw [hv c] at this ⊢
  rw [this.eq_of_int, List.getD_eq_getElem?_getD, List.getElem?_eq_getElem hk.1, Option.getD_some]

/-- **C96** with `piecewise_linear` every value gets, channel by channel, the interpolation of the two neighbouring colours at the value clamped to
the limits, rounded to the nearest integer. -/
theorem C96_linear {C : List (Fin 3 → ℤ)} (hC : 2 ≤ C.length) {f : List ℝ} {lo hi : Option ℝ} {log : Bool} {out : List (Fin 3 → ℤ)}
    (h : applyColormap C f lo hi log true = some out) :
    ∃ mn mx, IsLimits f lo hi log mn mx ∧ List.Forall₂ (fun t o => ∃ (k : ℕ) (w : ℝ) (a b : Fin 3 → ℤ), 0 ≤ w ∧ w ≤ 1 ∧ C[k]? = some a ∧ C[k + 1]? = some b ∧
      min (max t mn) mx = (1 - w) * node mn mx log C.length k + w * node mn mx log C.length (k + 1) ∧ ∀ c, IsRounded ((1 - w) * a c + w * b c) (o c)) f out := by
  have hne : ∃ q, colorLimits f lo hi log = some q := by
    by_contra hc
    push Not at hc
    rw [applyColormap_two hC, Option.eq_none_iff_forall_not_mem.mpr (fun q hq => hc q hq)] at h
    cases h
  obtain ⟨⟨mn, mx⟩, hq⟩ := hne
  have hl := (limits_spec hq).lt
  rw [applyColormap_eq hC true hq, Option.some.injEq] at h
  refine ⟨mn, mx, limits_spec hq, ?_⟩
  rw [← h, List.forall₂_map_right_iff]
  refine List.forall₂_same.mpr (fun t _ => ?_)
  obtain ⟨k, w, hk, hw0, hw1, hw, hv⟩ := linear_spec hC (x := node mn mx log C.length) (fun i j hij _ => node_mono hC hl.1 hl.2 hij) C (t := min (max t mn) mx)
    (by rw [node_zero]; exact le_min (le_max_right _ _) hl.1.le) (by rw [node_last hC hl.2]; exact min_le_right _ _)
  refine ⟨k, w, _, _, hw0, hw1, List.getElem?_eq_getElem (by omega), List.getElem?_eq_getElem hk, hw, fun c => ?_⟩
  simp only [if_true]
  have := roundInt_spec (interpLinear ((List.range C.length).map (node mn mx log C.length)) C (min (max t mn) mx) c)
  rw [hv c] at this ⊢
  rw [List.getD_eq_getElem?_getD, List.getD_eq_getElem?_getD, List.getElem?_eq_getElem (show k < C.length by omega), List.getElem?_eq_getElem hk, Option.getD_some, Option.getD_some] at this ⊢
  exact this

/-- **C96** in both modes no channel leaves the range of that channel in the colour table: with a table of `0..255` the result is in `0..255`. -/
theorem C96_range {C : List (Fin 3 → ℤ)} {f : List ℝ} {lo hi : Option ℝ} {log pl : Bool} {out : List (Fin 3 → ℤ)}
    (h : applyColormap C f lo hi log pl = some out) (c : Fin 3) {a b : ℤ} (hab : ∀ x ∈ C, a ≤ x c ∧ x c ≤ b) : out.length = f.length ∧ ∀ o ∈ out, a ≤ o c ∧ o c ≤ b := by
  rcases Nat.lt_or_ge C.length 2 with hC | hC
  · cases C with
    | nil => cases h
    | cons x C =>
      cases C with
      | nil =>
        cases h
        refine ⟨by simp, fun o ho => ?_⟩
        obtain ⟨_, _, rfl⟩ := List.mem_map.mp ho
        exact hab _ (by simp)
      | cons y C => simp at hC
  · cases pl with
    | false =>
      obtain ⟨mn, mx, _, h2⟩ := C96_nearest hC h
      refine ⟨h2.length_eq.symm, fun o ho => ?_⟩
      obtain ⟨i, hi, rfl⟩ := List.getElem_of_mem ho
      obtain ⟨k, _, hk⟩ := (List.forall₂_iff_get.mp h2).2 i (by rw [h2.length_eq]; exact hi) hi
      exact hab _ (List.mem_of_getElem? hk)
    | true =>
      obtain ⟨mn, mx, _, h2⟩ := C96_linear hC h
      refine ⟨h2.length_eq.symm, fun o ho => ?_⟩
      obtain ⟨i, hi, rfl⟩ := List.getElem_of_mem ho
      obtain ⟨k, w, x, y, h0, h1, hx, hy, _, hr⟩ := (List.forall₂_iff_get.mp h2).2 i (by rw [h2.length_eq]; exact hi) hi
      have bx := hab _ (List.mem_of_getElem? hx)
      have by' := hab _ (List.mem_of_getElem? hy)
      have e1 : (a : ℝ) ≤ x c := by exact_mod_cast bx.1
      have e2 : (x c : ℝ) ≤ b := by exact_mod_cast bx.2
      have e3 : (a : ℝ) ≤ y c := by exact_mod_cast by'.1
      have e4 : (y c : ℝ) ≤ b := by exact_mod_cast by'.2
      exact (hr c).between (by nlinarith) (by nlinarith)

/-- **C96** a call with values and a table of at least two colours fails only because of the limits: it succeeds whenever the lower limit
(raised to machine epsilon with `log`) does not exceed the upper one. -/
theorem C96_total {C : List (Fin 3 → ℤ)} (hC : 2 ≤ C.length) {f : List ℝ} (lo hi : Option ℝ) (log pl : Bool) {m0 m1 : ℝ}
    (h0 : lo = some m0 ∨ lo = none ∧ m0 ∈ f ∧ ∀ t ∈ f, m0 ≤ t) (h1 : hi = some m1 ∨ hi = none ∧ m1 ∈ f ∧ ∀ t ∈ f, t ≤ m1) :
    (∃ out, applyColormap C f lo hi log pl = some out) ↔ (if log then max m0 npEps else m0) ≤ m1 := by
  have a0 : lo.orElse (fun _ => fMin f) = some m0 := by
    rcases h0 with rfl | ⟨rfl, hm, hle⟩
    · rfl
    · cases f with
      | nil => simp at hm
      | cons a l =>
        have hs := fMin_spec (f := a :: l) (m := l.foldl min a) rfl
        show some (l.foldl min a) = some m0
        rw [le_antisymm (hs.2 m0 hm) (hle _ hs.1)]
  have a1 : hi.orElse (fun _ => fMax f) = some m1 := by
    rcases h1 with rfl | ⟨rfl, hm, hle⟩
    · rfl
    · cases f with
      | nil => simp at hm
      | cons a l =>
        have hs := fMax_spec (f := a :: l) (m := l.foldl max a) rfl
        show some (l.foldl max a) = some m1
        rw [le_antisymm (hle _ hs.1) (hs.2 m1 hm)]
  have e0 : (if log = true ∧ m0 < npEps then npEps else m0) = if log then max m0 npEps else m0 := by
    cases log with
    | false => simp
    | true =>
      simp only [true_and, if_true]
      split_ifs with h2
      · rw [max_eq_right h2.le]
      · rw [max_eq_left (not_lt.mp h2)]
  have key : colorLimits f lo hi log = if (if log then max m0 npEps else m0) ≤ m1 then some ((if log then max m0 npEps else m0), if m1 < (if log then max m0 npEps else m0) + npEps then (if log then max m0 npEps else m0) + npEps else m1) else none := by
    unfold colorLimits
    simp only [a0, a1, e0, Option.bind_eq_bind, Option.bind_some]
  constructor
  · rintro ⟨out, h⟩
    by_contra hc
    rw [if_neg hc] at key
    rw [applyColormap_two hC, key] at h; cases h
  · intro hc
    rw [if_pos hc] at key
    exact ⟨_, applyColormap_eq hC pl key⟩

/-- **C96** a table with a single colour gives this colour for all values. -/
theorem C96_single (c : Fin 3 → ℤ) (f : List ℝ) (lo hi : Option ℝ) (log pl : Bool) : applyColormap [c] f lo hi log pl = some (f.map (fun _ => c)) := rfl

/-- **C96** the documentation says that with `log` all values are clamped to machine epsilon.  Without an upper limit, data below machine epsilon are
refused instead. -/
theorem C96_log_violated {C : List (Fin 3 → ℤ)} (hC : 2 ≤ C.length) {f : List ℝ} (hf : ∀ t ∈ f, t < npEps) (lo : Option ℝ) (pl : Bool) : applyColormap C f lo none true pl = none := by
  cases f with
  | nil =>
    rw [applyColormap_two hC]
    cases lo <;> rfl
  | cons a l =>
    obtain ⟨hm, hle⟩ := fMax_spec (f := a :: l) (m := l.foldl max a) rfl
    obtain ⟨m0, h0⟩ : ∃ m0, (lo = some m0 ∨ lo = none ∧ m0 ∈ a :: l ∧ ∀ t ∈ a :: l, m0 ≤ t) := by
      cases lo with
      | some v => exact ⟨v, Or.inl rfl⟩
      | none =>
        obtain ⟨hm', hle'⟩ := fMin_spec (f := a :: l) (m := l.foldl min a) rfl
        exact ⟨_, Or.inr ⟨rfl, hm', hle'⟩⟩
    have := C96_total hC lo none true pl h0 (Or.inr ⟨rfl, hm, hle⟩)
    by_contra hne
    obtain ⟨out, ho⟩ := Option.ne_none_iff_exists'.mp hne
    have h2 := this.mp ⟨out, ho⟩
    rw [if_pos rfl] at h2
    have := hf _ hm
    have := le_max_right m0 npEps
    linarith

/-- the hypotheses of the theorems above are met: three values, three colours, and data at zero for the last theorem -/
example : (∃ out, applyColormap [![0, 0, 0], ![10, 20, 30], ![255, 255, 255]] [0, 1, 3] none none false true = some out) ∧ ∀ t ∈ ([0, -1] : List ℝ), t < npEps := by
  constructor
  · refine (C96_total (m0 := 0) (m1 := 3) (by simp) none none false true (Or.inr ⟨rfl, by simp, ?_⟩) (Or.inr ⟨rfl, by simp, ?_⟩)).mpr (by simp)
    all_goals intro t ht; simp only [List.mem_cons, List.not_mem_nil, or_false] at ht; rcases ht with rfl | rfl | rfl <;> norm_num
  · intro t ht
    have := npEps_pos
    simp only [List.mem_cons, List.not_mem_nil, or_false] at ht
    rcases ht with rfl | rfl <;> linarith

end Gpy
