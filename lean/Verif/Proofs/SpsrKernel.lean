import Verif.Model.StochasticPoisson
import Verif.Props.CompactNormal
import Verif.Props.MatrixFromFunction
import Mathlib.Data.List.GetD
import Mathlib.Tactic.LinearCombination
import Mathlib.Tactic.Linarith
import Mathlib.Tactic.Positivity

/-! The kernel matrices of `stochastic_poisson_surface_reconstruction`. -/

set_option autoImplicit false
namespace Gpy.Spsr
open Np Finset

/-! ## Offsets -/

def stepOff (gs : List ℕ) (nb : List ℤ) (k : ℕ) : List ℤ := nb.flatMap (fun a => seven.map (fun b => a + b * ((gs.take (k + 1)).prod : ℕ)))

theorem mem_seven {b : ℤ} : b ∈ seven ↔ -3 ≤ b ∧ b ≤ 3 := by
  unfold seven
  simp only [List.mem_cons, List.not_mem_nil, or_false]
  omega

theorem fold_mem (gs : List ℕ) (o : ℕ → ℤ) (ho : ∀ k, -3 ≤ o k ∧ o k ≤ 3) : ∀ n, ∑ k ∈ range (n + 1), o k * ((gs.take k).prod : ℕ) ∈ (List.range n).foldl (stepOff gs) seven := by
  intro n
  induction n with
  | zero => simp only [zero_add, Finset.sum_range_one, List.take_zero, List.prod_nil, Nat.cast_one, mul_one, List.range_zero, List.foldl_nil]; exact mem_seven.mpr (ho 0)
  | succ n ih =>
    rw [List.range_succ, List.foldl_append, Finset.sum_range_succ]
    simp only [List.foldl_cons, List.foldl_nil]
    unfold stepOff
    rw [List.mem_flatMap]
    exact ⟨_, ih, List.mem_map.mpr ⟨o (n + 1), mem_seven.mpr (ho _), rfl⟩⟩

theorem fold_nodup (gs : List ℕ) : ∀ n, n ≤ gs.length → (∀ k, k < n → 7 ≤ gs.getD k 0) →
    ((List.range n).foldl (stepOff gs) seven).Nodup ∧ ∀ a ∈ (List.range n).foldl (stepOff gs) seven, 2 * |a| < 7 * ((gs.take n).prod : ℕ) := by
  intro n
  induction n with
  | zero =>
    intro _ _
    simp only [List.range_zero, List.foldl_nil, List.take_zero, List.prod_nil, Nat.cast_one, mul_one]
    refine ⟨by unfold seven; decide, fun a ha => ?_⟩
    have := mem_seven.mp ha
    have : |a| ≤ 3 := abs_le.mpr ⟨this.1, this.2⟩
    omega
  | succ n ih =>
    intro hn hg
    obtain ⟨i1, i2⟩ := ih (by omega) (fun k hk => hg k (by omega))
    rw [List.range_succ, List.foldl_append]
    simp only [List.foldl_cons, List.foldl_nil]
    generalize (List.range n).foldl (stepOff gs) seven = L at *
    have hS : 7 * ((gs.take n).prod : ℕ) ≤ (((gs.take (n + 1)).prod : ℕ) : ℤ) := by
      have h1 : (gs.take (n + 1)).prod = (gs.take n).prod * gs.getD n 0 := by
        rw [List.take_succ, List.prod_append, List.getD_eq_getElem _ _ (show n < gs.length by omega), List.getElem?_eq_getElem (show n < gs.length by omega)]
        simp
      rw [h1]
      have := hg n (by omega)
      have h2 : (gs.take n).prod * 7 ≤ (gs.take n).prod * gs.getD n 0 := Nat.mul_le_mul_left _ this
      omega
    unfold stepOff
    generalize ((gs.take (n + 1)).prod : ℕ) = S at *
    have hsmall : ∀ a ∈ L, 2 * |a| < (S : ℤ) := fun a ha => lt_of_lt_of_le (i2 a ha) hS
    have inj : ∀ a ∈ L, ∀ a' ∈ L, ∀ b b' : ℤ, a + b * S = a' + b' * S → a = a' := by
      intro a ha a' ha' b b' he
      have h1 := hsmall a ha
      have h2 := hsmall a' ha'
      have h3 : |a - a'| < S := by
        have := abs_sub a a'
        linarith
      have h4 : a - a' = (b' - b) * S := by linear_combination he
      by_contra hne
      have h5 : (b' - b) ≠ 0 := by
        intro h0
        rw [h0, zero_mul] at h4
        exact hne (by linarith)
      have h6 : 1 ≤ |b' - b| := Int.one_le_abs h5
      rw [h4, abs_mul] at h3
      have h7 : (S : ℤ) ≤ |(S : ℤ)| := le_abs_self _
      have h8 : 0 ≤ |(S : ℤ)| := abs_nonneg _
      nlinarith
    refine ⟨?_, ?_⟩
    · rw [List.nodup_flatMap]
      constructor
      · intro a ha
        refine List.Nodup.map ?_ (by unfold seven; decide)
        intro b b' hb
        have h0 : (S : ℤ) ≠ 0 := by
          have := hsmall a ha
          have := abs_nonneg a
          omega
        have hb' : b * S = b' * S := by simp only at hb; linarith
        exact mul_right_cancel₀ h0 hb'
      · refine List.Pairwise.imp_of_mem ?_ i1
        intro a a' ha ha' hne
        show List.Disjoint _ _
        intro z hz hz'
        obtain ⟨b, -, rfl⟩ := List.mem_map.mp hz
        obtain ⟨b', -, hb'⟩ := List.mem_map.mp hz'
        exact hne (inj a ha a' ha' b b' hb'.symm)
    · intro z hz
      obtain ⟨a, ha, hz⟩ := List.mem_flatMap.mp hz
      obtain ⟨b, hb, rfl⟩ := List.mem_map.mp hz
      have h1 := hsmall a ha
      have h2 := mem_seven.mp hb
      have h3 : |b| ≤ 3 := abs_le.mpr ⟨h2.1, h2.2⟩
      have h4 : |a + b * S| ≤ |a| + |b| * S := by
        refine (abs_add_le _ _).trans ?_
        rw [abs_mul, abs_of_nonneg (show (0 : ℤ) ≤ S by positivity)]
      have h5 : |b| * S ≤ 3 * S := mul_le_mul_of_nonneg_right h3 (by positivity)
      linarith

/-! ## Indices -/

/-- the index of a cell, `Σ i_k·g_0·…·g_(k-1)` -/
def lin : List ℕ → List ℤ → ℤ
  | g :: gs, i :: is => i + g * lin gs is
  | _, _ => 0

theorem lin_sum : ∀ (gs : List ℕ) (l : List ℤ), l.length = gs.length → lin gs l = ∑ k ∈ range gs.length, l.getD k 0 * ((gs.take k).prod : ℕ) := by
  intro gs
  induction gs with
  | nil => intro l h; cases l with | nil => rfl | cons => simp at h
  | cons g gs ih =>
    intro l h
    cases l with
    | nil => simp at h
    | cons i is =>
      simp only [List.length_cons, Nat.add_right_cancel_iff] at h
      rw [lin, ih is h, List.length_cons, Finset.sum_range_succ', Finset.mul_sum]
      simp only [List.getD_cons_zero, List.getD_cons_succ, List.take_zero, List.prod_nil, List.take_succ_cons, List.prod_cons, Nat.cast_mul, Nat.cast_one, mul_one]
      rw [add_comm]
      congr 1
      exact Finset.sum_congr rfl (fun k _ => by ring)

theorem lin_ravel : ∀ (gs : List ℕ) (l : List ℤ), l.length = gs.length → (∀ k, k < gs.length → 0 ≤ l.getD k 0 ∧ l.getD k 0 < gs.getD k 0) → (ravelWrapF gs l : ℤ) = lin gs l := by
  intro gs
  induction gs with
  | nil => intro l h _; cases l with | nil => rfl | cons => simp at h
  | cons g gs ih =>
    intro l h hk
    cases l with
    | nil => simp at h
    | cons i is =>
      simp only [List.length_cons, Nat.add_right_cancel_iff] at h
      have h0 := hk 0 (by simp)
      simp only [List.getD_cons_zero] at h0
      have := ih is h (fun k hk' => by simpa using hk (k + 1) (by simpa using hk'))
      rw [ravelWrapF, lin, ← this]
      push_cast
      rw [Int.emod_eq_of_lt h0.1 h0.2, Int.toNat_of_nonneg h0.1]

theorem lin_unravel : ∀ (gs : List ℕ) (j : ℕ), j < gs.prod → lin gs ((unravelF gs j).map (fun a : ℕ => (a : ℤ))) = j := by
  intro gs
  induction gs with
  | nil => intro j h; simp at h; subst h; rfl
  | cons g gs ih =>
    intro j h
    rw [List.prod_cons] at h
    rw [unravelF, List.map_cons, lin, ih (j / g) (Nat.div_lt_of_lt_mul h)]
    exact_mod_cast Nat.mod_add_div j g

theorem unravel_length : ∀ (gs : List ℕ) (j : ℕ), (unravelF gs j).length = gs.length := by
  intro gs
  induction gs with
  | nil => intro j; rfl
  | cons g gs ih => intro j; simp [unravelF, ih]

theorem unravel_lt : ∀ (gs : List ℕ) (j k : ℕ), j < gs.prod → k < gs.length → (unravelF gs j).getD k 0 < gs.getD k 0 := by
  intro gs
  induction gs with
  | nil => intro j k _ h; simp at h
  | cons g gs ih =>
    intro j k hj hk
    rw [List.prod_cons] at hj
    have hg : 0 < g := by
      rcases Nat.eq_zero_or_pos g with h | h
      · subst h; simp at hj
      · exact h
    cases k with
    | zero => simpa [unravelF] using Nat.mod_lt j hg
    | succ k => simpa [unravelF] using ih (j / g) k (Nat.div_lt_of_lt_mul hj) (by simpa using hk)

theorem minH_le {d : ℕ} (h : Pt d) (k : Fin d) : minH h ≤ h k := by
  unfold minH
  cases hm : (List.ofFn h).min? with
  | none =>
    rw [List.min?_eq_none_iff] at hm
    have : (List.ofFn h).length = 0 := by rw [hm]; rfl
    rw [List.length_ofFn] at this
    exact absurd k.isLt (by omega)
  | some m =>
    have := (List.min?_eq_some_iff.mp hm).2 (h k) (List.mem_ofFn.mpr ⟨k, rfl⟩)
    simpa using this

theorem minH_pos {d : ℕ} {h : Pt d} (hd : 0 < d) (hh : ∀ k, 0 < h k) : 0 < minH h := by
  unfold minH
  cases hm : (List.ofFn h).min? with
  | none =>
    rw [List.min?_eq_none_iff] at hm
    have : (List.ofFn h).length = 0 := by rw [hm]; rfl
    rw [List.length_ofFn] at this
    omega
  | some m =>
    obtain ⟨k, hk⟩ := List.mem_ofFn.mp (List.min?_eq_some_iff.mp hm).1
    simp only [Option.getD_some]
    rw [← hk]
    exact hh k

/-- the kernel vanishes when a coordinate differs by more than three times the smallest spacing -/
theorem kern_zero {d : ℕ} {h : Pt d} (hh : ∀ k, 0 < h k) {x y : Pt d} (k : Fin d) (hk : 3 * minH h < |x k - y k|) : kern h x y = 0 := by
  have hm := minH_pos (Nat.lt_of_le_of_lt (Nat.zero_le _) k.isLt) hh
  obtain ⟨v, hv, -, h0⟩ := C89_support (n := 3) (by norm_num) (by norm_num) (σ := 1.5 * minH h) (by positivity) none (fun k => x k - y k)
  unfold kern
  rw [hv, Option.getD_some]
  apply h0
  refine ⟨k, ?_⟩
  simp only [Option.getD_none, Pi.zero_apply, sub_zero]
  refine lt_of_eq_of_lt ?_ hk
  push_cast
  ring

theorem kern_nonneg {d : ℕ} {h : Pt d} (hd : 0 < d) (hh : ∀ k, 0 < h k) (x y : Pt d) : 0 ≤ kern h x y := by
  have hm := minH_pos hd hh
  obtain ⟨v, hv, h0, -⟩ := C89_support (n := 3) (by norm_num) (by norm_num) (σ := 1.5 * minH h) (by positivity) none (fun k => x k - y k)
  unfold kern
  rw [hv, Option.getD_some]
  exact h0

/-- the cell as a list of indices -/
noncomputable def cellIdx {d : ℕ} (h corner p : Pt d) : List ℤ := List.ofFn (fun k => ⌊(p k - corner k) / h k⌋)

theorem getD_ofFn {d : ℕ} {α : Type} (f : Fin d → α) (z : α) (k : Fin d) : (List.ofFn f).getD k.val z = f k := by
  rw [List.getD_eq_getElem _ _ (by simp)]
  simp

/-- a point that is in the grid: its cell -/
theorem cellOf_some {d : ℕ} {gs : Fin d → ℕ} {h corner p : Pt d} (hh : ∀ k, 0 < h k) (hp : ∀ k, corner k ≤ p k ∧ p k < corner k + gs k * h k) :
    ∃ c, cellOf gs h corner p = some c ∧ (c : ℤ) = lin (List.ofFn gs) (cellIdx h corner p) := by
  have hk : ∀ k, 0 ≤ ⌊(p k - corner k) / h k⌋ ∧ ⌊(p k - corner k) / h k⌋ < gs k := by
    intro k
    constructor
    · exact Int.floor_nonneg.mpr (div_nonneg (by linarith [(hp k).1]) (hh k).le)
    · rw [Int.floor_lt, div_lt_iff₀ (hh k)]
      push_cast
      linarith [(hp k).2]
  refine ⟨_, ?_, lin_ravel (List.ofFn gs) (cellIdx h corner p) (by simp [cellIdx]) ?_⟩
  · unfold cellOf
    simp only
    rw [if_pos hk]
    rfl
  · intro k hk'
    rw [List.length_ofFn] at hk'
    have := hk ⟨k, hk'⟩
    unfold cellIdx
    rw [getD_ofFn _ 0 ⟨k, hk'⟩, getD_ofFn _ 0 ⟨k, hk'⟩]
    exact this

/-- where the kernel does not vanish, the node is one of those that are looked at -/
theorem offset_mem {d : ℕ} {gs : Fin d → ℕ} {h corner p : Pt d} (hd : 0 < d) (hh : ∀ k, 0 < h k) {j : ℕ} (hj : j < size gs) (hk : kern h p (node gs h corner j) ≠ 0) :
    (j : ℤ) - lin (List.ofFn gs) (cellIdx h corner p) ∈ offsets gs := by
  have e1 := lin_unravel (List.ofFn gs) j hj
  have l1 : ((unravelF (List.ofFn gs) j).map (fun a : ℕ => (a : ℤ))).length = (List.ofFn gs).length := by rw [List.length_map, unravel_length]
  rw [← e1, lin_sum _ _ l1, lin_sum _ _ (by simp [cellIdx]), ← Finset.sum_sub_distrib]
  have e2 : ∑ k ∈ range (List.ofFn gs).length, (((unravelF (List.ofFn gs) j).map (fun a : ℕ => (a : ℤ))).getD k 0 * (((List.ofFn gs).take k).prod : ℕ) -
      (cellIdx h corner p).getD k 0 * (((List.ofFn gs).take k).prod : ℕ)) =
      ∑ k ∈ range (d - 1 + 1), (if k < d then ((unravelF (List.ofFn gs) j).map (fun a : ℕ => (a : ℤ))).getD k 0 - (cellIdx h corner p).getD k 0 else 0) * (((List.ofFn gs).take k).prod : ℕ) := by
    rw [List.length_ofFn, show d - 1 + 1 = d by omega]
    refine Finset.sum_congr rfl (fun k hk => ?_)
    rw [if_pos (Finset.mem_range.mp hk)]
    ring
  rw [e2]
  refine fold_mem (List.ofFn gs) _ ?_ (d - 1)
  intro k
  by_cases hkd : k < d
  · rw [if_pos hkd]
    have hne : ¬ 3 * minH h < |p ⟨k, hkd⟩ - node gs h corner j ⟨k, hkd⟩| := fun hc => hk (kern_zero hh ⟨k, hkd⟩ hc)
    push Not at hne
    have hm := minH_le h ⟨k, hkd⟩
    have h0 := hh ⟨k, hkd⟩
    have e3 : ((unravelF (List.ofFn gs) j).map (fun a : ℕ => (a : ℤ))).getD k 0 = (((unravelF (List.ofFn gs) j).getD k 0 : ℕ) : ℤ) := by
      have hkl : k < (unravelF (List.ofFn gs) j).length := by rw [unravel_length, List.length_ofFn]; exact hkd
      rw [List.getD_eq_getElem _ _ (by simpa using hkl), List.getD_eq_getElem _ _ hkl, List.getElem_map]
    have e4 : (cellIdx h corner p).getD k 0 = ⌊(p ⟨k, hkd⟩ - corner ⟨k, hkd⟩) / h ⟨k, hkd⟩⌋ := by
      unfold cellIdx
      rw [getD_ofFn _ 0 ⟨k, hkd⟩]
    rw [e3, e4]
    unfold node at hne
    simp only at hne
    generalize (unravelF (List.ofFn gs) j).getD k 0 = a at *
    generalize hf : ⌊(p ⟨k, hkd⟩ - corner ⟨k, hkd⟩) / h ⟨k, hkd⟩⌋ = f at *
    have f1 := Int.floor_le ((p ⟨k, hkd⟩ - corner ⟨k, hkd⟩) / h ⟨k, hkd⟩)
    have f2 := Int.lt_floor_add_one ((p ⟨k, hkd⟩ - corner ⟨k, hkd⟩) / h ⟨k, hkd⟩)
    rw [hf] at f1 f2
    have e5 : |(p ⟨k, hkd⟩ - corner ⟨k, hkd⟩) / h ⟨k, hkd⟩ - a| ≤ 3 := by
      have : (p ⟨k, hkd⟩ - corner ⟨k, hkd⟩) / h ⟨k, hkd⟩ - a = (p ⟨k, hkd⟩ - (corner ⟨k, hkd⟩ + a * h ⟨k, hkd⟩)) / h ⟨k, hkd⟩ := by
        field_simp
        ring
      rw [this, abs_div, abs_of_pos h0, div_le_iff₀ h0]
      linarith
    have e6 := abs_le.mp e5
    have g1 : (f : ℝ) - a < 4 := by linarith [e6.2]
    have g2 : (-4 : ℝ) < (f : ℝ) - a := by linarith [e6.1]
    have g1' : f - (a : ℤ) < 4 := by exact_mod_cast g1
    have g2' : -4 < f - (a : ℤ) := by exact_mod_cast g2
    omega
  · rw [if_neg hkd]; omega

theorem offsets_nodup {d : ℕ} {gs : Fin d → ℕ} (hg : ∀ k : Fin d, k.val + 1 < d → 7 ≤ gs k) : (offsets gs).Nodup := by
  refine (fold_nodup (List.ofFn gs) (d - 1) (by simp) ?_).1
  intro k hk
  rw [getD_ofFn gs 0 ⟨k, by omega⟩]
  exact hg ⟨k, by omega⟩ (by simp only; omega)

theorem mem_pattern {d : ℕ} {gs : Fin d → ℕ} {cells : List ℕ} {i j : ℕ} : (i, j) ∈ pattern gs cells ↔ ∃ c, cells[i]? = some c ∧ j < size gs ∧ (j : ℤ) - c ∈ offsets gs := by
  unfold pattern
  rw [List.mem_flatMap]
  constructor
  · rintro ⟨⟨c, i'⟩, hc, h⟩
    rw [List.mem_filterMap] at h
    obtain ⟨o, ho, h⟩ := h
    split_ifs at h with hb
    simp only [Option.some.injEq, Prod.mk.injEq] at h hb
    obtain ⟨rfl, rfl⟩ := h
    refine ⟨c, List.mem_zipIdx_iff_getElem?.mp hc, by omega, ?_⟩
    rw [Int.toNat_of_nonneg hb.1]
    simpa using ho
  · rintro ⟨c, hc, hj, ho⟩
    refine ⟨(c, i), List.mem_zipIdx_iff_getElem?.mpr hc, List.mem_filterMap.mpr ⟨_, ho, ?_⟩⟩
    rw [if_pos (by simp only; omega)]
    simp

theorem pattern_nodup {d : ℕ} {gs : Fin d → ℕ} (hg : ∀ k : Fin d, k.val + 1 < d → 7 ≤ gs k) (cells : List ℕ) : (pattern gs cells).Nodup := by
  unfold pattern
  rw [List.nodup_flatMap]
  constructor
  · rintro ⟨c, i⟩ -
    refine List.Nodup.filterMap ?_ (offsets_nodup hg)
    intro o o' z hz hz'
    simp only [Option.mem_def] at hz hz'
    split_ifs at hz with h1
    split_ifs at hz' with h2
    rw [← hz'] at hz
    simp only [Option.some.injEq, Prod.mk.injEq, true_and] at hz
    omega
  · have hn : (cells.zipIdx.map Prod.snd).Nodup := by
      rw [List.zipIdx_map_snd]
      exact List.nodup_range'
    have hp : cells.zipIdx.Pairwise (fun a b => a.2 ≠ b.2) := by
      have := hn
      rw [List.Nodup, List.pairwise_map] at this
      exact this
    refine hp.imp ?_
    intro a b hab
    show List.Disjoint _ _
    intro z hz hz'
    rw [List.mem_filterMap] at hz hz'
    obtain ⟨o, -, h1⟩ := hz
    obtain ⟨o', -, h2⟩ := hz'
    split_ifs at h1
    split_ifs at h2
    rw [← h1] at h2
    simp only [Option.some.injEq, Prod.mk.injEq] at h2
    exact hab h2.1.symm

theorem nodes_get {d : ℕ} (gs : Fin d → ℕ) (h corner : Pt d) {j : ℕ} (hj : j < size gs) : (nodes gs h corner)[j]? = some (node gs h corner j) := by
  unfold nodes
  rw [List.getElem?_map, List.getElem?_range hj]
  rfl

/-- the covariances of the points and the nodes -/
theorem k2_exact {d : ℕ} {gs : Fin d → ℕ} {h corner : Pt d} {P : List (Pt d)} (hd : 0 < d) (hh : ∀ k, 0 < h k) (hg : ∀ k : Fin d, k.val + 1 < d → 7 ≤ gs k)
    (hP : ∀ p ∈ P, ∀ k, corner k ≤ p k ∧ p k < corner k + gs k * h k) :
    ∃ K, k2 gs h corner P = some K ∧ K.WF ∧ K.nrows = P.length ∧ K.ncols = size gs ∧ ∀ (i j : ℕ) (p : Pt d), P[i]? = some p → j < size gs → K.get i j = kern h p (node gs h corner j) := by
  have hc : ∀ p ∈ P, cellOf gs h corner p = some ((cellOf gs h corner p).getD 0) := by
    intro p hp
    obtain ⟨c, e, -⟩ := cellOf_some hh (hP p hp)
    rw [e]; rfl
  have hcells : P.mapM (cellOf gs h corner) = some (P.map (fun p => (cellOf gs h corner p).getD 0)) := mapM_some_map _ _ _ hc
  unfold k2
  simp only [hcells, Option.bind_eq_bind, Option.bind_some]
  generalize hcs : P.map (fun p => (cellOf gs h corner p).getD 0) = cells
  have hI : ∀ i ∈ (pattern gs cells).map (fun p => p.1), i < P.length := by
    intro i hi
    obtain ⟨⟨a, b⟩, h1, rfl⟩ := List.mem_map.mp hi
    obtain ⟨c, h2, -⟩ := mem_pattern.mp h1
    have := (List.getElem?_eq_some_iff.mp h2).1
    rw [← hcs, List.length_map] at this
    exact this
  have hJ : ∀ j ∈ (pattern gs cells).map (fun p => p.2), j < (nodes gs h corner).length := by
    intro j hj
    obtain ⟨⟨a, b⟩, h1, rfl⟩ := List.mem_map.mp hj
    obtain ⟨c, -, h2, -⟩ := mem_pattern.mp h1
    simpa [nodes] using h2
  obtain ⟨M, m1, m2, m3, m4, m5, -⟩ := mff_pattern (kern h) P (nodes gs h corner) _ _ (by simp) hI hJ
  refine ⟨M, m1, m2, m3, by rw [m4]; simp [nodes], ?_⟩
  intro i j p hp hj
  rw [m5 i j p _ hp (nodes_get gs h corner hj)]
  have hz : ((pattern gs cells).map (fun p => p.1)).zip ((pattern gs cells).map (fun p => p.2)) = pattern gs cells := by
    rw [← List.unzip_fst, ← List.unzip_snd, List.zip_unzip]
  rw [hz]
  by_cases hk : kern h p (node gs h corner j) = 0
  · rw [hk, mul_zero]
  · have hmem : (i, j) ∈ pattern gs cells := by
      refine mem_pattern.mpr ?_
      obtain ⟨c, e1, e2⟩ := cellOf_some hh (hP p (List.mem_of_getElem? hp))
      refine ⟨c, ?_, hj, ?_⟩
      · rw [← hcs, List.getElem?_map, hp, Option.map_some, e1]; rfl
      · rw [e2]; exact offset_mem hd hh hj hk
    rw [List.count_eq_one_of_mem (pattern_nodup hg cells) hmem]
    simp

end Gpy.Spsr
