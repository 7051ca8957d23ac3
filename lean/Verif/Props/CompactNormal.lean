import Verif.Proofs.BSpline
import Mathlib.MeasureTheory.Integral.Pi
import Mathlib.Topology.Algebra.Module.Cardinality

/-! C89: `compactly_supported_normal`. -/

set_option autoImplicit false
namespace Gpy
open MeasureTheory Filter Topology

variable {d : ℕ}

/-- the factor of coordinate `i` -/
noncomputable def cnFac (n : ℕ) (second : Option (Fin d)) (x : Pt d) (i : Fin d) : ℝ := if second = some i then cnB2 n (x i) else cnB n (x i)

theorem cn_fold {n : ℕ} (hn : 1 ≤ n) (h4 : n ≤ 4) (second : Option (Fin d)) (x : Pt d) : ∀ (l : List (Fin d)) (v : ℝ),
    l.foldlM (cnStep n second x) v = some (v * (l.map (cnFac n second x)).prod)
  | [], v => by simp
  | i :: l, v => by
    rw [List.foldlM_cons]
    have hs : cnStep n second x v i = some (v * cnFac n second x i) := by
      unfold cnFac cnStep
      split_ifs
      · rw [cnFactor2_eq hn h4]; rfl
      · rw [cnFactor_eq hn h4]; rfl
    rw [hs]
    simp only [Option.bind_eq_bind, Option.bind_some]
    rw [cn_fold hn h4 second x l, List.map_cons, List.prod_cons, mul_assoc]

theorem cnFac_none {n : ℕ} (x : Pt d) (i : Fin d) : cnFac n none x i = cnB n (x i) := by
  unfold cnFac; rw [if_neg (by simp)]

theorem compactNormal_eq {n : ℕ} (hn : 1 ≤ n) (h4 : n ≤ 4) (σ : ℝ) (c : Option (Pt d)) (second : Option (Fin d)) (x : Pt d) :
    compactNormal n σ c second x = some ((∏ i, cnFac n second (fun k => (x k - c.getD 0 k) / σ) i) / σ ^ d / (if second = none then 1 else σ ^ 2)) := by
  unfold compactNormal cnCentered
  simp only [cn_fold hn h4, Option.bind_eq_bind, Option.bind_some, one_mul]
  have hp : ((List.finRange d).map (cnFac n second fun k => (x k - c.getD 0 k) / σ)).prod = ∏ i, cnFac n second (fun k => (x k - c.getD 0 k) / σ) i := by
    rw [← List.prod_ofFn, List.ofFn_eq_map]
  rw [hp]
  cases second with
  | none => simp
  | some i => simp

/-- **C89** the value is the product over the coordinates of the box function convolved `n` times with itself, scaled by `sigma` and moved to the center: everywhere for one and three convolutions, and for two and four
as long as no scaled coordinate is `±1/2` (or `±3/2` for four). -/
theorem C89_density {n : ℕ} (hn : 1 ≤ n) (h4 : n ≤ 4) (σ : ℝ) (c : Option (Pt d)) (x : Pt d)
    (hx : (n = 2 ∨ n = 4) → ∀ k, |(x k - c.getD 0 k) / σ| ≠ 1 / 2 ∧ (n = 4 → |(x k - c.getD 0 k) / σ| ≠ 3 / 2)) :
    compactNormal n σ c none x = some ((∏ k, boxSpline n ((x k - c.getD 0 k) / σ)) / σ ^ d) := by
  rw [compactNormal_eq hn h4]
  simp only [if_true, div_one]
  congr 2
  refine Finset.prod_congr rfl (fun k _ => ?_)
  unfold cnFac
  rw [if_neg (by simp)]
  apply cnB_eq hn h4
  intro hb
  have hn' : n = 1 ∨ n = 2 ∨ n = 3 ∨ n = 4 := by omega
  rcases hn' with rfl | rfl | rfl | rfl
  · exact hb
  · obtain ⟨h1, _⟩ := hx (Or.inl rfl) k
    simp only [badKnots, Set.mem_insert_iff, Set.mem_singleton_iff] at hb
    rcases hb with h | h <;> rw [h] at h1 <;> norm_num [abs_of_neg, abs_of_pos] at h1
  · exact hb
  · obtain ⟨h1, h2⟩ := hx (Or.inr rfl) k
    have h2 := h2 rfl
    simp only [badKnots, Set.mem_insert_iff, Set.mem_singleton_iff] at hb
    rcases hb with h | h | h | h
    · rw [h] at h2; norm_num [abs_of_neg, abs_of_pos] at h2
    · rw [h] at h1; norm_num [abs_of_neg, abs_of_pos] at h1
    · rw [h] at h1; norm_num [abs_of_neg, abs_of_pos] at h1
    · rw [h] at h2; norm_num [abs_of_neg, abs_of_pos] at h2

/-- **C89** it is a probability density: for `sigma > 0` the integral over the whole space is one, in any dimension and around any center. -/
theorem C89_mass {n : ℕ} (hn : 1 ≤ n) (h4 : n ≤ 4) {σ : ℝ} (hσ : 0 < σ) (c : Option (Pt d)) :
    ∃ f : Pt d → ℝ, (∀ x, compactNormal n σ c none x = some (f x)) ∧ ∫ x, f x = 1 := by
  refine ⟨_, fun x => compactNormal_eq hn h4 σ c none x, ?_⟩
  simp only [if_true, div_one, cnFac, reduceCtorEq, if_false]
  rw [integral_div, integral_fintype_prod_volume_eq_prod (fun i (t : ℝ) => cnB n ((t - c.getD 0 i) / σ))]
  rw [Finset.prod_congr rfl (fun i _ => cnB_integral hn h4 _ hσ), Finset.prod_const, Finset.card_univ, Fintype.card_fin, div_self (by positivity)]

theorem cnB_knots {n : ℕ} {x : ℝ} (h : x ∈ badKnots n) : (n = 2 → cnB n x = 0) ∧ (n = 4 → cnB n x = 2 * boxSpline n x) ∧ (n = 2 ∨ n = 4) := by
  unfold badKnots at h
  split at h
  · refine ⟨fun _ => ?_, fun h => by omega, Or.inl rfl⟩
    simp only [Set.mem_insert_iff, Set.mem_singleton_iff] at h
    rcases h with rfl | rfl <;> norm_num [cnB, cnFactor, cond01, abs_of_neg]
  · refine ⟨fun h => by omega, fun _ => ?_, Or.inr rfl⟩
    rw [boxSpline_four]
    simp only [Set.mem_insert_iff, Set.mem_singleton_iff] at h
    rcases h with rfl | rfl | rfl | rfl <;> norm_num [cnB, cnFactor, cond01, abs_of_neg, abs_of_pos, diff5, tp]
  · exact absurd h (Set.notMem_empty x)

theorem cnB_nonneg {n : ℕ} (hn : 1 ≤ n) (h4 : n ≤ 4) (x : ℝ) : 0 ≤ cnB n x := by
  by_cases h : x ∈ badKnots n
  · obtain ⟨h2, h4', hc⟩ := cnB_knots h
    rcases hc with hc | hc
    · rw [h2 hc]
    · rw [h4' hc]; exact mul_nonneg (by norm_num) (boxSpline_nonneg n x)
  · rw [cnB_eq hn h4 h]; exact boxSpline_nonneg n x

theorem cnB_support {n : ℕ} (hn : 1 ≤ n) (h4 : n ≤ 4) {x : ℝ} (hx : ((n : ℝ) + 1) / 2 < |x|) : cnB n x = 0 := by
  have hb : x ∉ badKnots n := by
    intro hm
    obtain ⟨_, _, rfl | rfl⟩ := cnB_knots hm <;> simp only [badKnots, Set.mem_insert_iff, Set.mem_singleton_iff] at hm <;> push_cast at hx
    · rcases hm with rfl | rfl <;> norm_num [abs_of_neg] at hx
    · rcases hm with rfl | rfl | rfl | rfl <;> norm_num [abs_of_neg] at hx
  rw [cnB_eq hn h4 hb, boxSpline_zero hn h4 hx]

/-- **C89** it is non-negative everywhere and vanishes as soon as one coordinate is further than `(n+1)/2·sigma` from the center. -/
theorem C89_support {n : ℕ} (hn : 1 ≤ n) (h4 : n ≤ 4) {σ : ℝ} (hσ : 0 < σ) (c : Option (Pt d)) (x : Pt d) :
    ∃ v, compactNormal n σ c none x = some v ∧ 0 ≤ v ∧ ((∃ k, ((n : ℝ) + 1) / 2 * σ < |x k - c.getD 0 k|) → v = 0) := by
  refine ⟨_, compactNormal_eq hn h4 σ c none x, ?_, ?_⟩
  · simp only [if_true, div_one, cnFac, reduceCtorEq, if_false]
    exact div_nonneg (Finset.prod_nonneg (fun k _ => cnB_nonneg hn h4 _)) (by positivity)
  · rintro ⟨k, hk⟩
    rw [Finset.prod_eq_zero (Finset.mem_univ k), zero_div, zero_div]
    unfold cnFac
    rw [if_neg (by simp)]
    apply cnB_support hn h4
    rw [abs_div, abs_of_pos hσ, lt_div_iff₀ hσ]
    exact hk

/-- **C89** another number of convolutions is an error. -/
theorem C89_unknown {n : ℕ} (hn : n = 0 ∨ 4 < n) (σ : ℝ) (c : Option (Pt (d + 1))) (second : Option (Fin (d + 1))) (x : Pt (d + 1)) : compactNormal n σ c second x = none := by
  have h1 : ∀ y, cnFactor n y = none := by
    intro y; unfold cnFactor; split <;> first | omega | rfl
  have h2 : ∀ y, cnFactor2 n y = none := by
    intro y; unfold cnFactor2; split <;> first | omega | rfl
  unfold compactNormal cnCentered
  rw [List.finRange_succ]
  simp [h1, h2, cnStep]

/-- **C89** with `second_derivative=i` the value is the second partial derivative, with respect to coordinate `i` of the position, of the function returned without that option — everywhere for three convolutions, and otherwise where
the scaled coordinate `i` is not one of the points where the computed function has no derivative (`0, ±1` for one, `±1/2, ±3/2` for two and four convolutions). -/
theorem C89_second {n : ℕ} (hn : 1 ≤ n) (h4 : n ≤ 4) {σ : ℝ} (hσ : σ ≠ 0) (c : Option (Pt d)) (i : Fin d) (x : Pt d)
    (hx : (x i - c.getD 0 i) / σ ∉ rough n) :
    ∃ (f : Pt d → ℝ) (v : ℝ) (g : ℝ → ℝ), (∀ y, compactNormal n σ c none y = some (f y)) ∧ compactNormal n σ c (some i) x = some v ∧
      (∀ᶠ t in 𝓝 (x i), HasDerivAt (fun s => f (Function.update x i s)) (g t) t) ∧ HasDerivAt g v (x i) := by
  obtain ⟨g, hg1, hg2⟩ := cnB_second hn h4 hx
  set C := ∏ k ∈ Finset.univ.erase i, cnB n ((x k - c.getD 0 k) / σ) with hC
  have hf : ∀ s, (∏ k, cnFac n none (fun k => (Function.update x i s k - c.getD 0 k) / σ) k) / σ ^ d / (if (none : Option (Fin d)) = none then 1 else σ ^ 2) =
      C / σ ^ d * cnB n ((s - c.getD 0 i) / σ) := by
    intro s
    rw [← Finset.mul_prod_erase _ _ (Finset.mem_univ i)]
    simp only [if_true, div_one, cnFac, reduceCtorEq, if_false, Function.update_self]
    have : ∏ k ∈ Finset.univ.erase i, cnB n ((Function.update x i s k - c.getD 0 k) / σ) = C := by
      rw [hC]
      refine Finset.prod_congr rfl (fun k hk => ?_)
      rw [Function.update_of_ne (Finset.ne_of_mem_erase hk)]
    rw [this]
    ring
  have hlin : ∀ t, HasDerivAt (fun s : ℝ => (s - c.getD 0 i) / σ) (1 / σ) t := fun t => ((hasDerivAt_id t).sub_const _).div_const σ
  refine ⟨_, _, fun t => C / σ ^ d * (g ((t - c.getD 0 i) / σ) * (1 / σ)), fun y => compactNormal_eq hn h4 σ c none y, compactNormal_eq hn h4 σ c (some i) x, ?_, ?_⟩
  · rw [show (fun s => (fun y : Pt d => (∏ k, cnFac n none (fun k => (y k - c.getD 0 k) / σ) k) / σ ^ d / (if (none : Option (Fin d)) = none then 1 else σ ^ 2)) (Function.update x i s)) =
        fun s => C / σ ^ d * cnB n ((s - c.getD 0 i) / σ) from funext hf]
    have hc : Tendsto (fun s : ℝ => (s - c.getD 0 i) / σ) (𝓝 (x i)) (𝓝 ((x i - c.getD 0 i) / σ)) := (hlin (x i)).continuousAt
    filter_upwards [hc.eventually hg1] with t ht
    exact (ht.comp t (hlin t)).const_mul _
  · refine (((hg2.comp (x i) (hlin (x i))).mul_const (1 / σ)).const_mul (C / σ ^ d)).congr_deriv ?_
    rw [← Finset.mul_prod_erase _ _ (Finset.mem_univ i)]
    have h1 : cnFac n (some i) (fun k => (x k - c.getD 0 k) / σ) i = cnB2 n ((x i - c.getD 0 i) / σ) := by
      unfold cnFac; rw [if_pos rfl]
    have h2 : ∏ k ∈ Finset.univ.erase i, cnFac n (some i) (fun k => (x k - c.getD 0 k) / σ) k = C := by
      rw [hC]
      refine Finset.prod_congr rfl (fun k hk => ?_)
      unfold cnFac
      rw [if_neg (fun h => Finset.ne_of_mem_erase hk (Option.some.inj h).symm)]
    rw [h1, h2, if_neg (by simp)]
    field_simp

/-- **C89, violated**: at the knots the pieces do not fit together.  With the default two convolutions the value at distance `1/2` is zero, where the box function convolved twice with itself is `1/2`; with four it is doubled, and so is the second
derivative.  The function returned is therefore not continuous. -/
theorem C89_knots_violated :
    compactNormal (d := 1) 2 1 none none (fun _ => 1 / 2) = some 0 ∧ boxSpline 2 (1 / 2) = 1 / 2 ∧
    compactNormal (d := 1) 4 1 none none (fun _ => 1 / 2) = some (2 * boxSpline 4 (1 / 2)) ∧ boxSpline 4 (1 / 2) = 11 / 24 ∧
    compactNormal (d := 1) 4 1 none (some 0) (fun _ => 1 / 2) = some (-1) ∧
    ¬ Continuous (fun t : ℝ => (compactNormal (d := 1) 2 1 none none (fun _ => t)).getD 0) := by
  have e4 : boxSpline 4 (1 / 2) = 11 / 24 := by rw [boxSpline_four]; norm_num [diff5, tp]
  have e2 : boxSpline 2 (1 / 2) = 1 / 2 := by rw [boxSpline_two]; norm_num [diff3, tp]
  have hv : ∀ t : ℝ, (compactNormal (d := 1) 2 1 none none (fun _ => t)).getD 0 = cnB 2 t := by
    intro t
    rw [compactNormal_eq (by norm_num) (by norm_num)]
    simp [cnFac]
  refine ⟨?_, e2, ?_, e4, ?_, ?_⟩
  · rw [compactNormal_eq (by norm_num) (by norm_num)]
    norm_num [cnFac_none, cnB, cnFactor, cond01]
  · rw [compactNormal_eq (by norm_num) (by norm_num), e4]
    norm_num [cnFac_none, cnB, cnFactor, cond01]
  · rw [compactNormal_eq (by norm_num) (by norm_num)]
    norm_num [cnFac, cnB2, cnFactor2, cond01]
  · intro hc
    rw [funext hv] at hc
    -- the function agrees with the spline off two points, hence everywhere if it were continuous
    have hd : Dense (badKnots 2)ᶜ := Set.Countable.dense_compl ℝ (badKnots_finite 2).countable
    have := Continuous.ext_on hd hc (boxSpline_continuous (by norm_num) (by norm_num)) (fun x hx => cnB_eq (by norm_num) (by norm_num) hx)
    have h1 := congrFun this (1 / 2)
    rw [e2] at h1
    norm_num [cnB, cnFactor, cond01] at h1

/-- one convolution in the plane around `(1, 0)`, `sigma = 2`: value `1/8` at `(2, 0)` -/
example : compactNormal (d := 2) 1 2 (some ![1, 0]) none ![2, 0] = some (1 / 8) := by
  rw [compactNormal_eq (by norm_num) (by norm_num)]
  norm_num [cnFac_none, cnB, cnFactor, cond01, Fin.prod_univ_two, abs_of_pos]

end Gpy
