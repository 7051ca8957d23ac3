import Verif.Model.CatmullRom
import Mathlib.Analysis.Calculus.Deriv.Pow
import Mathlib.Analysis.Calculus.Deriv.Mul
import Mathlib.Analysis.Calculus.Deriv.Add
import Mathlib.Analysis.Calculus.Deriv.Comp
import Mathlib.Analysis.Calculus.Deriv.Pi
import Mathlib.Tactic.FinCases

/-! C72: `catmull_rom_spline`. -/

set_option autoImplicit false
namespace Gpy
open Np Set

variable {d : ℕ}

/-- the derivative (per unit of knot index) at knot `k` of the keyframes `P`: central differences, one-sided at the ends -/
noncomputable def knotTangent (P : List (Pt d)) (k : ℕ) : Pt d :=
  if k = 0 then P.getD 1 0 - P.getD 0 0
  else if k = P.length - 1 then P.getD k 0 - P.getD (k - 1) 0
  else (1 / 2 : ℝ) • (P.getD (k + 1) 0 - P.getD (k - 1) 0)

/-- cubic Hermite interpolation on `[0,1]` -/
noncomputable def hermite (x0 m0 x1 m1 : Pt d) (s : ℝ) : Pt d :=
  (2 * s ^ 3 - 3 * s ^ 2 + 1) • x0 + (s ^ 3 - 2 * s ^ 2 + s) • m0 + (-2 * s ^ 3 + 3 * s ^ 2) • x1 + (s ^ 3 - s ^ 2) • m1

noncomputable def hermite' (x0 m0 x1 m1 : Pt d) (s : ℝ) : Pt d :=
  (6 * s ^ 2 - 6 * s) • x0 + (3 * s ^ 2 - 4 * s + 1) • m0 + (-6 * s ^ 2 + 6 * s) • x1 + (3 * s ^ 2 - 2 * s) • m1

theorem hermite_hasDerivAt (x0 m0 x1 m1 : Pt d) (s : ℝ) : HasDerivAt (hermite x0 m0 x1 m1) (hermite' x0 m0 x1 m1 s) s := by
  have p3 : HasDerivAt (fun s : ℝ => s ^ 3) (3 * s ^ 2) s := by simpa using hasDerivAt_pow 3 s
  have p2 : HasDerivAt (fun s : ℝ => s ^ 2) (2 * s) s := by simpa using hasDerivAt_pow 2 s
  have p1 : HasDerivAt (fun s : ℝ => s) 1 s := hasDerivAt_id s
  have a := (((p3.const_mul 2).sub (p2.const_mul 3)).add_const 1).smul_const x0
  have b := ((p3.sub (p2.const_mul 2)).add p1).smul_const m0
  have c := ((p3.const_mul (-2)).add (p2.const_mul 3)).smul_const x1
  have e := (p3.sub p2).smul_const m1
  refine HasDerivAt.congr_deriv (((a.add b).add c).add e) ?_
  unfold hermite'
  funext i
  simp only [Pi.add_apply, Pi.smul_apply, smul_eq_mul]
  ring

theorem hermite'_continuous (x0 m0 x1 m1 : Pt d) : Continuous (hermite' x0 m0 x1 m1) := by
  unfold hermite'; fun_prop

/-- segment `k` of the spline -/
noncomputable def segment (P : List (Pt d)) (k : ℕ) (t : ℝ) : Pt d :=
  hermite (P.getD k 0) (knotTangent P k) (P.getD (k + 1) 0) (knotTangent P (k + 1)) (t * ((P.length : ℝ) - 1) - k)

theorem getD_of_lt {α : Type} {l : List α} {k : ℕ} (h : k < l.length) (z : α) : l[k]? = some (l.getD k z) := by
  rw [List.getD_eq_getElem?_getD, List.getElem?_eq_getElem h]; rfl

theorem npGet?_nat {α : Type} {l : List α} {k : ℕ} (h : k < l.length) (z : α) : npGet? l (k : ℤ) = some (l.getD k z) := by
  unfold npGet?
  rw [if_pos (Int.natCast_nonneg k), Int.toNat_natCast, getD_of_lt h z]

/-- the sampled value in terms of the segment that the code selects -/
theorem catmullRomAt_eq (P : List (Pt d)) (k : ℕ) (hk : k + 2 ≤ P.length) (t : ℝ)
    (hb : (if t = 1 then ⌊t * (((P.length : ℤ) : ℝ) - 1)⌋ - 1 else ⌊t * (((P.length : ℤ) : ℝ) - 1)⌋) = (k : ℤ)) :
    catmullRomAt P t = some (segment P k t) := by
  set n := P.length with hn
  have hn1 : (0 : ℝ) < (n : ℝ) - 1 := by
    have : (2 : ℝ) ≤ n := by exact_mod_cast (by omega : 2 ≤ n)
    linarith
  have hlen : (linspace01 n).length = n := by simp [linspace01]
  have hlin : ∀ j < n, (linspace01 n).getD j 0 = (j : ℝ) / ((n : ℝ) - 1) := by
    intro j hj
    rw [List.getD_eq_getElem?_getD, linspace01, List.getElem?_map, List.getElem?_range hj]; rfl
  unfold catmullRomAt
  simp only [← hn, hb]
  have e1 : (linspace01 n)[1]? = some ((1 : ℝ) / ((n : ℝ) - 1)) := by
    rw [getD_of_lt (by rw [hlen]; omega) 0, hlin 1 (by omega)]; simp
  have e2 : npGet? (linspace01 n) (k : ℤ) = some ((k : ℝ) / ((n : ℝ) - 1)) := by
    rw [npGet?_nat (by rw [hlen]; omega) 0, hlin k (by omega)]
  have e3 : npGet? P (k : ℤ) = some (P.getD k 0) := npGet?_nat (by omega) 0
  have e4 : npGet? P ((k : ℤ) + 1) = some (P.getD (k + 1) 0) := by
    rw [show (k : ℤ) + 1 = ((k + 1 : ℕ) : ℤ) by push_cast; ring]; exact npGet?_nat (by omega) 0
  have e5 : npGet? P (min ((k : ℤ) + 1) ((n : ℤ) - 1)) = some (P.getD (k + 1) 0) := by
    rw [min_eq_left (by omega)]; exact e4
  have e6 : npGet? P (max ((k : ℤ) - 1) 0) = some (P.getD (k - 1) 0) := by
    rw [show max ((k : ℤ) - 1) 0 = ((k - 1 : ℕ) : ℤ) by omega]; exact npGet?_nat (by omega) 0
  have e7 : npGet? P (min ((k : ℤ) + 2) ((n : ℤ) - 1)) = some (P.getD (min (k + 2) (n - 1)) 0) := by
    rw [show min ((k : ℤ) + 2) ((n : ℤ) - 1) = ((min (k + 2) (n - 1) : ℕ) : ℤ) by omega]; exact npGet?_nat (by omega) 0
  have e8 : npGet? P (max (k : ℤ) 0) = some (P.getD k 0) := by
    rw [max_eq_left (by omega)]; exact e3
  simp only [e1, e2, e3, e4, e5, e6, e7, e8, Option.bind_eq_bind, Option.bind_some]
  unfold segment hermite
  have htt : (t - (k : ℝ) / ((n : ℝ) - 1)) / (1 / ((n : ℝ) - 1)) = t * ((n : ℝ) - 1) - k := by
    field_simp
  rw [htt]
  have t0 : (if (k : ℤ) = 0 then (2 : ℝ) • ((1 / 2 : ℝ) • (P.getD (k + 1) 0 - P.getD (k - 1) 0)) else
      (1 / 2 : ℝ) • (P.getD (k + 1) 0 - P.getD (k - 1) 0)) = knotTangent P k := by
    unfold knotTangent
    by_cases h0 : k = 0
    · subst h0
      simp only [Nat.cast_zero, if_true, smul_smul]
      norm_num
    · rw [if_neg (by omega), if_neg h0, if_neg (by omega)]
  have t1 : (if (k : ℤ) = (n : ℤ) - 2 then (2 : ℝ) • ((1 / 2 : ℝ) • (P.getD (min (k + 2) (n - 1)) 0 - P.getD k 0)) else
      (1 / 2 : ℝ) • (P.getD (min (k + 2) (n - 1)) 0 - P.getD k 0)) = knotTangent P (k + 1) := by
    unfold knotTangent
    rw [if_neg (by omega : ¬ k + 1 = 0)]
    by_cases h0 : k + 2 = n
    · rw [if_pos (by omega), if_pos (by omega), smul_smul, show min (k + 2) (n - 1) = k + 1 by omega]
      norm_num
    · rw [if_neg (by omega), if_neg (by omega), show min (k + 2) (n - 1) = k + 2 by omega]
      rfl
  rw [t0, t1, ← hn]

theorem hermite_zero (x0 m0 x1 m1 : Pt d) : hermite x0 m0 x1 m1 0 = x0 := by unfold hermite; norm_num
theorem hermite_one (x0 m0 x1 m1 : Pt d) : hermite x0 m0 x1 m1 1 = x1 := by unfold hermite; norm_num
theorem hermite'_zero (x0 m0 x1 m1 : Pt d) : hermite' x0 m0 x1 m1 0 = m0 := by unfold hermite'; norm_num
theorem hermite'_one (x0 m0 x1 m1 : Pt d) : hermite' x0 m0 x1 m1 1 = m1 := by unfold hermite'; norm_num

/-- derivative of segment `k` -/
noncomputable def segment' (P : List (Pt d)) (k : ℕ) (t : ℝ) : Pt d :=
  ((P.length : ℝ) - 1) •
    hermite' (P.getD k 0) (knotTangent P k) (P.getD (k + 1) 0) (knotTangent P (k + 1)) (t * ((P.length : ℝ) - 1) - k)

theorem segment_hasDerivAt (P : List (Pt d)) (k : ℕ) (t : ℝ) : HasDerivAt (segment P k) (segment' P k t) t := by
  have h1 : HasDerivAt (fun t : ℝ => t * ((P.length : ℝ) - 1) - k) ((P.length : ℝ) - 1) t := by
    simpa using ((hasDerivAt_id t).mul_const ((P.length : ℝ) - 1)).sub_const (k : ℝ)
  exact HasDerivAt.scomp t (hermite_hasDerivAt (P.getD k 0) (knotTangent P k) (P.getD (k + 1) 0) (knotTangent P (k + 1)) _) h1

theorem segment'_continuous (P : List (Pt d)) (k : ℕ) : Continuous (segment' P k) := by
  unfold segment'
  have hi : Continuous (fun t : ℝ => t * ((P.length : ℝ) - 1) - k) := by fun_prop
  exact ((hermite'_continuous (P.getD k 0) (knotTangent P k) (P.getD (k + 1) 0) (knotTangent P (k + 1))).comp hi).const_smul
    ((P.length : ℝ) - 1)

/-- A curve that coincides on each closed piece with a continuously differentiable one, with matching derivatives, is
continuously differentiable. -/
theorem piecewise_C1 {f f' : ℝ → Pt d} {q q' : ℕ → ℝ → Pt d} (x : ℕ → ℝ) (hx : ∀ k, x k ≤ x (k + 1))
    (hq : ∀ k t, HasDerivAt (q k) (q' k t) t) (hc : ∀ k, Continuous (q' k)) (N : ℕ)
    (hf : ∀ k < N, ∀ t ∈ Icc (x k) (x (k + 1)), f t = q k t) (hf' : ∀ k < N, ∀ t ∈ Icc (x k) (x (k + 1)), f' t = q' k t) :
    (∀ t ∈ Icc (x 0) (x N), HasDerivWithinAt f (f' t) (Icc (x 0) (x N)) t) ∧ ContinuousOn f' (Icc (x 0) (x N)) := by
  induction N with
  | zero =>
    rw [Icc_self]
    refine ⟨?_, continuousOn_singleton _ _⟩
    intro t ht
    rw [mem_singleton_iff.mp ht]
    exact HasFDerivWithinAt.of_subsingleton Set.subsingleton_singleton
  | succ N ih =>
    obtain ⟨ih1, ih2⟩ := ih (fun k hk => hf k (by omega)) (fun k hk => hf' k (by omega))
    have hmono : x 0 ≤ x N := monotone_nat_of_le_succ hx (Nat.zero_le N)
    have hun : Icc (x 0) (x (N + 1)) = Icc (x 0) (x N) ∪ Icc (x N) (x (N + 1)) := (Icc_union_Icc_eq_Icc hmono (hx N)).symm
    have hlast : ∀ t ∈ Icc (x N) (x (N + 1)), HasDerivWithinAt f (f' t) (Icc (x N) (x (N + 1))) t := by
      intro t ht
      rw [hf' N (by omega) t ht]
      exact (hq N t).hasDerivWithinAt.congr (fun y hy => hf N (by omega) y hy) (hf N (by omega) t ht)
    rw [hun]
    constructor
    · intro t ht
      apply HasDerivWithinAt.union
      · by_cases h : t ∈ Icc (x 0) (x N)
        · exact ih1 t h
        · exact HasFDerivWithinAt.of_notMem_closure (by rwa [isClosed_Icc.closure_eq])
      · by_cases h : t ∈ Icc (x N) (x (N + 1))
        · exact hlast t h
        · exact HasFDerivWithinAt.of_notMem_closure (by rwa [isClosed_Icc.closure_eq])
    · apply ContinuousOn.union_of_isClosed ih2 _ isClosed_Icc isClosed_Icc
      exact (hc N).continuousOn.congr (fun t ht => hf' N (by omega) t ht)

/-- index of the segment selected for time `t` -/
noncomputable def segIdx (n : ℕ) (t : ℝ) : ℕ := if t = 1 then n - 2 else ⌊t * ((n : ℝ) - 1)⌋₊

theorem segIdx_code {n : ℕ} (hn : 2 ≤ n) {t : ℝ} (h0 : 0 ≤ t) (h1 : t ≤ 1) : segIdx n t + 2 ≤ n ∧
    (if t = 1 then ⌊t * (((n : ℤ) : ℝ) - 1)⌋ - 1 else ⌊t * (((n : ℤ) : ℝ) - 1)⌋) = (segIdx n t : ℤ) := by
  have hn' : (2 : ℝ) ≤ n := by exact_mod_cast hn
  unfold segIdx
  by_cases h : t = 1
  · subst h
    rw [if_pos rfl, if_pos rfl]
    refine ⟨by omega, ?_⟩
    have : (1 : ℝ) * (((n : ℤ) : ℝ) - 1) = (((n : ℤ) - 1 : ℤ) : ℝ) := by push_cast; ring
    rw [this, Int.floor_intCast]; omega
  · rw [if_neg h, if_neg h]
    have hlt : t < 1 := lt_of_le_of_ne h1 h
    have hnn : 0 ≤ t * ((n : ℝ) - 1) := mul_nonneg h0 (by linarith)
    refine ⟨?_, ?_⟩
    · have : t * ((n : ℝ) - 1) < ((n - 1 : ℕ) : ℝ) := by
        rw [Nat.cast_sub (by omega)]; push_cast; nlinarith
      have := (Nat.floor_lt hnn).mpr this
      omega
    · rw [Int.natCast_floor_eq_floor hnn]; norm_num

theorem segIdx_piece {n : ℕ} (hn : 2 ≤ n) {t : ℝ} (h0 : 0 ≤ t) (h1 : t ≤ 1) {k : ℕ} (hk : k + 2 ≤ n)
    (ht0 : (k : ℝ) ≤ t * ((n : ℝ) - 1)) (ht1 : t * ((n : ℝ) - 1) ≤ k + 1) :
    segIdx n t = k ∨ (segIdx n t = k + 1 ∧ t * ((n : ℝ) - 1) = k + 1) := by
  have hn' : (2 : ℝ) ≤ n := by exact_mod_cast hn
  unfold segIdx
  by_cases h : t = 1
  · subst h
    rw [if_pos rfl]
    left
    have : ((n : ℕ) : ℝ) ≤ ((k + 2 : ℕ) : ℝ) := by push_cast; linarith
    have := Nat.cast_le.mp this
    omega
  · rw [if_neg h]
    have hnn : 0 ≤ t * ((n : ℝ) - 1) := mul_nonneg h0 (by linarith)
    rcases lt_or_eq_of_le ht1 with h2 | h2
    · left
      rw [Nat.floor_eq_iff hnn]; exact ⟨ht0, h2⟩
    · right
      refine ⟨?_, h2⟩
      rw [h2]
      have : (k : ℝ) + 1 = ((k + 1 : ℕ) : ℝ) := by push_cast; ring
      rw [this, Nat.floor_natCast]

/-- the curve in terms of the segment that the code selects -/
theorem catmull_explicit (P : List (Pt d)) (hP : 2 ≤ P.length) :
    let γ : ℝ → Pt d := fun t => segment P (segIdx P.length t) t;
    let γ' : ℝ → Pt d := fun t => segment' P (segIdx P.length t) t;
      (∀ t ∈ Icc (0 : ℝ) 1, catmullRomAt P t = some (γ t)) ∧
      (∀ (k : ℕ) (p : Pt d), P[k]? = some p → γ ((k : ℝ) / ((P.length : ℝ) - 1)) = p) ∧
      (∀ t ∈ Icc (0 : ℝ) 1, HasDerivWithinAt γ (γ' t) (Icc 0 1) t) ∧ ContinuousOn γ' (Icc 0 1) ∧
      (∀ (k : ℕ) (p q : Pt d), P[k]? = some p → P[k + 2]? = some q →
        γ' (((k + 1 : ℕ) : ℝ) / ((P.length : ℝ) - 1)) = (((P.length : ℝ) - 1) / 2) • (q - p)) ∧
      (∀ p q : Pt d, P[0]? = some p → P[1]? = some q → γ' 0 = ((P.length : ℝ) - 1) • (q - p)) ∧
      (∀ p q : Pt d, P[P.length - 2]? = some p → P[P.length - 1]? = some q → γ' 1 = ((P.length : ℝ) - 1) • (q - p)) := by
  intro γ₀ γ₀'
  set n := P.length with hn
  have hn' : (2 : ℝ) ≤ n := by exact_mod_cast hP
  have hpos : (0 : ℝ) < (n : ℝ) - 1 := by linarith
  set γ : ℝ → Pt d := fun t => segment P (segIdx n t) t with hγ
  set γ' : ℝ → Pt d := fun t => segment' P (segIdx n t) t with hγ'
  have hg1 : γ₀ = γ := rfl
  have hg2 : γ₀' = γ' := rfl
  rw [hg1, hg2]
  set x : ℕ → ℝ := fun k => (k : ℝ) / ((n : ℝ) - 1) with hx
  have hxm : ∀ k, x k ≤ x (k + 1) := by
    intro k; simp only [hx]; apply div_le_div_of_nonneg_right _ hpos.le; push_cast; linarith
  have hx0 : x 0 = 0 := by simp [hx]
  have hxN : x (n - 1) = 1 := by
    simp only [hx]
    rw [Nat.cast_sub (by omega)]; push_cast; field_simp
  have hpiece : ∀ k < n - 1, ∀ t ∈ Icc (x k) (x (k + 1)), segment P (segIdx n t) t = segment P k t ∧ segment' P (segIdx n t) t = segment' P k t := by
    intro k hk t ht
    have ht0 : (k : ℝ) ≤ t * ((n : ℝ) - 1) := by
      have := ht.1; simp only [hx] at this; rwa [div_le_iff₀ hpos] at this
    have ht1 : t * ((n : ℝ) - 1) ≤ k + 1 := by
      have := ht.2; simp only [hx] at this; rw [le_div_iff₀ hpos] at this; push_cast at this; exact this
    have h0 : 0 ≤ t := by
      have := ht.1; simp only [hx] at this
      exact le_trans (by positivity) this
    have h1 : t ≤ 1 := by
      have hkn : ((k : ℝ) + 1) ≤ (n : ℝ) - 1 := by
        have : ((k + 1 : ℕ) : ℝ) ≤ ((n - 1 : ℕ) : ℝ) := by exact_mod_cast hk
        rw [Nat.cast_sub (by omega)] at this; push_cast at this; linarith
      by_contra hc
      push Not at hc
      nlinarith
    rcases segIdx_piece hP h0 h1 (by omega : k + 2 ≤ n) ht0 ht1 with h | ⟨h, he⟩
    · rw [h]; exact ⟨rfl, rfl⟩
    · rw [h]
      unfold segment segment'
      rw [← hn, he]
      have z1 : ((k : ℝ) + 1) - ((k + 1 : ℕ) : ℝ) = 0 := by push_cast; ring
      have z2 : ((k : ℝ) + 1) - (k : ℝ) = 1 := by ring
      rw [z1, z2, hermite_zero, hermite_one, hermite'_zero, hermite'_one]
      exact ⟨rfl, rfl⟩
  obtain ⟨D1, D2⟩ := piecewise_C1 (f := γ) (f' := γ') (q := segment P) (q' := segment' P) x hxm (segment_hasDerivAt P)
    (segment'_continuous P) (n - 1) (fun k hk t ht => (hpiece k hk t ht).1) (fun k hk t ht => (hpiece k hk t ht).2)
  rw [hx0, hxN] at D1 D2
  have hxmul : ∀ k : ℕ, x k * ((n : ℝ) - 1) = k := by intro k; simp only [hx]; field_simp
  -- values at the knots
  have hval : ∀ k < n - 1, γ (x k) = P.getD k 0 ∧ γ' (x k) = ((n : ℝ) - 1) • knotTangent P k := by
    intro k hk
    obtain ⟨h1, h2⟩ := hpiece k hk (x k) ⟨le_rfl, hxm k⟩
    simp only [hγ, hγ']
    rw [h1, h2]
    unfold segment segment'
    rw [← hn, hxmul, sub_self, hermite_zero, hermite'_zero]
    exact ⟨rfl, rfl⟩
  have hvalN : γ 1 = P.getD (n - 1) 0 ∧ γ' 1 = ((n : ℝ) - 1) • knotTangent P (n - 1) := by
    have hk : n - 2 < n - 1 := by omega
    have hs : n - 2 + 1 = n - 1 := by omega
    have h := hpiece (n - 2) hk (x (n - 1)) ⟨by rw [← hs]; exact hxm _, by rw [hs]⟩
    rw [hxN] at h
    simp only [hγ, hγ']
    rw [h.1, h.2]
    unfold segment segment'
    rw [← hn, hs]
    have : (1 : ℝ) * ((n : ℝ) - 1) - ((n - 2 : ℕ) : ℝ) = 1 := by rw [Nat.cast_sub (by omega)]; push_cast; ring
    rw [this, hermite_one, hermite'_one]
    exact ⟨rfl, rfl⟩
  have hgetD : ∀ (k : ℕ) (p : Pt d), P[k]? = some p → P.getD k 0 = p := by
    intro k p h; rw [List.getD_eq_getElem?_getD, h]; rfl
  refine ⟨?_, ?_, D1, D2, ?_, ?_, ?_⟩
  · intro t ht
    obtain ⟨h1, h2⟩ := segIdx_code hP ht.1 ht.2
    exact catmullRomAt_eq P (segIdx n t) h1 t h2
  · intro k p hp
    have hk : k < n := (List.getElem?_eq_some_iff.mp hp).1
    by_cases h : k < n - 1
    · rw [← hgetD k p hp]; exact (hval k h).1
    · have hk' : k = n - 1 := by omega
      have : ((k : ℕ) : ℝ) / ((n : ℝ) - 1) = 1 := by rw [hk']; exact hxN
      rw [this, hvalN.1, ← hk', hgetD k p hp]
  · intro k p q hp hq
    have hk : k + 2 < n := (List.getElem?_eq_some_iff.mp hq).1
    have := (hval (k + 1) (by omega)).2
    simp only [hx] at this
    rw [this]
    unfold knotTangent
    rw [if_neg (by omega), if_neg (by omega), Nat.add_sub_cancel, hgetD k p hp, hgetD (k + 2) q hq, smul_smul]
    congr 1; ring
  · intro p q hp hq
    have := (hval 0 (by omega)).2
    rw [hx0] at this
    rw [this]
    unfold knotTangent
    rw [if_pos rfl, hgetD 0 p hp, hgetD 1 q hq]
  · intro p q hp hq
    rw [hvalN.2]
    congr 1
    unfold knotTangent
    rw [← hn]
    by_cases h2 : n = 2
    · rw [h2] at hp hq
      rw [h2, if_neg (by omega), if_pos (by omega)]
      rw [hgetD _ _ hq, hgetD _ _ hp]
    · rw [if_neg (by omega), if_pos rfl, show n - 1 - 1 = n - 2 by omega, hgetD _ _ hq, hgetD _ _ hp]

/-- C72: for at least two keyframes `P`, `catmull_rom_spline` defines a curve on `[0,1]` that passes through keyframe `k` at time
`k/(n-1)` and is continuously differentiable on `[0,1]`; its velocity at an interior keyframe is the central difference of the two
neighbouring keyframes, at the first and last keyframe the one-sided difference (divided by the time between keyframes). -/
theorem C72_interpolating_C1 (P : List (Pt d)) (hP : 2 ≤ P.length) :
    ∃ γ γ' : ℝ → Pt d,
      (∀ t ∈ Icc (0 : ℝ) 1, catmullRomAt P t = some (γ t)) ∧
      (∀ (k : ℕ) (p : Pt d), P[k]? = some p → γ ((k : ℝ) / ((P.length : ℝ) - 1)) = p) ∧
      (∀ t ∈ Icc (0 : ℝ) 1, HasDerivWithinAt γ (γ' t) (Icc 0 1) t) ∧ ContinuousOn γ' (Icc 0 1) ∧
      (∀ (k : ℕ) (p q : Pt d), P[k]? = some p → P[k + 2]? = some q →
        γ' (((k + 1 : ℕ) : ℝ) / ((P.length : ℝ) - 1)) = (((P.length : ℝ) - 1) / 2) • (q - p)) ∧
      (∀ p q : Pt d, P[0]? = some p → P[1]? = some q → γ' 0 = ((P.length : ℝ) - 1) • (q - p)) ∧
      (∀ p q : Pt d, P[P.length - 2]? = some p → P[P.length - 1]? = some q → γ' 1 = ((P.length : ℝ) - 1) • (q - p)) :=
  ⟨_, _, catmull_explicit P hP⟩

/-- C72: with fewer than two keyframes the function raises. -/
theorem C72_too_few_keyframes (P : List (Pt d)) (hP : P.length < 2) (t : ℝ) : catmullRomAt P t = none := by
  unfold catmullRomAt
  have : (linspace01 P.length)[1]? = none := by
    rw [List.getElem?_eq_none]; simp [linspace01]; omega
  simp only [this, Option.bind_eq_bind]; rfl

theorem npGet?_map {α β : Type} (g : α → β) (l : List α) (i : ℤ) : npGet? (l.map g) i = (npGet? l i).map g := by
  unfold npGet?
  simp only [List.length_map, List.getElem?_map]
  split_ifs <;> rfl

/-- C72: the spline is affine invariant: transforming the keyframes by an affine map and sampling is the same as sampling and
then transforming, at every time (including times at which the function raises). -/
theorem C72_affine_invariant {e : ℕ} (A : Pt d →ₗ[ℝ] Pt e) (c : Pt e) (P : List (Pt d)) (t : ℝ) :
    catmullRomAt (P.map (fun p => A p + c)) t = (catmullRomAt P t).map (fun p => A p + c) := by
  unfold catmullRomAt
  simp only [List.length_map, npGet?_map]
  generalize (linspace01 P.length)[1]? = o1
  cases o1 with
  | none => rfl
  | some tau =>
    simp only [Option.bind_eq_bind, Option.bind_some]
    generalize (if t = 1 then ⌊t * (((P.length : ℤ) : ℝ) - 1)⌋ - 1 else ⌊t * (((P.length : ℤ) : ℝ) - 1)⌋) = b
    generalize npGet? (linspace01 P.length) b = o2
    cases o2 with
    | none => rfl
    | some tb =>
      simp only [Option.bind_some]
      cases npGet? P b with
      | none => rfl
      | some X0 =>
        simp only [Option.bind_some, Option.map_some]
        cases npGet? P (b + 1) with
        | none => rfl
        | some X1 =>
          simp only [Option.bind_some, Option.map_some]
          cases npGet? P (min (b + 1) ((P.length : ℤ) - 1)) with
          | none => rfl
          | some p1 =>
            simp only [Option.bind_some, Option.map_some]
            cases npGet? P (max (b - 1) 0) with
            | none => rfl
            | some p0 =>
              simp only [Option.bind_some, Option.map_some]
              cases npGet? P (min (b + 2) ((P.length : ℤ) - 1)) with
              | none => rfl
              | some q1 =>
                simp only [Option.bind_some, Option.map_some]
                cases npGet? P (max b 0) with
                | none => rfl
                | some q0 =>
                  simp only [Option.bind_some, Option.map_some]
                  congr 1
                  generalize (t - tb) / tau = s
                  funext i
                  split_ifs <;> simp only [map_add, map_sub, map_smul, Pi.add_apply, Pi.smul_apply, Pi.sub_apply, smul_eq_mul] <;> ring

/-- C72: keyframes on a line, equally spaced, give uniform linear motion. -/
theorem C72_linear_precision (P : List (Pt d)) (hP : 2 ≤ P.length) (p v : Pt d)
    (hlin : ∀ k < P.length, P[k]? = some (p + (k : ℝ) • v)) (t : ℝ) (ht : t ∈ Icc (0 : ℝ) 1) :
    catmullRomAt P t = some (p + (t * ((P.length : ℝ) - 1)) • v) := by
  obtain ⟨h1, h2⟩ := segIdx_code hP ht.1 ht.2
  rw [catmullRomAt_eq P _ h1 t h2]
  have hg : ∀ k < P.length, P.getD k 0 = p + (k : ℝ) • v := by
    intro k hk; rw [List.getD_eq_getElem?_getD, hlin k hk]; rfl
  have hkt : ∀ k < P.length, knotTangent P k = v := by
    intro k hk
    unfold knotTangent
    split_ifs with c1 c2
    · rw [hg 1 (by omega), hg 0 (by omega)]
      funext i; simp
    · rw [hg k hk, hg (k - 1) (by omega)]
      funext i
      simp only [Pi.sub_apply, Pi.add_apply, Pi.smul_apply, smul_eq_mul]
      rw [Nat.cast_sub (by omega)]; push_cast; ring
    · rw [hg (k + 1) (by omega), hg (k - 1) (by omega)]
      funext i
      simp only [Pi.sub_apply, Pi.add_apply, Pi.smul_apply, smul_eq_mul]
      rw [Nat.cast_sub (by omega)]; push_cast; ring
  unfold segment hermite
  rw [hg _ (by omega), hg _ (by omega), hkt _ (by omega), hkt _ (by omega)]
  congr 1
  funext i
  simp only [Pi.add_apply, Pi.smul_apply, smul_eq_mul]
  push_cast; ring

/-- four planar keyframes (the example of the docstring) meet the hypotheses -/
example : 2 ≤ ([![0, 0], ![1, 1], ![-1, 2], ![0, 3]] : List (Pt 2)).length := by decide

end Gpy
