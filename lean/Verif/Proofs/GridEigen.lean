import Verif.Model.GridEigen
import Verif.Spec.GridEigen
import Verif.Proofs.CubeMesh
import Mathlib.Algebra.BigOperators.Field
import Mathlib.Analysis.SpecialFunctions.Trigonometric.Deriv

/-! Lemmas for C95. -/

set_option autoImplicit false
namespace Gpy
open Np Finset

variable {d : ℕ}

theorem psiAt_eq (N : Fin d → ℕ) (l v : Fin d → ℝ) : psiAt N l v = cosMode l N v := by
  have key : ∀ (L : List (Fin d)) (a : ℝ) (f : Fin d → ℝ), L.foldl (fun out dd => out * f dd) a = a * (L.map f).prod := by
    intro L
    induction L with
    | nil => simp
    | cons x L ih => intro a f; simp only [List.foldl_cons, ih, List.map_cons, List.prod_cons]; ring
  unfold psiAt cosMode
  rw [key, one_mul, ← List.ofFn_eq_map, List.prod_ofFn]

theorem candVal_eq (N : Fin d → ℕ) (l : Fin d → ℝ) : candVal N l = modeVal l N := by
  have key : ∀ (L : List (Fin d)) (a : ℝ) (f : Fin d → ℝ), L.foldl (fun out dd => out + f dd) a = a + (L.map f).sum := by
    intro L
    induction L with
    | nil => simp
    | cons x L ih => intro a f; simp only [List.foldl_cons, ih, List.map_cons, List.sum_cons]; ring
  unfold candVal modeVal
  rw [key, zero_add, ← List.ofFn_eq_map, List.sum_ofFn]
  exact sum_congr rfl (fun k _ => by ring)

theorem modeVal_nonneg (l : Fin d → ℝ) (n : Fin d → ℕ) : 0 ≤ modeVal l n := sum_nonneg (fun _ _ => sq_nonneg _)

theorem cosMode_neumann (l : Fin d → ℝ) (hl : ∀ k, l k ≠ 0) (n : Fin d → ℕ) : IsNeumannMode l (modeVal l n) (cosMode l n) := by
  have ha : ∀ x k, along (cosMode l n) x k = fun t => (∏ j ∈ univ.erase k, Real.cos (n j * Real.pi * x j / l j)) * Real.cos ((n k * Real.pi / l k) * t) := by
    intro x k
    funext t
    unfold along cosMode
    rw [← mul_prod_erase univ _ (mem_univ k), mul_comm]
    congr 1
    · exact prod_congr rfl (fun j hj => by rw [Function.update_of_ne (ne_of_mem_erase hj)])
    · rw [Function.update_self]; congr 1; ring
  have hd1 : ∀ (c a : ℝ), deriv (fun t => c * Real.cos (a * t)) = fun t => -(c * a) * Real.sin (a * t) := by
    intro c a
    funext t
    have h : HasDerivAt (fun t => c * Real.cos (a * t)) (c * (-Real.sin (a * t) * (a * 1))) t :=
      (((hasDerivAt_id t).const_mul a).cos).const_mul c
    rw [h.deriv]; ring
  have hd2 : ∀ (c a : ℝ), deriv (fun t => c * Real.sin (a * t)) = fun t => c * a * Real.cos (a * t) := by
    intro c a
    funext t
    have h : HasDerivAt (fun t => c * Real.sin (a * t)) (c * (Real.cos (a * t) * (a * 1))) t :=
      (((hasDerivAt_id t).const_mul a).sin).const_mul c
    rw [h.deriv]; ring
  refine ⟨fun x k => ?_, fun x => ?_, fun x k => ?_, ?_⟩
  · rw [ha, hd1]
    constructor <;> fun_prop
  · have : ∀ k, deriv (deriv (along (cosMode l n) x k)) (x k) = -(n k * Real.pi / l k) ^ 2 * cosMode l n x := by
      intro k
      have hx := congrFun (ha x k) (x k)
      unfold along at hx
      rw [Function.update_eq_self] at hx
      rw [ha, hd1, hd2, hx]
      ring
    rw [sum_congr rfl (fun k _ => this k), ← sum_mul, sum_neg_distrib]
    rfl
  · rw [ha, hd1]
    refine ⟨by simp, ?_⟩
    simp only
    rw [div_mul_cancel₀ _ (hl k), Real.sin_nat_mul_pi, mul_zero]
  · simp [cosMode]

/-- entries of `eigFill` -/
theorem eigFill_get (argsort : List ℝ → List ℕ) (num : ℕ) (l : Fin d → ℝ) (v : List (Pt d)) (cnt : ℕ) (cand : ℕ → Fin d → ℕ) {r s : ℕ} {p : Pt d} (hp : v[r]? = some p) :
    (eigFill argsort num l v cnt cand).get r s =
      match ((argsort ((List.range cnt).map (fun k => modeVal l (cand k)))).take num)[s]? with
      | some k => cosMode l (cand k) p
      | none => 1 := by
  unfold eigFill
  simp only [hp, candVal_eq]
  split <;> simp_all [psiAt_eq]

/-- the sorted order: a permutation of the candidates with increasing values -/
theorem order_spec {argsort : List ℝ → List ℕ} (hA : IsArgsort argsort) (cnt : ℕ) (f : ℕ → ℝ) :
    ∃ o : List ℕ, argsort ((List.range cnt).map f) = o ∧ o.Perm (List.range cnt) ∧ ∀ i j (hi : i < o.length) (hj : j < o.length), i < j → f o[i] ≤ f o[j] := by
  refine ⟨_, rfl, by simpa using hA.perm ((List.range cnt).map f), fun i j hi hj hij => ?_⟩
  have hp : (argsort ((List.range cnt).map f)).Perm (List.range cnt) := by simpa using hA.perm ((List.range cnt).map f)
  have h := List.pairwise_iff_getElem.mp (hA.sorted ((List.range cnt).map f)) i j (by simpa using hi) (by simpa using hj) hij
  have hlt : ∀ i (hi : i < (argsort ((List.range cnt).map f)).length), (argsort ((List.range cnt).map f))[i] < cnt := fun i hi =>
    List.mem_range.mp (hp.mem_iff.mp (List.getElem_mem hi))
  simpa [List.getD_eq_getElem?_getD, List.getElem?_range (hlt i hi), List.getElem?_range (hlt j hj)] using h

/-! ### trapezoidal sums of cosines -/

theorem trapW_sum (n : ℕ) (hn : 0 < n) (f : ℕ → ℝ) : ∑ i ∈ range (n + 1), trapW (n + 1) i * f i = ∑ i ∈ range n, (f i + f (i + 1)) / 2 := by
  have h1 : ∑ i ∈ range (n + 1), trapW (n + 1) i * f i = (∑ i ∈ range (n + 1), f i) - f 0 / 2 - f n / 2 := by
    rw [sum_range_succ, sum_range_succ (fun i => f i)]
    obtain ⟨m, rfl⟩ : ∃ m, n = m + 1 := ⟨n - 1, by omega⟩
    rw [sum_range_succ', sum_range_succ' (fun i => f i)]
    have : ∑ k ∈ range m, trapW (m + 1 + 1) (k + 1) * f (k + 1) = ∑ k ∈ range m, f (k + 1) := by
      refine sum_congr rfl (fun k hk => ?_)
      have := Finset.mem_range.mp hk
      rw [trapW, if_neg (by omega), one_mul]
    rw [this, trapW, trapW, if_pos (Or.inl rfl), if_pos (Or.inr rfl)]
    ring
  have h2 : ∑ i ∈ range n, (f i + f (i + 1)) / 2 = (∑ i ∈ range n, f i) / 2 + (∑ i ∈ range n, f (i + 1)) / 2 := by
    rw [← sum_div, sum_add_distrib, add_div]
  have h3 := sum_range_succ f n
  have h4 := sum_range_succ' f n
  rw [h1, h2]
  linarith

theorem trapW_cos (n : ℕ) (hn : 0 < n) (m : ℕ) (hm : 0 < m) (hm2 : m < 2 * n) : ∑ i ∈ range (n + 1), trapW (n + 1) i * Real.cos (m * Real.pi * i / n) = 0 := by
  rw [trapW_sum n hn (fun i => Real.cos (m * Real.pi * i / n))]
  have hn' : (0 : ℝ) < n := by exact_mod_cast hn
  set θ : ℝ := m * Real.pi / n with hθ
  have hs : 0 < Real.sin (θ / 2) := by
    apply Real.sin_pos_of_pos_of_lt_pi
    · rw [hθ]; have : (0 : ℝ) < m := by exact_mod_cast hm
      positivity
    · have : (m : ℝ) < 2 * n := by exact_mod_cast hm2
      rw [hθ, div_div, div_lt_iff₀ (by positivity)]
      nlinarith [Real.pi_pos]
  have key : ∀ k : ℕ, 2 * Real.sin (θ / 2) * ∑ i ∈ range k, (Real.cos (m * Real.pi * i / n) + Real.cos (m * Real.pi * (i + 1 : ℕ) / n)) / 2 = Real.sin (k * θ) * Real.cos (θ / 2) := by
    intro k
    induction k with
    | zero => simp
    | succ k ih =>
      rw [sum_range_succ, mul_add, ih]
      have e1 : m * Real.pi * k / n = k * θ := by rw [hθ]; ring
      have e2 : m * Real.pi * (k + 1 : ℕ) / n = k * θ + 2 * (θ / 2) := by rw [hθ]; push_cast; ring
      have e3 : ((k + 1 : ℕ) : ℝ) * θ = k * θ + 2 * (θ / 2) := by push_cast; ring
      rw [e1, e2, e3, Real.sin_add, Real.cos_add, Real.sin_two_mul, Real.cos_two_mul]
      have := Real.sin_sq_add_cos_sq (θ / 2)
      have h2 : Real.cos (θ / 2) ^ 2 = 1 - Real.sin (θ / 2) ^ 2 := by linarith
      linear_combination (-2 * Real.sin (k * θ) * Real.cos (θ / 2)) * h2
  have := key n
  rw [show (n : ℝ) * θ = m * Real.pi by rw [hθ]; field_simp, Real.sin_nat_mul_pi, zero_mul] at this
  rcases mul_eq_zero.mp this with h | h
  · linarith
  · exact h

theorem trapW_ortho (n : ℕ) (hn : 0 < n) (a b : ℕ) (ha : a ≤ n) (hb : b ≤ n) (hab : a ≠ b) :
    ∑ i ∈ range (n + 1), trapW (n + 1) i * (Real.cos (a * Real.pi * i / n) * Real.cos (b * Real.pi * i / n)) = 0 := by
  wlog h : b < a generalizing a b
  · rw [← this b a hb ha (Ne.symm hab) (by omega)]
    exact sum_congr rfl (fun i _ => by ring)
  have h1 := trapW_cos n hn (a + b) (by omega) (by omega)
  have h2 := trapW_cos n hn (a - b) (by omega) (by omega)
  have : ∀ i : ℕ, trapW (n + 1) i * (Real.cos (a * Real.pi * i / n) * Real.cos (b * Real.pi * i / n)) =
      (trapW (n + 1) i * Real.cos ((a + b : ℕ) * Real.pi * i / n) + trapW (n + 1) i * Real.cos ((a - b : ℕ) * Real.pi * i / n)) / 2 := by
    intro i
    rw [show ((a + b : ℕ) : ℝ) * Real.pi * i / n = a * Real.pi * i / n + b * Real.pi * i / n by push_cast; ring,
      show ((a - b : ℕ) : ℝ) * Real.pi * i / n = a * Real.pi * i / n - b * Real.pi * i / n by rw [Nat.cast_sub h.le]; ring, Real.cos_add, Real.cos_sub]
    ring
  rw [sum_congr rfl (fun i _ => this i), ← sum_div, sum_add_distrib, h1, h2]
  simp

theorem trapW_norm (n : ℕ) (a : ℕ) : 0 < ∑ i ∈ range (n + 1), trapW (n + 1) i * (Real.cos (a * Real.pi * i / n) * Real.cos (a * Real.pi * i / n)) := by
  apply sum_pos'
  · intro i _
    have : 0 ≤ trapW (n + 1) i := by unfold trapW; split_ifs <;> norm_num
    exact mul_nonneg this (mul_self_nonneg _)
  · refine ⟨0, by simp, ?_⟩
    simp [trapW]

end Gpy
