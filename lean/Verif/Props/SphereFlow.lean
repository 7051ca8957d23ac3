import Verif.Proofs.SphereFlow
import Verif.Props.MinQuad
import Mathlib.Data.Fin.VecNotation
import Mathlib.Tactic.FinCases

/-!
# C110: a step of the flow of `reach_for_the_spheres`
-/

set_option autoImplicit false
namespace Gpy.Spheres
open Classical

variable {d n nf m : ℕ}

section
variable (q : Hit d n nf m) (u : Smp d m) (N : Fin nf → Pt d) (M : Fin n → ℝ) (a : FlowArgs)

/-- The step size is between `min_t` and `max_t`. -/
theorem C110_step_size (h : a.minT ≤ a.maxT) (hl : a.linesearch = true) : a.minT ≤ q.t u N a ∧ q.t u N a ≤ a.maxT := by
  unfold Hit.t stepSize
  rw [if_pos hl]
  dsimp only
  exact ⟨le_min h (le_max_right _ _), min_le_left _ _⟩

theorem at_eq_pe (k : Fin m) : q.at q.V k = q.pe k := by
  funext j
  unfold Hit.at Hit.pe
  exact Finset.sum_congr rfl (fun c _ => mul_comm _ _)

/-- A sample counts, unless its distance is only a lower bound that the mesh respects. -/
theorem C110_counted (clamp : Option ℝ) (pseudo : Bool) (k : Fin m) : q.wu u clamp pseudo k = if q.ignored u clamp pseudo k then 0 else 1 := by
  unfold Hit.wu Hit.ignored Hit.g Hit.dist
  rw [at_eq_pe]
  cases pseudo <;> simp [sub_neg, and_comm]

/-- The line search: the step size is 99/100 of the length that makes the misfit smallest along the direction of steepest descent, between `min_t` and `max_t`. -/
theorem C110_line_search (hl : a.linesearch = true) (hm : 0 < m) (w : Fin m → ℝ) (target : Fin m → Pt d) (hw : w = q.wu u a.clamp a.pseudo) (htg : target = q.ps u a.tol (q.s u N a.inout)) :
    ∃ τ, (∀ s, q.misfit w target (fun v j => q.V v j + τ * q.descent w target v j) ≤ q.misfit w target (fun v j => q.V v j + s * q.descent w target v j)) ∧
      q.t u N a = min a.maxT (max (99 / 100 * τ) a.minT) := by
  subst hw htg
  set w := q.wu u a.clamp a.pseudo with hwd
  set tg := q.ps u a.tol (q.s u N a.inout) with htd
  have hw01 : ∀ k, w k * w k = w k := by
    intro k
    rcases wu_zero_one q u a.clamp a.pseudo k with h | h <;> rw [hwd, h] <;> norm_num
  set A := q.A w with hA
  set r : Fin m → Pt d := fun k j => (∑ v, A k v * q.V v j) - w k * tg k j with hr
  set G : Fin n → Pt d := fun v j => -∑ k, A k v * ((1 / m : ℝ) * r k j) with hG
  set AG : Fin m → Pt d := fun k j => ∑ v, A k v * G v j with hAG
  have hr' : ∀ k j, r k j = w k * (q.at q.V k j - tg k j) := by
    intro k j
    simp only [hr, hA]
    rw [A_mul]; ring
  have hGd : G = q.descent w tg := by
    funext v j
    simp only [hG, Hit.descent, hA]
    rw [Finset.mul_sum]
    congr 1
    refine Finset.sum_congr rfl (fun k _ => ?_)
    rw [hr']
    unfold Hit.A
    rw [Finset.sum_mul, Finset.mul_sum]
    refine Finset.sum_congr rfl (fun c _ => ?_)
    split
    · linear_combination (1 / (m : ℝ) * q.b k c * (q.at q.V k j - tg k j)) * hw01 k
    · ring
  have hmis : ∀ s, q.misfit w tg (fun v j => q.V v j + s * q.descent w tg v j) = ∑ k, ∑ j, (r k j + s * AG k j) ^ 2 := by
    intro s
    unfold Hit.misfit
    refine Finset.sum_congr rfl (fun k _ => ?_)
    unfold psq
    rw [Finset.mul_sum]
    refine Finset.sum_congr rfl (fun j _ => ?_)
    have e1 : q.at (fun v j => q.V v j + s * q.descent w tg v j) k j = q.at q.V k j + s * q.at G k j := by
      rw [hGd]
      unfold Hit.at
      rw [Finset.mul_sum, ← Finset.sum_add_distrib]
      exact Finset.sum_congr rfl (fun c _ => by ring)
    have e2 : AG k j = w k * q.at G k j := by
      simp only [hAG, hA]; rw [A_mul]
    rw [Pi.sub_apply, e1, e2, hr']
    linear_combination -(q.at q.V k j + s * q.at G k j - tg k j) ^ 2 * hw01 k
  have hb : ∑ k, ∑ j, r k j * ((1 / m : ℝ) * AG k j) = -∑ v, ∑ j, G v j ^ 2 := by
    have e : ∀ j : Fin d, ∑ k, r k j * ((1 / m : ℝ) * AG k j) = -∑ v, G v j ^ 2 := by
      intro j
      have e1 : ∑ k, r k j * ((1 / m : ℝ) * AG k j) = ∑ v, ∑ k, G v j * (A k v * ((1 / m : ℝ) * r k j)) := by
        rw [Finset.sum_comm]
        refine Finset.sum_congr rfl (fun k _ => ?_)
        simp only [hAG]
        rw [Finset.mul_sum, Finset.mul_sum]
        exact Finset.sum_congr rfl (fun v _ => by ring)
      rw [e1, ← Finset.sum_neg_distrib]
      refine Finset.sum_congr rfl (fun v _ => ?_)
      rw [← Finset.mul_sum]
      have : ∑ k, A k v * ((1 / m : ℝ) * r k j) = -G v j := by simp only [hG]; ring
      rw [this]; ring
    rw [Finset.sum_comm, Finset.sum_congr rfl (fun j _ => e j), Finset.sum_neg_distrib, Finset.sum_comm]
  have hquad : ∀ s, ∑ k, ∑ j, (r k j + s * AG k j) ^ 2 = ∑ k, ∑ j, r k j ^ 2 - 2 * s * (m * ∑ v, ∑ j, G v j ^ 2) + s ^ 2 * ∑ k, ∑ j, AG k j ^ 2 := by
    intro s
    have hm' : (m : ℝ) ≠ 0 := by exact_mod_cast hm.ne'
    have e : ∑ k, ∑ j, r k j * AG k j = -(m * ∑ v, ∑ j, G v j ^ 2) := by
      have : ∑ k, ∑ j, r k j * ((1 / m : ℝ) * AG k j) = 1 / m * ∑ k, ∑ j, r k j * AG k j := by
        simp only [Finset.mul_sum]
        exact Finset.sum_congr rfl (fun k _ => Finset.sum_congr rfl (fun j _ => by ring))
      rw [this] at hb
      field_simp at hb
      linarith
    have e2 : ∑ k, ∑ j, (r k j + s * AG k j) ^ 2 = ∑ k, ∑ j, r k j ^ 2 + 2 * s * ∑ k, ∑ j, r k j * AG k j + s ^ 2 * ∑ k, ∑ j, AG k j ^ 2 := by
      simp only [Finset.mul_sum, ← Finset.sum_add_distrib]
      exact Finset.sum_congr rfl (fun k _ => Finset.sum_congr rfl (fun j _ => by ring))
    rw [e2, e]; ring
  have hden : ∑ k, ∑ j, AG k j * ((1 / m : ℝ) * AG k j) = 1 / m * ∑ k, ∑ j, AG k j ^ 2 := by
    simp only [Finset.mul_sum]
    exact Finset.sum_congr rfl (fun k _ => Finset.sum_congr rfl (fun j _ => by ring))
  have ht : q.t u N a = min a.maxT (max (if ∑ k, ∑ j, AG k j * ((1 / m : ℝ) * AG k j) = 0 then 0
      else -((∑ k, ∑ j, r k j * ((1 / m : ℝ) * AG k j)) + 1 / 100 * ∑ v, ∑ j, G v j ^ 2) / ∑ k, ∑ j, AG k j * ((1 / m : ℝ) * AG k j)) a.minT) := by
    unfold Hit.t stepSize
    rw [if_pos hl]
    rfl
  have hm' : (0 : ℝ) < m := by exact_mod_cast hm
  by_cases h0 : ∑ k, ∑ j, AG k j ^ 2 = 0
  · refine ⟨0, fun s => ?_, ?_⟩
    · have hz : ∀ k j, AG k j = 0 := by
        intro k j
        have h1 := (Finset.sum_eq_zero_iff_of_nonneg (fun k _ => Finset.sum_nonneg (fun j _ => sq_nonneg _))).mp h0 k (Finset.mem_univ k)
        have h2 := (Finset.sum_eq_zero_iff_of_nonneg (fun j _ => sq_nonneg _)).mp h1 j (Finset.mem_univ j)
        exact pow_eq_zero_iff two_ne_zero |>.mp h2
      rw [hmis, hmis]
      simp [hz]
    · rw [ht, hden, h0, mul_zero, if_pos rfl, mul_zero]
  · have hpos : 0 < ∑ k, ∑ j, AG k j ^ 2 := lt_of_le_of_ne (Finset.sum_nonneg (fun k _ => Finset.sum_nonneg (fun j _ => sq_nonneg _))) (Ne.symm h0)
    refine ⟨(m * ∑ v, ∑ j, G v j ^ 2) / ∑ k, ∑ j, AG k j ^ 2, fun s => ?_, ?_⟩
    · rw [hmis, hmis, hquad, hquad]
      generalize (m : ℝ) * ∑ v, ∑ j, G v j ^ 2 = B at *
      generalize ∑ k, ∑ j, AG k j ^ 2 = c at *
      have : 0 ≤ c * (s - B / c) ^ 2 := mul_nonneg hpos.le (sq_nonneg _)
      have e : c * (B / c) = B := mul_div_cancel₀ _ h0
      generalize B / c = x at *
      subst e
      nlinarith
    · rw [ht, hden, hb, if_neg (mul_ne_zero (by positivity) h0)]
      congr 2
      field_simp
      ring

theorem t_nonneg (h1 : 0 ≤ a.minT) (h2 : 0 ≤ a.maxT) (h3 : 0 ≤ a.dt) : 0 ≤ q.t u N a := by
  unfold Hit.t stepSize
  split
  · exact le_min h2 (h1.trans (le_max_right _ _))
  · exact h3

theorem flow_solves (X : Fin n → Pt d) (h : flow q u N M a = some X) (v : Fin n) (j : Fin d) :
    (flowQ M (q.matA u a) (q.t u N a)).mulVec (fun v => X v j) v = flowRhs M (q.matA u a) (q.t u N a) q.V (q.C u N a) j v := by
  unfold flow at h
  dsimp only at h
  split at h
  · rename_i hu
    rw [← Option.some.inj h]
    have e : (fun v => ((flowQ M (q.matA u a) (q.t u N a))⁻¹).mulVec (flowRhs M (q.matA u a) (q.t u N a) q.V (q.C u N a) j) v) =
        ((flowQ M (q.matA u a) (q.t u N a))⁻¹).mulVec (flowRhs M (q.matA u a) (q.t u N a) q.V (q.C u N a) j) := rfl
    rw [e, Matrix.mulVec_mulVec, Matrix.mul_nonsing_inv _ ((Matrix.isUnit_iff_isUnit_det _).mp hu), Matrix.one_mulVec]
  · simp at h

/-- With positive masses the step is defined, and its result has strictly less energy than any other placement of the vertices: it is the best trade-off between moving little and reaching
the targets. -/
theorem C110_minimises (hM : ∀ v, 0 < M v) (ht1 : 0 ≤ a.minT) (ht2 : 0 ≤ a.maxT) (ht3 : 0 ≤ a.dt) : ∃ X, flow q u N M a = some X ∧
    ∀ Y, Y ≠ X → q.energy M (q.t u N a) (q.wu u a.clamp a.pseudo) (q.ps u a.tol (q.s u N a.inout)) X < q.energy M (q.t u N a) (q.wu u a.clamp a.pseudo) (q.ps u a.tol (q.s u N a.inout)) Y := by
  have ht := t_nonneg q u N a ht1 ht2 ht3
  obtain ⟨X, hX⟩ : ∃ X, flow q u N M a = some X := by
    unfold flow
    rw [if_pos (flowQ_unit M hM _ _ ht)]
    exact ⟨_, rfl⟩
  exact ⟨X, hX, fun Y hY => energy_lt q M hM _ ht _ (wu_zero_one q u a.clamp a.pseudo) _ X Y (fun v j => Or.inr (flow_solves q u N M a X hX v j)) hY⟩

/-- A step never makes the misfit to the targets larger, and makes it smaller unless nothing moves. -/
theorem C110_error (hM : ∀ v, 0 < M v) (ht1 : 0 ≤ a.minT) (ht2 : 0 ≤ a.maxT) (ht3 : 0 ≤ a.dt) (ht : 0 < q.t u N a) (hm : 0 < m) (X : Fin n → Pt d) (h : flow q u N M a = some X) :
    (q.misfit (q.wu u a.clamp a.pseudo) (q.ps u a.tol (q.s u N a.inout)) X ≤ q.misfit (q.wu u a.clamp a.pseudo) (q.ps u a.tol (q.s u N a.inout)) q.V) ∧
    (X ≠ q.V → q.misfit (q.wu u a.clamp a.pseudo) (q.ps u a.tol (q.s u N a.inout)) X < q.misfit (q.wu u a.clamp a.pseudo) (q.ps u a.tol (q.s u N a.inout)) q.V) := by
  have key : X ≠ q.V → q.misfit (q.wu u a.clamp a.pseudo) (q.ps u a.tol (q.s u N a.inout)) X < q.misfit (q.wu u a.clamp a.pseudo) (q.ps u a.tol (q.s u N a.inout)) q.V := by
    intro hne
    obtain ⟨X', hX', hmin⟩ := C110_minimises q u N M a hM ht1 ht2 ht3
    obtain rfl := Option.some.inj (h.symm.trans hX')
    have := hmin q.V (Ne.symm hne)
    unfold Hit.energy at this
    have h0 : ∑ v, M v * psq (q.V v - q.V v) = 0 := Finset.sum_eq_zero (fun v _ => by unfold psq; simp)
    have h1 : 0 ≤ ∑ v, M v * psq (X v - q.V v) := Finset.sum_nonneg (fun v _ => mul_nonneg (hM v).le (Finset.sum_nonneg (fun j _ => sq_nonneg _)))
    rw [h0, zero_add] at this
    have hpos : 0 < q.t u N a / m := div_pos ht (by exact_mod_cast hm)
    exact lt_of_mul_lt_mul_left (by linarith) hpos.le
  refine ⟨?_, key⟩
  by_cases hne : X = q.V
  · rw [hne]
  · exact (key hne).le

/-- The target of a sample is on the line through the sample and its closest point, at the distance of the sample when the mesh is at least `tol/2` away (and closer else). -/
theorem C110_targets (htol : 0 < a.tol) (s : Fin m → ℝ) (k : Fin m) (hs : |s k| = 1) :
    pnorm (q.ps u a.tol s k - u.U k) ≤ |u.S k| ∧ (1 / 2 * a.tol ≤ q.dist u k → pnorm (q.ps u a.tol s k - u.U k) = |u.S k|) := by
  have hpos : 0 < max (1 / 2 * a.tol) (q.dist u k) := lt_of_lt_of_le (by linarith) (le_max_left _ _)
  have e : pnorm (q.ps u a.tol s k - u.U k) = |u.S k| * (q.dist u k / max (1 / 2 * a.tol) (q.dist u k)) := by
    have e1 : q.ps u a.tol s k - u.U k = fun j => (s k * u.S k / max (1 / 2 * a.tol) (q.dist u k)) * (q.pe k - u.U k) j := by
      funext j
      simp only [Hit.ps, Pi.sub_apply]
      ring
    rw [e1]
    have e2 : pnorm (fun j => (s k * u.S k / max (1 / 2 * a.tol) (q.dist u k)) * (q.pe k - u.U k) j) = |s k * u.S k / max (1 / 2 * a.tol) (q.dist u k)| * pnorm (q.pe k - u.U k) := by
      unfold pnorm psq
      rw [← Real.sqrt_sq_eq_abs, ← Real.sqrt_mul (sq_nonneg _)]
      congr 1
      rw [Finset.mul_sum]
      exact Finset.sum_congr rfl (fun j _ => by ring)
    rw [e2, abs_div, abs_mul, hs, one_mul, abs_of_pos hpos]
    unfold Hit.dist
    ring
  rw [e]
  constructor
  · exact mul_le_of_le_one_right (abs_nonneg _) ((div_le_one hpos).mpr (le_max_right _ _))
  · intro h
    rw [max_eq_right h, div_self (lt_of_lt_of_le (by linarith) h).ne', mul_one]

/-- With the inside-outside test, when the closest point is not near the boundary of its simplex, the target is placed so that the sample is on the side of the surface that the sign of its
distance asks for: on the side of the normal for positive distances. -/
theorem C110_side (htol : 0 < a.tol) (hio : a.inout = true) (k : Fin m) (hb : ∀ c, 1 / 1000 ≤ q.b k c) :
    0 ≤ u.S k * pdot (u.U k - q.ps u a.tol (q.s u N a.inout) k) (N (q.I k)) := by
  have hs : q.s u N a.inout k = -npSign (∑ j, (q.pe k j - u.U k j) * N (q.I k) j) := by
    unfold Hit.s
    rw [if_pos hio, if_neg (by push Not; exact hb)]
  have hpos : 0 < max (1 / 2 * a.tol) (q.dist u k) := lt_of_lt_of_le (by linarith) (le_max_left _ _)
  have e : pdot (u.U k - q.ps u a.tol (q.s u N a.inout) k) (N (q.I k)) =
      u.S k / max (1 / 2 * a.tol) (q.dist u k) * (npSign (∑ j, (q.pe k j - u.U k j) * N (q.I k) j) * ∑ j, (q.pe k j - u.U k j) * N (q.I k) j) := by
    unfold pdot Hit.ps
    rw [hs]
    generalize npSign (∑ j, (q.pe k j - u.U k j) * N (q.I k) j) = σ
    rw [Finset.mul_sum, Finset.mul_sum]
    refine Finset.sum_congr rfl (fun j _ => ?_)
    simp only [Pi.sub_apply]
    ring
  have hσ : ∀ x, 0 ≤ npSign x * x := by
    intro x
    unfold npSign
    split
    · linarith
    · split <;> linarith
  rw [e, ← mul_assoc, ← mul_div_assoc]
  exact mul_nonneg (div_nonneg (mul_self_nonneg _) hpos.le) (hσ _)

/-- A mesh that fits every sample exactly, on the right side, is not moved. -/
theorem C110_fixed_point (hM : ∀ v, 0 < M v) (ht1 : 0 ≤ a.minT) (ht2 : 0 ≤ a.maxT) (ht3 : 0 ≤ a.dt)
    (hfit : ∀ k, q.dist u k = |u.S k|) (hside : ∀ k, q.s u N a.inout k * u.S k = |u.S k|) (hfar : ∀ k, 1 / 2 * a.tol ≤ |u.S k| ∨ u.S k = 0) : flow q u N M a = some q.V := by
  have hps : ∀ k, q.ps u a.tol (q.s u N a.inout) k = q.pe k := by
    intro k
    funext j
    unfold Hit.ps
    rw [hside, hfit]
    rcases eq_or_ne (u.S k) 0 with h0 | h0
    · have h1 := hfit k
      rw [h0, abs_zero] at h1
      unfold Hit.dist pnorm at h1
      have h2 : psq (q.pe k - u.U k) = 0 := (Real.sqrt_eq_zero (Finset.sum_nonneg (fun j _ => sq_nonneg _))).mp h1
      have h3 := (Finset.sum_eq_zero_iff_of_nonneg (fun j _ => sq_nonneg _)).mp h2 j (Finset.mem_univ j)
      have h4 := pow_eq_zero_iff two_ne_zero |>.mp h3
      simp only [Pi.sub_apply] at h4
      rw [h4, zero_mul]
      linarith
    · rw [max_eq_right ((hfar k).resolve_right h0), div_self (abs_ne_zero.mpr h0)]
      ring
  obtain ⟨X, hX, hmin⟩ := C110_minimises q u N M a hM ht1 ht2 ht3
  by_contra hne
  have hne' : q.V ≠ X := fun h => hne (by rw [h]; exact hX)
  have h1 := hmin q.V hne'
  have h2 : q.energy M (q.t u N a) (q.wu u a.clamp a.pseudo) (q.ps u a.tol (q.s u N a.inout)) q.V = 0 := by
    unfold Hit.energy Hit.misfit
    have e1 : ∑ v, M v * psq (q.V v - q.V v) = 0 := Finset.sum_eq_zero (fun v _ => by unfold psq; simp)
    have e2 : ∑ k, q.wu u a.clamp a.pseudo k * psq (q.at q.V k - q.ps u a.tol (q.s u N a.inout) k) = 0 := by
      refine Finset.sum_eq_zero (fun k _ => ?_)
      have : q.at q.V k = q.pe k := by
        funext j
        unfold Hit.at Hit.pe
        exact Finset.sum_congr rfl (fun c _ => mul_comm _ _)
      rw [hps, this]
      unfold psq
      simp
    rw [e1, e2]
    simp
  have h3 : 0 ≤ q.energy M (q.t u N a) (q.wu u a.clamp a.pseudo) (q.ps u a.tol (q.s u N a.inout)) X := by
    unfold Hit.energy Hit.misfit
    refine add_nonneg (Finset.sum_nonneg (fun v _ => mul_nonneg (hM v).le (Finset.sum_nonneg (fun j _ => sq_nonneg _))))
      (mul_nonneg (div_nonneg (t_nonneg q u N a ht1 ht2 ht3) (Nat.cast_nonneg m)) (Finset.sum_nonneg (fun k _ => mul_nonneg ?_ (Finset.sum_nonneg (fun j _ => sq_nonneg _)))))
    rcases wu_zero_one q u a.clamp a.pseudo k with h | h <;> rw [h] <;> norm_num
  linarith

/-- No simplex is invalid exactly when every sample is fitted up to `tol`. -/
theorem C110_valid : q.invalidF u a.tol = ∅ ↔ ∀ k, |(|u.S k|) - q.dist u k| < a.tol := by
  unfold Hit.invalidF
  rw [Finset.image_eq_empty, Finset.filter_eq_empty_iff]
  simp only [Finset.mem_univ, forall_const, not_not]
  rfl

/-- With fixed boundary, boundary vertices stay where they are, and the result has strictly less energy than any other placement with the same boundary. -/
theorem C110_boundary (solve : LinSolver ℝ) (hs : solve.Correct) (garbage : ℕ → ℝ) (hd : 0 < d) (hM : ∀ v, 0 < M v) (ht1 : 0 ≤ a.minT) (ht2 : 0 ≤ a.maxT) (ht3 : 0 ≤ a.dt) (bd : List (Fin n))
    (cols : List (Fin n → ℝ)) (h : flowFixed solve garbage q u N M a bd = some cols) :
    ∃ X : Fin n → Pt d, cols = (List.finRange d).map (fun j v => X v j) ∧ (∀ v ∈ bd, X v = q.V v) ∧ ∀ Y, Y ≠ X → (∀ v ∈ bd, Y v = q.V v) →
      q.energy M (q.t u N a) (q.wu u a.clamp a.pseudo) (q.ps u a.tol (q.s u N a.inout)) X < q.energy M (q.t u N a) (q.wu u a.clamp a.pseudo) (q.ps u a.tol (q.s u N a.inout)) Y := by
  obtain ⟨hlen, hcol⟩ := C43_fixed_dof hs h
  have hlen' : cols.length = d := by
    rw [hlen]
    simp only [QArg.cp]
    omega
  have hget : ∀ j : Fin d, (j : ℕ) < cols.length := fun j => by rw [hlen']; exact j.2
  have hmemI : ∀ v : Fin n, ((v : ℕ) : ℤ) ∈ bd.map (fun v : Fin n => ((v : ℕ) : ℤ)) → v ∈ bd := by
    intro v hv
    obtain ⟨w, hw, e⟩ := List.mem_map.mp hv
    have e' : (w : ℕ) = (v : ℕ) := by exact_mod_cast e
    have : v = w := Fin.ext e'.symm
    rwa [this]
  have hX : ∀ v ∈ bd, (fun j : Fin d => (cols[(j : ℕ)]'(hget j)) v) = q.V v := by
    intro v hv
    funext j
    obtain ⟨i, hi, e⟩ := List.mem_iff_getElem.mp hv
    obtain ⟨w, hw, e'⟩ := (hcol j _ (List.getElem?_eq_getElem (hget j))).1 _ rfl i ((v : ℕ) : ℤ) (by
      rw [List.getElem?_map, List.getElem?_eq_getElem hi, e]; rfl)
    have hw' : (w : ℕ) = (v : ℕ) := by exact_mod_cast hw
    have : w = v := Fin.ext hw'
    subst this
    rw [e']
    simp only [QArg.entry]
    have e1 : (bd.map (fun v => (List.finRange d).map (q.V v))).getD i [] = (List.finRange d).map (q.V w) := by
      rw [List.getD_eq_getElem?_getD, List.getElem?_map, List.getElem?_eq_getElem hi, e]; rfl
    rw [e1, List.getD_eq_getElem?_getD]
    simp
  refine ⟨fun v j => (cols[(j : ℕ)]'(hget j)) v, ?_, hX, fun Y hne hY => ?_⟩
  · apply List.ext_getElem
    · simp [hlen']
    · intro i h1 h2
      rw [List.getElem_map]
      have hj : ∀ (k : ℕ) (hk : k < cols.length) (h1' : i < cols.length), k = i → cols[i]'h1' = cols[k]'hk := by
        rintro k hk h1' rfl; rfl
      exact hj _ _ _ (by simp)
  · refine energy_lt q M hM _ (t_nonneg q u N a ht1 ht2 ht3) _ (wu_zero_one q u a.clamp a.pseudo) _ _ Y (fun v j => ?_) hne
    by_cases hv : v ∈ bd
    · left
      rw [hY v hv]
      exact (congrFun (hX v hv) j).symm
    · right
      have := (hcol j _ (List.getElem?_eq_getElem (hget j))).2 v (fun h => hv (hmemI v (by simpa using h)))
      have e : (flowQ M (q.A (q.wu u a.clamp a.pseudo)) (q.t u N a)).mulVec (fun v => (cols[(j : ℕ)]'(hget j)) v) v =
          ∑ w, flowQ M (q.matA u a) (q.t u N a) v w * (cols[(j : ℕ)]'(hget j)) w := rfl
      rw [e, this]
      simp only [QArg.entry]
      have e1 : ((List.finRange n).map (fun v => (List.finRange d).map (fun j => flowRhs M (q.matA u a) (q.t u N a) q.V (q.C u N a) j v))).getD v [] =
          (List.finRange d).map (fun j => flowRhs M (q.matA u a) (q.t u N a) q.V (q.C u N a) j v) := by
        rw [List.getD_eq_getElem?_getD]
        simp
      rw [e1, List.getD_eq_getElem?_getD]
      simp
      rfl

/-- Fixing the boundary of a mesh without boundary raises an exception. -/
theorem C110_closed_violated (solve : LinSolver ℝ) (garbage : ℕ → ℝ) : flowFixed solve garbage q u N M a [] = none := by
  unfold flowFixed fixedDofSolve
  split
  · rfl
  · rfl

end

/-- The masses of a curve without isolated vertices are positive, also when edges have length zero. -/
theorem C110_line_mass (V : Fin n → Pt 2) (F : Fin nf → Fin 2 → Fin n) (h : ∀ v, ∃ f c, F f c = v) (v : Fin n) : 0 < lineMass V F v := by
  obtain ⟨f, c, hfc⟩ := h v
  unfold lineMass
  have hpos : 0 < Real.sqrt (100 * (1 / 4503599627370496)) := Real.sqrt_pos.mpr (by norm_num)
  have hnn : ∀ f, ∀ c : Fin 2, 0 ≤ if F f c = v then max (pnorm (V (F f 1) - V (F f 0))) (Real.sqrt (100 * (1 / 4503599627370496))) / 2 else 0 := by
    intro f c
    split
    · have := lt_of_lt_of_le hpos (le_max_right (pnorm (V (F f 1) - V (F f 0))) _)
      linarith
    · exact le_rfl
  refine Finset.sum_pos' (fun f _ => Finset.sum_nonneg (fun c _ => hnn f c)) ⟨f, Finset.mem_univ f, Finset.sum_pos' (fun c _ => hnn f c) ⟨c, Finset.mem_univ c, ?_⟩⟩
  rw [if_pos hfc]
  have := lt_of_lt_of_le hpos (le_max_right (pnorm (V (F f 1) - V (F f 0))) _)
  linarith

/-- the hypotheses can be met: one edge and a sample above it -/
noncomputable def exHit : Hit 2 2 1 1 := ⟨![![0, 0], ![2, 0]], fun _ => ![0, 1], fun _ => 0, fun _ => ![1 / 2, 1 / 2]⟩
noncomputable def exSmp : Smp 2 1 := ⟨fun _ => ![1, 1], fun _ => -1⟩

example : (∀ v, 0 < lineMass exHit.V exHit.F v) ∧ (∀ c, 1 / 1000 ≤ exHit.b 0 c) ∧ exHit.dist exSmp 0 = |exSmp.S 0| ∧ exHit.s exSmp (lineNormal exHit.V exHit.F) true 0 * exSmp.S 0 = |exSmp.S 0| ∧
    flow exHit exSmp (lineNormal exHit.V exHit.F) (lineMass exHit.V exHit.F) ⟨1 / 200, true, 1 / 1000000, 50, 10, true, none, false⟩ = some exHit.V := by
  have hm : ∀ v, 0 < lineMass exHit.V exHit.F v := C110_line_mass _ _ (fun v => ⟨0, v, by fin_cases v <;> rfl⟩)
  have hb : ∀ c, 1 / 1000 ≤ exHit.b 0 c := by intro c; fin_cases c <;> norm_num [exHit]
  have hpe : exHit.pe 0 = ![1, 0] := by
    funext j
    unfold Hit.pe exHit
    rw [Fin.sum_univ_two]
    fin_cases j <;> norm_num
  have hd : exHit.dist exSmp 0 = |exSmp.S 0| := by
    unfold Hit.dist pnorm psq
    rw [hpe, Fin.sum_univ_two]
    simp [exSmp]
  have hs : exHit.s exSmp (lineNormal exHit.V exHit.F) true 0 * exSmp.S 0 = |exSmp.S 0| := by
    unfold Hit.s
    rw [if_pos rfl, if_neg (by push Not; exact hb), hpe, Fin.sum_univ_two]
    simp [exSmp, lineNormal, exHit, npSign]
  refine ⟨hm, hb, hd, hs, C110_fixed_point _ _ _ _ _ hm (by norm_num) (by norm_num) (by norm_num) (fun k => ?_) (fun k => ?_) (fun k => Or.inl ?_)⟩
  · fin_cases k; exact hd
  · fin_cases k; exact hs
  · norm_num [exSmp]

end Gpy.Spheres
