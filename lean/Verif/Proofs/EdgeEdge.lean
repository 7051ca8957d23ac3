import Verif.Model.TriangleDistance
import Verif.Proofs.SquaredDistance

set_option autoImplicit false
namespace Gpy
open Np
variable {d : ℕ}

/-- first order optimality of `t` in `[0,1]` for the derivative `g` -/
def Opt01 (t g : ℝ) : Prop := 0 ≤ t ∧ t ≤ 1 ∧ (0 < t → g ≤ 0) ∧ (t < 1 → 0 ≤ g)

theorem Opt01.ineq {t g : ℝ} (h : Opt01 t g) {t' : ℝ} (h0 : 0 ≤ t') (h1 : t' ≤ 1) : 0 ≤ g * (t' - t) := by
  obtain ⟨a, b, c, e⟩ := h
  rcases lt_trichotomy t' t with h | h | h
  · have := c (by linarith); nlinarith
  · rw [h]; simp
  · have := e (by linarith); nlinarith

/-- clamping the minimiser of a one-dimensional quadratic -/
theorem clamp_opt {α τ : ℝ} (hα : 0 ≤ α) (h0 : α = 0 → τ = 0) {t : ℝ}
    (ht : t = if τ / α ≤ 0 then 0 else if τ / α ≥ 1 then 1 else τ / α) : Opt01 t (α * t - τ) := by
  rcases hα.lt_or_eq with h | h
  · have hd : α * (τ / α) = τ := by field_simp
    split_ifs at ht with h1 h2
    · subst ht
      refine ⟨le_rfl, zero_le_one, fun h => absurd h (lt_irrefl _), fun _ => ?_⟩
      have : τ ≤ 0 := by rw [← hd]; exact mul_nonpos_of_nonneg_of_nonpos h.le h1
      linarith
    · subst ht
      refine ⟨zero_le_one, le_rfl, fun _ => ?_, fun h => absurd h (lt_irrefl _)⟩
      have : α * 1 ≤ α * (τ / α) := mul_le_mul_of_nonneg_left h2 h.le
      linarith
    · subst ht
      refine ⟨by linarith, by linarith, fun _ => by linarith, fun _ => by linarith⟩
  · have := h0 h.symm
    subst this
    rw [← h] at ht ⊢
    simp at ht
    subst ht
    refine ⟨le_rfl, zero_le_one, fun _ => by simp, fun _ => by simp⟩

/-- the `u ≤ 0` case: recomputing `t` keeps `u = 0` optimal -/
theorem ee_u0 {α β γ τ υ t0 t : ℝ} (hβ : 0 < β) (hΔ : 0 ≤ α * β - γ * γ)
    (h0 : Opt01 t0 ((α * β - γ * γ) * t0 - (τ * β - υ * γ))) (hu : γ * t0 ≤ υ) (ht : Opt01 t (α * t - τ)) : γ * t ≤ υ := by
  by_contra hc
  push Not at hc
  obtain ⟨a1, a2, a3, a4⟩ := h0
  obtain ⟨b1, b2, b3, b4⟩ := ht
  rcases lt_trichotomy t t0 with h | h | h
  · -- t < t0, so γ < 0
    have hγ : γ < 0 := by
      by_contra h'; push Not at h'; nlinarith
    have c1 := a3 (by linarith)
    have c2 := b4 (by linarith)
    have c3 : (α * β - γ * γ) * (t0 - t) ≥ 0 := mul_nonneg hΔ (by linarith)
    have c4 := mul_nonneg hβ.le c2
    have c5 := mul_pos_of_neg_of_neg hγ (show υ - γ * t < 0 by linarith)
    nlinarith
  · rw [h] at hc; linarith
  · have hγ : 0 < γ := by
      by_contra h'; push Not at h'; nlinarith
    have c1 := a4 (by linarith)
    have c2 := b3 (by linarith)
    have c3 : (α * β - γ * γ) * (t - t0) ≥ 0 := mul_nonneg hΔ (by linarith)
    have c4 := mul_nonneg hβ.le (neg_nonneg.mpr c2)
    have c5 := mul_pos hγ (show 0 < γ * t - υ by linarith)
    nlinarith

theorem pdot_zero_of_self {x : Pt d} (h : pdot x x = 0) : x = 0 := by
  funext i
  unfold pdot at h
  rw [Finset.sum_eq_zero_iff_of_nonneg (fun i _ => mul_self_nonneg _)] at h
  exact mul_self_eq_zero.mp (h i (Finset.mem_univ i))

theorem pdot_comm (x y : Pt d) : pdot x y = pdot y x := by
  unfold pdot; apply Finset.sum_congr rfl; intro i _; ring

theorem pdot_self_nonneg (x : Pt d) : 0 ≤ pdot x x := Finset.sum_nonneg (fun i _ => mul_self_nonneg _)

theorem pdot_lin (a b : ℝ) (x y z : Pt d) : pdot (fun i => a * x i + b * y i) z = a * pdot x z + b * pdot y z := by
  simp only [pdot, Finset.mul_sum, ← Finset.sum_add_distrib]
  apply Finset.sum_congr rfl; intro i _; ring

theorem pdot_lin_self (a b : ℝ) (x y : Pt d) : pdot (fun i => a * x i + b * y i) (fun i => a * x i + b * y i)
    = a * a * pdot x x + 2 * a * b * pdot x y + b * b * pdot y y := by
  simp only [pdot, Finset.mul_sum, ← Finset.sum_add_distrib]
  apply Finset.sum_congr rfl; intro i _; ring

/-- Cauchy-Schwarz, with the equality case -/
theorem gram_nonneg (A B : Pt d) : 0 ≤ pdot A A * pdot B B - pdot A B * pdot A B := by
  rcases (pdot_self_nonneg B).lt_or_eq with h | h
  · have h1 := pdot_self_nonneg (fun i => pdot B B * A i + (-pdot A B) * B i)
    rw [pdot_lin_self] at h1
    have : 0 ≤ pdot B B * (pdot A A * pdot B B - pdot A B * pdot A B) := by nlinarith
    exact nonneg_of_mul_nonneg_right this h
  · have := pdot_zero_of_self h.symm
    subst this
    simp [pdot]

theorem gram_zero {A B T : Pt d} (h : pdot A A * pdot B B - pdot A B * pdot A B = 0) :
    pdot A T * pdot B B - pdot B T * pdot A B = 0 := by
  have h1 : pdot (fun i => pdot B B * A i + (-pdot A B) * B i) (fun i => pdot B B * A i + (-pdot A B) * B i) = 0 := by
    rw [pdot_lin_self]
    linear_combination pdot B B * h
  have h2 := pdot_zero_of_self h1
  have h3 : pdot (fun i => pdot B B * A i + (-pdot A B) * B i) T = 0 := by rw [h2]; simp [pdot]
  rw [pdot_lin] at h3
  linarith

theorem segPoint_eq (t : ℝ) (P A : Pt d) :
    segPoint t P A = fun i => P i + (if t ≤ 0 then 0 else if t ≥ 1 then 1 else t) * A i := by
  unfold segPoint
  split_ifs <;> funext i <;> simp

/-- the points found are on the segments and satisfy the first order conditions -/
theorem edgeEdge_spec (P1 Q1 P2 Q2 : Pt d) :
    ∃ t u : ℝ, (edgeEdgeDistance P1 Q1 P2 Q2).2.1 = (fun i => P1 i + t * (Q1 - P1) i) ∧
      (edgeEdgeDistance P1 Q1 P2 Q2).2.2 = (fun i => P2 i + u * (Q2 - P2) i) ∧
      Opt01 t (pdot (Q1 - P1) (Q1 - P1) * t - pdot (Q1 - P1) (Q2 - P2) * u - pdot (Q1 - P1) (P2 - P1)) ∧
      Opt01 u (pdot (Q2 - P2) (Q2 - P2) * u - pdot (Q1 - P1) (Q2 - P2) * t + pdot (Q2 - P2) (P2 - P1)) := by
  have hΔ := gram_nonneg (Q1 - P1) (Q2 - P2)
  have hΔ0 := gram_zero (A := Q1 - P1) (B := Q2 - P2) (T := P2 - P1)
  have hA := pdot_self_nonneg (Q1 - P1)
  have hB := pdot_self_nonneg (Q2 - P2)
  have hA0 : pdot (Q1 - P1) (Q1 - P1) = 0 → pdot (Q1 - P1) (P2 - P1) = 0 ∧ pdot (Q1 - P1) (Q2 - P2) = 0 := by
    intro h
    rw [pdot_zero_of_self h]; simp [pdot]
  have hB0 : pdot (Q2 - P2) (Q2 - P2) = 0 → pdot (Q2 - P2) (P2 - P1) = 0 ∧ pdot (Q1 - P1) (Q2 - P2) = 0 := by
    intro h
    rw [pdot_zero_of_self h]; simp [pdot]
  unfold edgeEdgeDistance
  dsimp only
  generalize pdot (Q1 - P1) (Q1 - P1) = α at *
  generalize pdot (Q2 - P2) (Q2 - P2) = β at *
  generalize pdot (Q1 - P1) (Q2 - P2) = γ at *
  generalize pdot (Q1 - P1) (P2 - P1) = τ at *
  generalize pdot (Q2 - P2) (P2 - P1) = υ at *
  obtain ⟨t00, ht00⟩ : ∃ t, t = if α * β - γ * γ = 0 then 0 else (τ * β - υ * γ) / (α * β - γ * γ) := ⟨_, rfl⟩
  rw [← ht00]
  obtain ⟨t0, ht0⟩ : ∃ t, t = if t00 < 0 then 0 else if t00 > 1 then 1 else t00 := ⟨_, rfl⟩
  rw [← ht0]
  have h0 : Opt01 t0 ((α * β - γ * γ) * t0 - (τ * β - υ * γ)) := by
    apply clamp_opt hΔ hΔ0
    rw [ht0]
    by_cases hz : α * β - γ * γ = 0
    · rw [if_pos hz] at ht00
      rw [ht00, hz]; simp
    · rw [if_neg hz] at ht00
      rw [← ht00]
      split_ifs <;> linarith
  obtain ⟨u0, hu0⟩ : ∃ u, u = if β = 0 then 0 else (t0 * γ - υ) / β := ⟨_, rfl⟩
  rw [← hu0]
  by_cases hu1 : u0 ≤ 0
  · rw [if_pos hu1]
    dsimp only
    obtain ⟨t, ht⟩ : ∃ t, t = if τ / α ≤ 0 then 0 else if τ / α ≥ 1 then 1 else τ / α := ⟨_, rfl⟩
    have ho := clamp_opt hA (fun h => (hA0 h).1) ht
    refine ⟨t, 0, by rw [segPoint_eq, ← ht], by simp, by simpa using ho, ?_⟩
    have : γ * t ≤ υ := by
      rcases hB.lt_or_eq with hb | hb
      · apply ee_u0 hb hΔ h0 _ ho
        rw [if_neg hb.ne'] at hu0
        rw [hu0, div_nonpos_iff] at hu1
        rcases hu1 with ⟨_, h⟩ | ⟨h, _⟩ <;> linarith
      · obtain ⟨h1, h2⟩ := hB0 hb.symm
        rw [h1, h2]; simp
    exact ⟨le_rfl, zero_le_one, fun h => absurd h (lt_irrefl _), fun _ => by linarith⟩
  · rw [if_neg hu1]
    have hb : 0 < β := by
      rcases hB.lt_or_eq with hb | hb
      · exact hb
      · exfalso; apply hu1; rw [hu0, if_pos hb.symm]
    rw [if_neg hb.ne'] at hu0
    by_cases hu2 : u0 ≥ 1
    · rw [if_pos hu2]
      dsimp only
      obtain ⟨t, ht⟩ : ∃ t, t = if (τ + γ) / α ≤ 0 then 0 else if (τ + γ) / α ≥ 1 then 1 else (τ + γ) / α := ⟨_, rfl⟩
      have ho := clamp_opt hA (fun h => by rw [(hA0 h).1, (hA0 h).2]; simp) ht
      refine ⟨t, 1, by rw [segPoint_eq, ← ht], by funext i; simp, ?_, ?_⟩
      · convert ho using 1; ring
      · have h1 : β ≤ t0 * γ - υ := by
          rw [hu0, ge_iff_le, le_div_iff₀ hb] at hu2; linarith
        have : -γ * t ≤ -(υ + β) := by
          refine ee_u0 (α := α) (β := β) (γ := -γ) (τ := τ + γ) (υ := -(υ + β)) (t0 := t0) hb (by linarith) ?_ (by linarith) ho
          convert h0 using 1; ring
        exact ⟨zero_le_one, le_rfl, fun _ => by linarith, fun h => absurd h (lt_irrefl _)⟩
    · rw [if_neg hu2]
      dsimp only
      have ht0' : t0 = if t0 ≤ 0 then 0 else if t0 ≥ 1 then 1 else t0 := by
        obtain ⟨a, b, _⟩ := h0
        split_ifs <;> linarith
      have hu : β * u0 = t0 * γ - υ := by rw [hu0]; field_simp
      refine ⟨t0, u0, by rw [segPoint_eq, ← ht0'], rfl, ?_, ?_⟩
      · have hg : β * (α * t0 - γ * u0 - τ) = (α * β - γ * γ) * t0 - (τ * β - υ * γ) := by
          linear_combination (-γ) * hu
        obtain ⟨a, b, c, e⟩ := h0
        refine ⟨a, b, fun h => ?_, fun h => ?_⟩
        · have := c h; rw [← hg] at this; exact nonpos_of_mul_nonpos_right this hb
        · have := e h; rw [← hg] at this; exact nonneg_of_mul_nonneg_right this hb
      · have : β * u0 - γ * t0 + υ = 0 := by linarith
        rw [this]
        push Not at hu1 hu2
        exact ⟨hu1.le, hu2.le, fun _ => le_rfl, fun _ => le_rfl⟩

/-- the vector between the points found is optimal towards all points of the two segments -/
theorem edgeEdge_vi (P1 Q1 P2 Q2 : Pt d) :
    let X := (edgeEdgeDistance P1 Q1 P2 Q2).2.1
    let Y := (edgeEdgeDistance P1 Q1 P2 Q2).2.2
    (∃ t, 0 ≤ t ∧ t ≤ 1 ∧ X = fun i => P1 i + t * (Q1 - P1) i) ∧ (∃ u, 0 ≤ u ∧ u ≤ 1 ∧ Y = fun i => P2 i + u * (Q2 - P2) i) ∧
    (∀ t, 0 ≤ t → t ≤ 1 → pdot ((fun i => P1 i + t * (Q1 - P1) i) - X) (Y - X) ≤ 0) ∧
    (∀ u, 0 ≤ u → u ≤ 1 → 0 ≤ pdot ((fun i => P2 i + u * (Q2 - P2) i) - Y) (Y - X)) := by
  obtain ⟨t, u, h1, h2, h3, h4⟩ := edgeEdge_spec P1 Q1 P2 Q2
  dsimp only
  rw [h1, h2]
  refine ⟨⟨t, h3.1, h3.2.1, rfl⟩, ⟨u, h4.1, h4.2.1, rfl⟩, ?_, ?_⟩
  · intro t' a b
    have := h3.ineq a b
    have e : pdot ((fun i => P1 i + t' * (Q1 - P1) i) - fun i => P1 i + t * (Q1 - P1) i)
        ((fun i => P2 i + u * (Q2 - P2) i) - fun i => P1 i + t * (Q1 - P1) i) =
        -((pdot (Q1 - P1) (Q1 - P1) * t - pdot (Q1 - P1) (Q2 - P2) * u - pdot (Q1 - P1) (P2 - P1)) * (t' - t)) := by
      simp only [pdot, Finset.sum_mul, ← Finset.sum_sub_distrib, ← Finset.sum_neg_distrib, Pi.sub_apply]
      apply Finset.sum_congr rfl; intro i _; ring
    rw [e]; linarith
  · intro u' a b
    have := h4.ineq a b
    have e : pdot ((fun i => P2 i + u' * (Q2 - P2) i) - fun i => P2 i + u * (Q2 - P2) i)
        ((fun i => P2 i + u * (Q2 - P2) i) - fun i => P1 i + t * (Q1 - P1) i) =
        (pdot (Q2 - P2) (Q2 - P2) * u - pdot (Q1 - P1) (Q2 - P2) * t + pdot (Q2 - P2) (P2 - P1)) * (u' - u) := by
      simp only [pdot, Finset.sum_mul, ← Finset.sum_sub_distrib, ← Finset.sum_add_distrib, Pi.sub_apply]
      apply Finset.sum_congr rfl; intro i _; ring
    rw [e]; exact this

/-- a separating slab bounds the distance -/
theorem slab_bound {X Y x y : Pt d} (h1 : pdot (x - X) (Y - X) ≤ 0) (h2 : 0 ≤ pdot (y - Y) (Y - X)) :
    psq (Y - X) ≤ psq (y - x) := by
  have e : psq (y - x) = psq (Y - X) + 2 * (pdot (y - Y) (Y - X) - pdot (x - X) (Y - X)) + psq ((y - x) - (Y - X)) := by
    simp only [psq, pdot, Finset.mul_sum, ← Finset.sum_sub_distrib, ← Finset.sum_add_distrib, Pi.sub_apply]
    apply Finset.sum_congr rfl; intro i _; ring
  have := psq_nonneg ((y - x) - (Y - X))
  linarith

end Gpy
