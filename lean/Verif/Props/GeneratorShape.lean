import Verif.Props.Generators
import Mathlib.Analysis.Real.Sqrt
import Mathlib.Data.List.Pairwise
import Mathlib.Tactic.LinearCombination

/-!
# C141: the shape of `cylinder`, `cone` and `torus`

`gpytoolbox/cylinder.py`, `cone.py`, `torus.py`.
-/

set_option autoImplicit false
namespace Gpy
open Np

/-! ## Specification -/

/-- every triangle `a b c` has corners in `V`, and its normal `(b-a) × (c-a)` points to the side of the outward direction `out` at its first corner (in particular it has positive area) -/
def TrisPointOut (V : List (V3 ℝ)) (F : List Tri) (out : V3 ℝ → V3 ℝ → Prop) : Prop :=
  ∀ t ∈ F, ∃ a b c, V[t.a]? = some a ∧ V[t.b]? = some b ∧ V[t.c]? = some c ∧ (∃ n, out a n) ∧ ∀ n, out a n → 0 < V3.dot (V3.cross (b - a) (c - a)) n

/-- the unit cylinder of height one around the `z` axis -/
def OnCylinder (v : V3 ℝ) : Prop := v.x ^ 2 + v.y ^ 2 = 1 ∧ 0 ≤ v.z ∧ v.z ≤ 1

/-- its outward normal -/
def outCylinder (v n : V3 ℝ) : Prop := n = ⟨v.x, v.y, 0⟩

/-- the cone with the unit circle as base and the tip `(0,0,1)` -/
def OnCone (v : V3 ℝ) : Prop := Real.sqrt (v.x ^ 2 + v.y ^ 2) = 1 - v.z ∧ 0 ≤ v.z ∧ v.z ≤ 1

/-- its outward normal, away from the tip -/
def outCone (v n : V3 ℝ) : Prop := ∃ ρ > 0, ρ = Real.sqrt (v.x ^ 2 + v.y ^ 2) ∧ n = ⟨v.x / ρ, v.y / ρ, 1⟩

/-- the torus around the `z` axis -/
def OnTorus (R r : ℝ) (v : V3 ℝ) : Prop := (Real.sqrt (v.x ^ 2 + v.y ^ 2) - R) ^ 2 + v.z ^ 2 = r ^ 2

/-- its outward direction: away from the nearest point of the circle in its middle -/
def outTorus (R : ℝ) (v n : V3 ℝ) : Prop := n = v - ⟨v.x / Real.sqrt (v.x ^ 2 + v.y ^ 2) * R, v.y / Real.sqrt (v.x ^ 2 + v.y ^ 2) * R, 0⟩

/-! ## Proofs -/

/-- the angle of a step -/
noncomputable def stepA (n : ℕ) : ℝ := 2 * Real.pi / n

theorem sin_step {n : ℕ} (h : 3 ≤ n) : 0 < Real.sin (stepA n) := by
  have hn : (3 : ℝ) ≤ n := by exact_mod_cast h
  have hp := Real.pi_pos
  apply Real.sin_pos_of_pos_of_lt_pi
  · unfold stepA; positivity
  · unfold stepA
    rw [div_lt_iff₀ (by linarith)]
    nlinarith

theorem full_turn {n : ℕ} (h : 0 < n) : (n : ℝ) * stepA n = 2 * Real.pi := by
  have : (n : ℝ) ≠ 0 := by positivity
  unfold stepA
  field_simp

theorem cos_wr {n c : ℕ} (h : 0 < n) : Real.cos ((wr n c : ℕ) * stepA n) = Real.cos (c * stepA n) := by
  unfold wr
  split
  · next e => rw [e, full_turn h]; simp
  · rfl

theorem sin_wr {n c : ℕ} (h : 0 < n) : Real.sin ((wr n c : ℕ) * stepA n) = Real.sin (c * stepA n) := by
  unfold wr
  split
  · next e => rw [e, full_turn h]; simp
  · rfl

theorem wr_lt' {n c : ℕ} (h : 0 < n) (hc : c ≤ n) : wr n c < n := by
  unfold wr
  split <;> omega

/-- two directions of the regular polygon are different -/
theorem angle_inj {n i j : ℕ} (hi : i < n) (hj : j < n) (hc : Real.cos (i * stepA n) = Real.cos (j * stepA n)) (hs : Real.sin (i * stepA n) = Real.sin (j * stepA n)) : i = j := by
  have hn : (0 : ℝ) < n := by exact_mod_cast (by omega : 0 < n)
  have hp := Real.pi_pos
  have st : 0 < stepA n := by unfold stepA; positivity
  have ft := full_turn (n := n) (by omega)
  have hi' : (i : ℝ) < n := by exact_mod_cast hi
  have hj' : (j : ℝ) < n := by exact_mod_cast hj
  have i0 : (0 : ℝ) ≤ i := by positivity
  have j0 : (0 : ℝ) ≤ j := by positivity
  have one : Real.cos (i * stepA n - j * stepA n) = 1 := by
    rw [Real.cos_sub, hc, hs]
    nlinarith [Real.sin_sq_add_cos_sq (j * stepA n)]
  rw [Real.cos_eq_one_iff_of_lt_of_lt (by nlinarith) (by nlinarith)] at one
  have : ((i : ℝ) - j) * stepA n = 0 := by linarith
  rcases mul_eq_zero.mp this with h | h
  · exact_mod_cast (by linarith : (i : ℝ) = j)
  · exact absurd h st.ne'

theorem grid_nodup {α : Type} (R C : ℕ) (g : ℕ → ℕ → α) (h : ∀ r < R, ∀ c < C, ∀ r' < R, ∀ c' < C, g r c = g r' c' → r = r' ∧ c = c') :
    ((List.range R).flatMap (fun r => (List.range C).map (g r))).Nodup := by
  rw [List.nodup_flatMap]
  refine ⟨fun r hr => ?_, ?_⟩
  · rw [List.mem_range] at hr
    exact List.nodup_range.map_on (fun c hc c' hc' e => (h r hr c (List.mem_range.mp hc) r hr c' (List.mem_range.mp hc') e).2)
  · refine List.Pairwise.imp_of_mem ?_ (List.nodup_range (n := R))
    intro r r' hr hr' hne
    simp only [Function.onFun]
    intro x hx hx'
    simp only [List.mem_map, List.mem_range] at hx hx' hr hr'
    obtain ⟨c, hc, rfl⟩ := hx
    obtain ⟨c', hc', e⟩ := hx'
    exact hne (h r hr c hc r' hr' c' hc' e.symm).1

theorem unit_spacing {n : ℕ} (h : 2 ≤ n) : 0 < 1 / ((n : ℝ) - 1) := by
  have : (2 : ℝ) ≤ n := by exact_mod_cast h
  apply div_pos <;> linarith

theorem linspace_unit (n i : ℕ) : linspace 0 1 n i = i * (1 / ((n : ℝ) - 1)) := by unfold linspace; ring

theorem mem_gF {R C m n : ℕ} {t : Tri} (ht : t ∈ gF R C m n) : ∃ r c, r < m ∧ c < n ∧ (t = qt1 (gix R C) (r, c) ∨ t = qt2 (gix R C) (r, c)) := by
  unfold gF quads at ht
  simp only [List.mem_append, List.mem_map, List.mem_flatMap, List.mem_range] at ht
  rcases ht with ⟨q, ⟨r, hr, c, hc, rfl⟩, rfl⟩ | ⟨q, ⟨r, hr, c, hc, rfl⟩, rfl⟩
  · exact ⟨r, c, hr, hc, Or.inl rfl⟩
  · exact ⟨r, c, hr, hc, Or.inr rfl⟩

/-! ### The cylinder -/

theorem cylinderV_get {nx nz r c : ℕ} (hx : 0 < nx) (hr : r < nz) (hc : c ≤ nx) :
    (cylinderV nx nz)[gix nz nx r c]? = some ⟨Real.cos (c * stepA nx), Real.sin (c * stepA nx), r * (1 / ((nz : ℝ) - 1))⟩ := by
  unfold gix
  rw [show wr nz r = r from if_neg (by omega)]
  unfold cylinderV
  rw [flatMap_range_getElem? nz nx (fun r c => (⟨Real.cos (c * (2 * Real.pi / nx)), Real.sin (c * (2 * Real.pi / nx)), linspace 0 1 nz r⟩ : V3 ℝ)) hr (wr_lt' hx hc), linspace_unit]
  exact congrArg some (by rw [V3.mk.injEq]; exact ⟨cos_wr hx, sin_wr hx, rfl⟩)

/-- C141, cylinder: the vertices are different points of the cylinder of radius and height one, the first ring is at height 0 and the last at height 1, and all triangles face outwards -/
theorem C141_cylinder (nx nz : ℕ) (hx : 3 ≤ nx) (hz : 2 ≤ nz) : ∃ F, cylinderF nx nz = some F ∧ (∀ v ∈ cylinderV nx nz, OnCylinder v) ∧ (cylinderV nx nz).Nodup ∧
    (∀ k < nx, ∃ v w, (cylinderV nx nz)[k]? = some v ∧ v.z = 0 ∧ (cylinderV nx nz)[(nz - 1) * nx + k]? = some w ∧ w.z = 1) ∧ TrisPointOut (cylinderV nx nz) F outCylinder := by
  have hd := unit_spacing hz
  have hs := sin_step hx
  have hz2 : (2 : ℝ) ≤ nz := by exact_mod_cast hz
  refine ⟨gF nz nx (nz - 1) nx, ?_, ?_, ?_, ?_, ?_⟩
  · unfold cylinderF
    rw [if_pos ⟨hx, hz⟩, cylinder_eq (by omega) (by omega)]
  · intro v hv
    unfold cylinderV at hv
    simp only [List.mem_flatMap, List.mem_map, List.mem_range] at hv
    obtain ⟨r, hr, c, hc, rfl⟩ := hv
    refine ⟨?_, ?_, ?_⟩
    · simp only; exact Real.cos_sq_add_sin_sq _
    · simp only [linspace_unit]; positivity
    · simp only [linspace_unit]
      have : (r : ℝ) ≤ nz - 1 := by
        have : ((r + 1 : ℕ) : ℝ) ≤ nz := by exact_mod_cast hr
        push_cast at this; linarith
      rw [mul_one_div, div_le_one (by linarith)]
      exact this
  · refine grid_nodup nz nx _ (fun r hr c hc r' hr' c' hc' e => ?_)
    rw [V3.mk.injEq] at e
    obtain ⟨e1, e2, e3⟩ := e
    refine ⟨?_, angle_inj hc hc' e1 e2⟩
    rw [linspace_unit, linspace_unit] at e3
    have := mul_right_cancel₀ hd.ne' e3
    exact_mod_cast this
  · intro k hk
    have h0 := cylinderV_get (nx := nx) (nz := nz) (r := 0) (c := k) (by omega) (by omega) (by omega)
    have h1 := cylinderV_get (nx := nx) (nz := nz) (r := nz - 1) (c := k) (by omega) (by omega) (by omega)
    rw [gix_open (by omega) hk] at h0 h1
    rw [Nat.zero_mul, Nat.zero_add] at h0
    refine ⟨_, _, h0, by simp, h1, ?_⟩
    simp only
    push_cast [show 1 ≤ nz by omega]
    have : (nz : ℝ) - 1 ≠ 0 := by linarith
    field_simp
  · intro t ht
    obtain ⟨r, c, hr, hc, rfl | rfl⟩ := mem_gF ht
    · refine ⟨_, _, _, cylinderV_get (by omega) (by omega) (by omega), cylinderV_get (by omega) (by omega) (by omega), cylinderV_get (by omega) (by omega) (by omega), ⟨_, rfl⟩, ?_⟩
      rintro n rfl
      simp only [V3.dot, V3.cross, V3.sub_x, V3.sub_y, V3.sub_z]
      push_cast
      rw [add_mul (c : ℝ) 1 (stepA nx), one_mul, Real.cos_add, Real.sin_add]
      have := Real.sin_sq_add_cos_sq (c * stepA nx)
      have e := mul_pos hd hs
      refine lt_of_lt_of_eq e ?_
      linear_combination (-(1 / ((nz : ℝ) - 1)) * Real.sin (stepA nx)) * this
    · refine ⟨_, _, _, cylinderV_get (by omega) (by omega) (by omega), cylinderV_get (by omega) (by omega) (by omega), cylinderV_get (by omega) (by omega) (by omega), ⟨_, rfl⟩, ?_⟩
      rintro n rfl
      simp only [V3.dot, V3.cross, V3.sub_x, V3.sub_y, V3.sub_z]
      push_cast
      rw [add_mul (c : ℝ) 1 (stepA nx), one_mul, Real.cos_add, Real.sin_add]
      have := Real.sin_sq_add_cos_sq (c * stepA nx)
      have e := mul_pos hd hs
      refine lt_of_lt_of_eq e ?_
      linear_combination (-(1 / ((nz : ℝ) - 1)) * Real.sin (stepA nx)) * this

/-! ### The torus -/

theorem torusV_get {nR nr i j : ℕ} (R r : ℝ) (hR : 0 < nR) (hr : 0 < nr) (hi : i ≤ nr) (hj : j ≤ nR) :
    (torusV nR nr R r)[gix nr nR i j]? = some ⟨(R + r * Real.cos (i * stepA nr)) * Real.cos (j * stepA nR), (R + r * Real.cos (i * stepA nr)) * Real.sin (j * stepA nR), r * Real.sin (i * stepA nr)⟩ := by
  unfold gix torusV
  rw [flatMap_range_getElem? nr nR (fun i j => (⟨(R + r * Real.cos (i * (2 * Real.pi / nr))) * Real.cos (j * (2 * Real.pi / nR)), (R + r * Real.cos (i * (2 * Real.pi / nr))) * Real.sin (j * (2 * Real.pi / nR)),
    r * Real.sin (i * (2 * Real.pi / nr))⟩ : V3 ℝ)) (wr_lt' hr hi) (wr_lt' hR hj)]
  refine congrArg some ?_
  have a := cos_wr (n := nr) (c := i) hr
  have b := sin_wr (n := nr) (c := i) hr
  have c := cos_wr (n := nR) (c := j) hR
  have d := sin_wr (n := nR) (c := j) hR
  unfold stepA at *
  rw [a, b, c, d]

theorem ring_dist {R r : ℝ} (h0 : 0 < r) (h : r < R) (θ φ : ℝ) : 0 < R + r * Real.cos θ ∧
    Real.sqrt (((R + r * Real.cos θ) * Real.cos φ) ^ 2 + ((R + r * Real.cos θ) * Real.sin φ) ^ 2) = R + r * Real.cos θ := by
  have p : 0 < R + r * Real.cos θ := by nlinarith [Real.neg_one_le_cos θ]
  refine ⟨p, ?_⟩
  have : ((R + r * Real.cos θ) * Real.cos φ) ^ 2 + ((R + r * Real.cos θ) * Real.sin φ) ^ 2 = (R + r * Real.cos θ) ^ 2 := by
    linear_combination (R + r * Real.cos θ) ^ 2 * Real.sin_sq_add_cos_sq φ
  rw [this, Real.sqrt_sq p.le]

/-- C141, torus: if the small radius is less than the large one, the vertices are different points of the torus and all triangles face outwards -/
theorem C141_torus (nR nr : ℕ) (hR : 3 ≤ nR) (hr : 3 ≤ nr) (R r : ℝ) (h0 : 0 < r) (h1 : r < R) : ∃ F, torusF nR nr = some F ∧ (∀ v ∈ torusV nR nr R r, OnTorus R r v) ∧ (torusV nR nr R r).Nodup ∧
    TrisPointOut (torusV nR nr R r) F (outTorus R) := by
  have sR := sin_step hR
  have sr := sin_step hr
  refine ⟨gF nr nR nr nR, ?_, ?_, ?_, ?_⟩
  · unfold torusF
    rw [if_pos ⟨hR, hr⟩, torus_eq (by omega) (by omega)]
  · intro v hv
    unfold torusV at hv
    simp only [List.mem_flatMap, List.mem_map, List.mem_range] at hv
    obtain ⟨i, hi, j, hj, rfl⟩ := hv
    simp only [OnTorus]
    rw [(ring_dist h0 h1 _ _).2]
    linear_combination r ^ 2 * Real.sin_sq_add_cos_sq (i * (2 * Real.pi / nr))
  · refine grid_nodup nr nR _ (fun i hi j hj i' hi' j' hj' e => ?_)
    simp only [V3.mk.injEq] at e
    obtain ⟨e1, e2, e3⟩ := e
    have d1 := ring_dist h0 h1 (i * stepA nr) (j * stepA nR)
    have d2 := ring_dist h0 h1 (i' * stepA nr) (j' * stepA nR)
    change (R + r * Real.cos (i * stepA nr)) * Real.cos (j * stepA nR) = (R + r * Real.cos (i' * stepA nr)) * Real.cos (j' * stepA nR) at e1
    change (R + r * Real.cos (i * stepA nr)) * Real.sin (j * stepA nR) = (R + r * Real.cos (i' * stepA nr)) * Real.sin (j' * stepA nR) at e2
    change r * Real.sin (i * stepA nr) = r * Real.sin (i' * stepA nr) at e3
    have dd : R + r * Real.cos (i * stepA nr) = R + r * Real.cos (i' * stepA nr) := by rw [← d1.2, ← d2.2, e1, e2]
    have hc : Real.cos (i * stepA nr) = Real.cos (i' * stepA nr) := mul_left_cancel₀ h0.ne' (by linarith)
    have hs : Real.sin (i * stepA nr) = Real.sin (i' * stepA nr) := mul_left_cancel₀ h0.ne' e3
    refine ⟨angle_inj hi hi' hc hs, ?_⟩
    rw [← dd] at e1 e2
    exact angle_inj hj hj' (mul_left_cancel₀ d1.1.ne' e1) (mul_left_cancel₀ d1.1.ne' e2)
  · intro t ht
    obtain ⟨i, j, hi, hj, rfl | rfl⟩ := mem_gF ht
    · refine ⟨_, _, _, torusV_get R r (by omega) (by omega) (by omega) (by omega), torusV_get R r (by omega) (by omega) (by omega) (by omega), torusV_get R r (by omega) (by omega) (by omega) (by omega), ⟨_, rfl⟩, ?_⟩
      rintro n rfl
      obtain ⟨p, q⟩ := ring_dist h0 h1 (i * stepA nr) (j * stepA nR)
      obtain ⟨p', -⟩ := ring_dist h0 h1 ((i + 1) * stepA nr) (j * stepA nR)
      simp only
      rw [q]
      simp only [V3.dot, V3.cross, V3.sub_x, V3.sub_y, V3.sub_z]
      rw [mul_div_cancel_left₀ _ p.ne', mul_div_cancel_left₀ _ p.ne']
      push_cast
      rw [add_mul (i : ℝ) 1 (stepA nr), one_mul] at p'
      rw [add_mul (i : ℝ) 1 (stepA nr), add_mul (j : ℝ) 1 (stepA nR), one_mul, one_mul, Real.cos_add (j * stepA nR), Real.sin_add (j * stepA nR)]
      have sd : Real.sin (stepA nr) = Real.sin (i * stepA nr + stepA nr) * Real.cos (i * stepA nr) - Real.cos (i * stepA nr + stepA nr) * Real.sin (i * stepA nr) := by
        rw [← Real.sin_sub]; congr 1; ring
      have e := mul_pos (mul_pos (mul_pos p' (mul_pos h0 h0)) sR) sr
      refine lt_of_lt_of_eq e ?_
      rw [sd]
      have f := Real.sin_sq_add_cos_sq (j * stepA nR)
      linear_combination -((R + r * Real.cos (i * stepA nr + stepA nr)) * (r * r) * Real.sin (stepA nR) * (Real.sin (i * stepA nr + stepA nr) * Real.cos (i * stepA nr) - Real.cos (i * stepA nr + stepA nr) * Real.sin (i * stepA nr))) * f
    · refine ⟨_, _, _, torusV_get R r (by omega) (by omega) (by omega) (by omega), torusV_get R r (by omega) (by omega) (by omega) (by omega), torusV_get R r (by omega) (by omega) (by omega) (by omega), ⟨_, rfl⟩, ?_⟩
      rintro n rfl
      obtain ⟨p, q⟩ := ring_dist h0 h1 (i * stepA nr) (j * stepA nR)
      obtain ⟨p', -⟩ := ring_dist h0 h1 ((i + 1) * stepA nr) (j * stepA nR)
      simp only
      rw [q]
      simp only [V3.dot, V3.cross, V3.sub_x, V3.sub_y, V3.sub_z]
      rw [mul_div_cancel_left₀ _ p.ne', mul_div_cancel_left₀ _ p.ne']
      push_cast
      rw [add_mul (i : ℝ) 1 (stepA nr), one_mul] at p'
      rw [add_mul (i : ℝ) 1 (stepA nr), add_mul (j : ℝ) 1 (stepA nR), one_mul, one_mul, Real.cos_add (j * stepA nR), Real.sin_add (j * stepA nR)]
      have sd : Real.sin (stepA nr) = Real.sin (i * stepA nr + stepA nr) * Real.cos (i * stepA nr) - Real.cos (i * stepA nr + stepA nr) * Real.sin (i * stepA nr) := by
        rw [← Real.sin_sub]; congr 1; ring
      have e := mul_pos (mul_pos (mul_pos p (mul_pos h0 h0)) sR) sr
      refine lt_of_lt_of_eq e ?_
      rw [sd]
      have f := Real.sin_sq_add_cos_sq (j * stepA nR)
      linear_combination -((R + r * Real.cos (i * stepA nr)) * (r * r) * Real.sin (stepA nR) * (Real.sin (i * stepA nr + stepA nr) * Real.cos (i * stepA nr) - Real.cos (i * stepA nr + stepA nr) * Real.sin (i * stepA nr))) * f


/-! ### The cone -/

theorem coneV_get {nx nz r c : ℕ} (hx : 0 < nx) (hr : r < nz - 1) (hc : c ≤ nx) : (coneV nx nz)[gix (nz - 1) nx r c]? =
    some ⟨Real.cos (c * stepA nx) * (1 - r * (1 / ((nz : ℝ) - 1))), Real.sin (c * stepA nx) * (1 - r * (1 / ((nz : ℝ) - 1))), r * (1 / ((nz : ℝ) - 1))⟩ := by
  unfold gix
  rw [show wr (nz - 1) r = r from if_neg (by omega)]
  unfold coneV
  have h := flatMap_range_getElem? (nz - 1) nx (fun r c : ℕ => (⟨Real.cos (c * (2 * Real.pi / nx)) * (1 - linspace 0 1 nz r), Real.sin (c * (2 * Real.pi / nx)) * (1 - linspace 0 1 nz r), linspace 0 1 nz r⟩ : V3 ℝ))
    hr (wr_lt' hx hc)
  rw [List.getElem?_append_left (List.getElem?_eq_some_iff.mp h).1, h, linspace_unit]
  refine congrArg some ?_
  have a := cos_wr (n := nx) (c := c) hx
  have b := sin_wr (n := nx) (c := c) hx
  unfold stepA at *
  rw [a, b]

theorem coneV_tip (nx nz : ℕ) : (coneV nx nz)[nx * (nz - 1)]? = some ⟨0, 0, 1⟩ := by
  unfold coneV
  rw [List.getElem?_append_right (by simp [List.length_flatMap, mul_comm])]
  simp [List.length_flatMap, mul_comm]

theorem cone_radius (ρ φ : ℝ) (h : 0 ≤ ρ) : Real.sqrt ((Real.cos φ * ρ) ^ 2 + (Real.sin φ * ρ) ^ 2) = ρ := by
  have : (Real.cos φ * ρ) ^ 2 + (Real.sin φ * ρ) ^ 2 = ρ ^ 2 := by linear_combination ρ ^ 2 * Real.sin_sq_add_cos_sq φ
  rw [this, Real.sqrt_sq h]

theorem ring_radius {nz r : ℕ} (hz : 2 ≤ nz) (hr : r < nz - 1) : 0 < 1 - r * (1 / ((nz : ℝ) - 1)) := by
  have hz2 : (2 : ℝ) ≤ nz := by exact_mod_cast hz
  have : (r : ℝ) < nz - 1 := by
    have : ((r + 2 : ℕ) : ℝ) ≤ nz := by exact_mod_cast (by omega : r + 2 ≤ nz)
    push_cast at this; linarith
  rw [mul_one_div, sub_pos, div_lt_one (by linarith)]
  exact this

/-- C141, cone: the vertices are different points of the cone over the unit circle with the tip `(0,0,1)`, the first ring is at height 0 and the last vertex is the tip, and all triangles face outwards -/
theorem C141_cone (nx nz : ℕ) (hx : 3 ≤ nx) (hz : 2 ≤ nz) : ∃ F, coneF nx nz = some F ∧ (∀ v ∈ coneV nx nz, OnCone v) ∧ (coneV nx nz).Nodup ∧
    (∀ k < nx, ∃ v, (coneV nx nz)[k]? = some v ∧ v.z = 0) ∧ (coneV nx nz)[nx * (nz - 1)]? = some ⟨0, 0, 1⟩ ∧ (coneV nx nz).length = nx * (nz - 1) + 1 ∧ TrisPointOut (coneV nx nz) F outCone := by
  have hd := unit_spacing hz
  have hs := sin_step hx
  have hz2 : (2 : ℝ) ≤ nz := by exact_mod_cast hz
  refine ⟨_, coneF_eq hx hz, ?_, ?_, ?_, coneV_tip nx nz, ?_, ?_⟩
  · intro v hv
    unfold coneV at hv
    rw [List.mem_append] at hv
    rcases hv with hv | hv
    · simp only [List.mem_flatMap, List.mem_map, List.mem_range] at hv
      obtain ⟨r, hr, c, hc, rfl⟩ := hv
      have hp := ring_radius hz hr
      refine ⟨?_, ?_, ?_⟩
      · simp only [linspace_unit]
        exact cone_radius _ _ hp.le
      · simp only [linspace_unit]; positivity
      · simp only [linspace_unit]; linarith
    · rw [List.mem_singleton] at hv
      subst hv
      simp [OnCone]
  · unfold coneV
    rw [List.nodup_append]
    refine ⟨grid_nodup (nz - 1) nx _ (fun r hr c hc r' hr' c' hc' e => ?_), by simp, ?_⟩
    · rw [V3.mk.injEq] at e
      obtain ⟨e1, e2, e3⟩ := e
      have hp := ring_radius hz hr
      rw [← e3] at e1 e2
      rw [linspace_unit] at e1 e2
      refine ⟨?_, angle_inj hc hc' (mul_right_cancel₀ hp.ne' e1) (mul_right_cancel₀ hp.ne' e2)⟩
      rw [linspace_unit, linspace_unit] at e3
      have := mul_right_cancel₀ hd.ne' e3
      exact_mod_cast this
    · intro v hv w hw e
      rw [List.mem_singleton] at hw
      rw [e, hw] at hv
      simp only [List.mem_flatMap, List.mem_map, List.mem_range] at hv
      obtain ⟨r, hr, c, hc, e⟩ := hv
      have hp := ring_radius hz hr
      rw [V3.mk.injEq, linspace_unit] at e
      linarith [e.2.2]
  · intro k hk
    have h0 := coneV_get (nx := nx) (nz := nz) (r := 0) (c := k) (by omega) (by omega) (by omega)
    rw [gix_open (by omega) hk, Nat.zero_mul, Nat.zero_add] at h0
    exact ⟨_, h0, by simp⟩
  · unfold coneV
    simp [List.length_flatMap, mul_comm]
  · intro t ht
    rw [List.mem_append] at ht
    rcases ht with ht | ht
    · obtain ⟨r, c, hr, hc, rfl | rfl⟩ := mem_gF ht
      · refine ⟨_, _, _, coneV_get (by omega) (by omega) (by omega), coneV_get (by omega) (by omega) (by omega), coneV_get (by omega) (by omega) (by omega), ⟨_, _, by rw [cone_radius _ _ (ring_radius hz (by omega)).le]; exact ring_radius hz (by omega), rfl, rfl⟩, ?_⟩
        have p := ring_radius hz (r := r) (by omega)
        have p' := ring_radius hz (r := r + 1) (by omega)
        rintro n ⟨ρ, -, h2, rfl⟩
        simp only at h2
        rw [cone_radius _ _ p.le] at h2
        subst h2
        simp only [V3.dot, V3.cross, V3.sub_x, V3.sub_y, V3.sub_z]
        rw [mul_div_cancel_right₀ _ p.ne', mul_div_cancel_right₀ _ p.ne']
        push_cast at p' ⊢
        rw [add_mul (c : ℝ) 1 (stepA nx), one_mul, Real.cos_add, Real.sin_add]
        have f := Real.sin_sq_add_cos_sq (c * stepA nx)
        have e := mul_pos (mul_pos (mul_pos two_pos p') hs) hd
        refine lt_of_lt_of_eq e ?_
        linear_combination (-(2 * (1 - ((r : ℝ) + 1) * (1 / ((nz : ℝ) - 1))) * Real.sin (stepA nx) * (1 / ((nz : ℝ) - 1)))) * f
      · refine ⟨_, _, _, coneV_get (by omega) (by omega) (by omega), coneV_get (by omega) (by omega) (by omega), coneV_get (by omega) (by omega) (by omega), ⟨_, _, by rw [cone_radius _ _ (ring_radius hz (by omega)).le]; exact ring_radius hz (by omega), rfl, rfl⟩, ?_⟩
        have p := ring_radius hz (r := r) (by omega)
        rintro n ⟨ρ, -, h2, rfl⟩
        simp only at h2
        rw [cone_radius _ _ p.le] at h2
        subst h2
        simp only [V3.dot, V3.cross, V3.sub_x, V3.sub_y, V3.sub_z]
        rw [mul_div_cancel_right₀ _ p.ne', mul_div_cancel_right₀ _ p.ne']
        push_cast
        rw [add_mul (c : ℝ) 1 (stepA nx), one_mul, Real.cos_add, Real.sin_add]
        have f := Real.sin_sq_add_cos_sq (c * stepA nx)
        have e := mul_pos (mul_pos (mul_pos two_pos p) hs) hd
        refine lt_of_lt_of_eq e ?_
        linear_combination (-(2 * (1 - (r : ℝ) * (1 / ((nz : ℝ) - 1))) * Real.sin (stepA nx) * (1 / ((nz : ℝ) - 1)))) * f
    · simp only [List.mem_map, List.mem_range] at ht
      obtain ⟨c, hc, rfl⟩ := ht
      refine ⟨_, _, _, coneV_get (by omega) (by omega) (by omega), coneV_get (by omega) (by omega) (by omega), coneV_tip nx nz, ⟨_, _, by rw [cone_radius _ _ (ring_radius hz (by omega)).le]; exact ring_radius hz (by omega), rfl, rfl⟩, ?_⟩
      have p := ring_radius hz (r := nz - 1 - 1) (by omega)
      generalize ((nz - 1 - 1 : ℕ) : ℝ) * (1 / ((nz : ℝ) - 1)) = z at p
      rintro n ⟨ρ, -, h2, rfl⟩
      simp only at h2
      rw [cone_radius _ _ p.le] at h2
      subst h2
      simp only [V3.dot, V3.cross, V3.sub_x, V3.sub_y, V3.sub_z]
      rw [mul_div_cancel_right₀ _ p.ne', mul_div_cancel_right₀ _ p.ne']
      push_cast
      rw [add_mul (c : ℝ) 1 (stepA nx), one_mul, Real.cos_add, Real.sin_add]
      have f := Real.sin_sq_add_cos_sq (c * stepA nx)
      have e := mul_pos (mul_pos two_pos (mul_pos p p)) hs
      refine lt_of_lt_of_eq e ?_
      linear_combination (-(2 * ((1 - z) * (1 - z)) * Real.sin (stepA nx))) * f

/-- the direction is not vacuous: away from the tip there is an outward normal -/
example : outCone ⟨1, 0, 0⟩ ⟨1, 0, 1⟩ := ⟨1, one_pos, by simp, by simp⟩

end Gpy
