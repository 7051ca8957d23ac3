import Verif.Model.SweptPath
import Verif.Props.CatmullRom
import Verif.Props.Rotation
import Mathlib.Analysis.SpecialFunctions.Trigonometric.Deriv
import Mathlib.Analysis.Matrix.Normed
import Mathlib.Analysis.Calculus.Deriv.Inv
import Mathlib.Tactic.LinearCombination

/-!
# C114: the motion of the mesh in `swept_volume`
-/

set_option autoImplicit false
namespace Gpy.Swept
open Quaternion Matrix Set

/-! ### Position -/

theorem cget_nat {α : Type} {l : List α} {k : ℕ} (h : k < l.length) (z : α) : cget? l (k : ℤ) = some (l.getD k z) := by
  unfold cget?
  rw [if_pos (Int.natCast_nonneg k), Int.toNat_natCast, getD_of_lt h z]

theorem tangentAt_eq (X : List (Pt 3)) (k : ℕ) (hk : k < X.length) (hX : 2 ≤ X.length) : tangentAt X k = some (knotTangent X k) := by
  unfold tangentAt knotTangent
  by_cases h0 : k = 0
  · rw [if_pos h0, if_pos h0, getD_of_lt (by omega : 1 < X.length) 0, getD_of_lt (by omega : 0 < X.length) 0]
    simp
  · rw [if_neg h0, if_neg h0]
    by_cases h1 : k = X.length - 1
    · rw [if_pos h1, if_pos h1, getD_of_lt (by omega : X.length - 1 < X.length) 0, getD_of_lt (by omega : X.length - 2 < X.length) 0, h1]
      simp [show X.length - 1 - 1 = X.length - 2 by omega]
    · rw [if_neg h1, if_neg h1, getD_of_lt (by omega : k + 1 < X.length) 0, getD_of_lt (by omega : k - 1 < X.length) 0]
      simp

theorem position_eq (X : List (Pt 3)) (k : ℕ) (hk : k + 2 ≤ X.length) (t : ℝ) (hb : segOf X.length t = (k : ℤ)) :
    position X t = some (segment X k t, segment' X k t) := by
  set n := X.length with hn
  have hn1 : (0 : ℝ) < (n : ℝ) - 1 := by
    have : (2 : ℝ) ≤ n := by exact_mod_cast (by omega : 2 ≤ n)
    linarith
  have hlen : (linspace01 n).length = n := by simp [linspace01]
  have hlin : ∀ j < n, (linspace01 n).getD j 0 = (j : ℝ) / ((n : ℝ) - 1) := by
    intro j hj
    rw [List.getD_eq_getElem?_getD, linspace01, List.getElem?_map, List.getElem?_range hj]; rfl
  unfold position
  simp only [← hn, hb]
  have e1 : (linspace01 n)[1]? = some ((1 : ℝ) / ((n : ℝ) - 1)) := by
    rw [getD_of_lt (by rw [hlen]; omega) 0, hlin 1 (by omega)]; simp
  have e2 : cget? (linspace01 n) (k : ℤ) = some ((k : ℝ) / ((n : ℝ) - 1)) := by
    rw [cget_nat (by rw [hlen]; omega) 0, hlin k (by omega)]
  have e3 : cget? X (k : ℤ) = some (X.getD k 0) := cget_nat (by omega) 0
  have hk1 : (k : ℤ) + 1 = ((k + 1 : ℕ) : ℤ) := by push_cast; ring
  have e4 : cget? X ((k : ℤ) + 1) = some (X.getD (k + 1) 0) := by
    rw [hk1]; exact cget_nat (by omega) 0
  have g0 : (0 : ℤ) ≤ (k : ℤ) := by omega
  have g1 : (0 : ℤ) ≤ (k : ℤ) + 1 := by omega
  have e5 : tangentAt X ((k : ℤ) + 1).toNat = some (knotTangent X (k + 1)) := by rw [hk1, Int.toNat_natCast]; exact tangentAt_eq X (k + 1) (by omega) (by omega)
  have htt : (t - (k : ℝ) / ((n : ℝ) - 1)) / (1 / ((n : ℝ) - 1)) = t * ((n : ℝ) - 1) - k := by field_simp
  simp only [Option.bind_eq_bind, e1, e2, e3, e4, e5, if_pos g0, if_pos g1, Int.toNat_natCast, tangentAt_eq X k (by omega) (by omega), Option.bind_some, htt]
  unfold segment segment' hermite hermite'
  rw [← hn]
  congr 2
  rw [one_div_one_div]

/-- For at least two keyframes and times in `[0,1]` no index is out of range; the mesh moves along a continuously differentiable curve, the one of `catmull_rom_spline`, through the translation of keyframe `k` at
time `k/(n-1)`; and the velocity is the derivative of the position. -/
theorem C114_position (X : List (Pt 3)) (hX : 2 ≤ X.length) :
    ∃ γ γ' : ℝ → Pt 3, (∀ t ∈ Icc (0 : ℝ) 1, position X t = some (γ t, γ' t) ∧ catmullRomAt X t = some (γ t)) ∧
      (∀ (k : ℕ) (p : Pt 3), X[k]? = some p → γ ((k : ℝ) / ((X.length : ℝ) - 1)) = p) ∧
      (∀ t ∈ Icc (0 : ℝ) 1, HasDerivWithinAt γ (γ' t) (Icc 0 1) t) ∧ ContinuousOn γ' (Icc 0 1) := by
  obtain ⟨h1, h2, h3, h4, -⟩ := catmull_explicit X hX
  refine ⟨_, _, fun t ht => ⟨?_, h1 t ht⟩, h2, h3, h4⟩
  obtain ⟨g1, g2⟩ := segIdx_code hX ht.1 ht.2
  refine position_eq X _ g1 t ?_
  unfold segOf
  push_cast at g2
  exact g2

/-- With one keyframe only, an array is accessed out of range. -/
theorem C114_one_keyframe_violated (x : Pt 3) (t : ℝ) : position [x] t = none := rfl

/-! ### Quaternions -/

/-- `q` is a unit quaternion -/
def Unit4 (q : ℍ[ℝ]) : Prop := q.re ^ 2 + q.imI ^ 2 + q.imJ ^ 2 + q.imK ^ 2 = 1

theorem toRot_isRotation (q : ℍ[ℝ]) (hq : Unit4 q) : IsRotation (toRot q) := by
  obtain ⟨w, x, y, z⟩ := q
  unfold Unit4 at hq
  dsimp only at hq
  unfold IsRotation toRot
  constructor
  · ext i j
    fin_cases i <;> fin_cases j <;> simp [Matrix.mul_apply, Fin.sum_univ_three]
    all_goals first
      | linear_combination (4 * (y^2 + z^2)) * hq
      | linear_combination (4 * (x^2 + z^2)) * hq
      | linear_combination (4 * (x^2 + y^2)) * hq
      | linear_combination (-4 * x * y) * hq
      | linear_combination (-4 * x * z) * hq
      | linear_combination (-4 * y * z) * hq
  · rw [Matrix.det_fin_three]
    simp
    linear_combination (4 * (x^2 + y^2 + z^2)) * hq

theorem toRot_neg (q : ℍ[ℝ]) : toRot (-q) = toRot q := by
  unfold toRot; ext i j; fin_cases i <;> fin_cases j <;> simp

/-- the second quaternion, or its negative, in the half space of the first -/
noncomputable def near (q0 q1 : ℍ[ℝ]) : ℍ[ℝ] := open Classical in if qdot q0 q1 < 0 then -q1 else q1

theorem qdot_near (q0 q1 : ℍ[ℝ]) : qdot q0 (near q0 q1) = |qdot q0 q1| := by
  unfold near
  split
  · rename_i h
    rw [abs_of_neg h]; unfold qdot; simp; ring
  · rename_i h
    rw [abs_of_nonneg (not_lt.mp h)]

theorem unit_near {q0 q1 : ℍ[ℝ]} (h : Unit4 q1) : Unit4 (near q0 q1) := by
  unfold near Unit4 at *
  split
  · simpa using h
  · exact h

theorem toRot_near (q0 q1 : ℍ[ℝ]) : toRot (near q0 q1) = toRot q1 := by
  unfold near
  split
  · exact toRot_neg q1
  · rfl

/-- the two weights of `slerp` -/
noncomputable def wt0 (ε d t : ℝ) : ℝ := open Classical in if 1 - ε ≤ d then 1 - t else Real.sin ((1 - t) * Real.arccos d) / Real.sin (Real.arccos d)
noncomputable def wt1 (ε d t : ℝ) : ℝ := open Classical in if 1 - ε ≤ d then t else Real.sin (t * Real.arccos d) / Real.sin (Real.arccos d)

theorem slerp_eq (ε : ℝ) (q0 q1 : ℍ[ℝ]) (t : ℝ) :
    slerp ε q0 q1 t = wt0 ε |qdot q0 q1| t • q0 + wt1 ε |qdot q0 q1| t • near q0 q1 := by
  unfold slerp near
  dsimp only
  congr 1
  split
  · rw [smul_neg, neg_smul]; rfl
  · rfl

theorem sin_arccos_pos {d : ℝ} (h0 : 0 ≤ d) (h1 : d < 1) : 0 < Real.sin (Real.arccos d) := by
  rw [Real.sin_arccos]
  exact Real.sqrt_pos.mpr (by nlinarith)

theorem wt_ends (ε d : ℝ) (hε : 0 ≤ ε) (h0 : 0 ≤ d) : wt0 ε d 0 = 1 ∧ wt1 ε d 0 = 0 ∧ wt0 ε d 1 = 0 ∧ wt1 ε d 1 = 1 := by
  unfold wt0 wt1
  by_cases h : 1 - ε ≤ d
  · simp [h]
  · have := (sin_arccos_pos h0 (by linarith)).ne'
    simp only [if_neg h]
    refine ⟨?_, ?_, ?_, ?_⟩
    · rw [sub_zero, one_mul, div_self this]
    · rw [zero_mul, Real.sin_zero, zero_div]
    · rw [sub_self, zero_mul, Real.sin_zero, zero_div]
    · rw [one_mul, div_self this]

/-- The orientation and the scales of the keyframes are attained at the ends of a segment. -/
theorem C114_keyframes (ε : ℝ) (hε : 0 ≤ ε) (q0 q1 : ℍ[ℝ]) (s0 s1 : Pt 3) :
    orient ε q0 q1 s0 s1 0 = toRot q0 * Matrix.diagonal s0 ∧ orient ε q0 q1 s0 s1 1 = toRot q1 * Matrix.diagonal s1 := by
  obtain ⟨h1, h2, h3, h4⟩ := wt_ends ε |qdot q0 q1| hε (abs_nonneg _)
  unfold orient
  rw [slerp_eq, slerp_eq, h1, h2, h3, h4]
  constructor
  · congr 2
    · rw [one_smul, zero_smul, add_zero]
    · unfold scaleAt; rw [sub_zero, one_smul]; abel
  · rw [one_smul, zero_smul, zero_add, toRot_near]
    unfold scaleAt; rw [sub_self, zero_smul, add_zero]

theorem qdot_le_one {p q : ℍ[ℝ]} (hp : Unit4 p) (hq : Unit4 q) : |qdot p q| ≤ 1 := by
  unfold Unit4 qdot at *
  rw [abs_le]
  constructor <;> nlinarith [sq_nonneg (p.re - q.re), sq_nonneg (p.imI - q.imI), sq_nonneg (p.imJ - q.imJ), sq_nonneg (p.imK - q.imK), sq_nonneg (p.re + q.re), sq_nonneg (p.imI + q.imI), sq_nonneg (p.imJ + q.imJ), sq_nonneg (p.imK + q.imK)]

/-- trigonometry of the weights -/
theorem wt_trig (ε d t : ℝ) (h : d < 1 - ε) : wt0 ε d t = Real.sin ((1 - t) * Real.arccos d) / Real.sin (Real.arccos d) ∧ wt1 ε d t = Real.sin (t * Real.arccos d) / Real.sin (Real.arccos d) := by
  unfold wt0 wt1
  rw [if_neg (by linarith), if_neg (by linarith)]
  exact ⟨rfl, rfl⟩

theorem slerp_unit (ε : ℝ) (hε : 0 ≤ ε) (q0 q1 : ℍ[ℝ]) (h0 : Unit4 q0) (h1 : Unit4 q1) (hd : |qdot q0 q1| < 1 - ε) (t : ℝ) : Unit4 (slerp ε q0 q1 t) := by
  have hn : Unit4 (near q0 q1) := unit_near h1
  have hdot := qdot_near q0 q1
  rw [slerp_eq, (wt_trig ε _ t hd).1, (wt_trig ε _ t hd).2]
  have hs := sin_arccos_pos (abs_nonneg (qdot q0 q1)) (by linarith : |qdot q0 q1| < 1)
  have hc : Real.cos (Real.arccos |qdot q0 q1|) = |qdot q0 q1| := Real.cos_arccos (by linarith [abs_nonneg (qdot q0 q1)]) (by linarith)
  rw [← hc] at hdot
  set θ := Real.arccos |qdot q0 q1| with hθ
  have e1 : Real.sin ((1 - t) * θ) = Real.sin θ * Real.cos (t * θ) - Real.cos θ * Real.sin (t * θ) := by
    rw [show (1 - t) * θ = θ - t * θ by ring, Real.sin_sub]
  rw [e1]
  clear_value θ
  generalize near q0 q1 = p at hn hdot
  have g1 := Real.sin_sq_add_cos_sq θ
  have g2 := Real.sin_sq_add_cos_sq (t * θ)
  generalize Real.sin (t * θ) = S at *
  generalize Real.cos (t * θ) = C at *
  generalize Real.sin θ = s at *
  generalize Real.cos θ = c at *
  unfold Unit4 qdot at *
  simp only [Quaternion.re_add, Quaternion.imI_add, Quaternion.imJ_add, Quaternion.imK_add, Quaternion.re_smul, Quaternion.imI_smul, Quaternion.imJ_smul, Quaternion.imK_smul, smul_eq_mul]
  have hs' := hs.ne'
  have key : (s * C - c * S) ^ 2 + S ^ 2 + 2 * (s * C - c * S) * S * c = s ^ 2 := by
    linear_combination (s ^ 2) * g2 - (S ^ 2) * g1
  have : (((s * C - c * S) / s * q0.re + S / s * p.re) ^ 2 + ((s * C - c * S) / s * q0.imI + S / s * p.imI) ^ 2 + ((s * C - c * S) / s * q0.imJ + S / s * p.imJ) ^ 2 + ((s * C - c * S) / s * q0.imK + S / s * p.imK) ^ 2) * s ^ 2 = s ^ 2 := by
    field_simp
    linear_combination (s * C - c * S) ^ 2 * h0 + S ^ 2 * hn + 2 * (s * C - c * S) * S * hdot + key
  exact mul_right_cancel₀ (pow_ne_zero 2 hs') (by rw [this, one_mul])

/-- Between keyframes that are not nearly parallel the orientation is a rotation at all times. -/
theorem C114_rotation (ε : ℝ) (hε : 0 ≤ ε) (q0 q1 : ℍ[ℝ]) (h0 : Unit4 q0) (h1 : Unit4 q1) (hd : |qdot q0 q1| < 1 - ε) (t : ℝ) : IsRotation (toRot (slerp ε q0 q1 t)) :=
  toRot_isRotation _ (slerp_unit ε hε q0 q1 h0 h1 hd t)

/-! ### Velocities -/

theorem logq_unit (p : ℍ[ℝ]) (hp : Unit4 p) (hθ : Real.arccos p.re ≠ 0) :
    logq p = (Real.arccos p.re / Real.sin (Real.arccos p.re)) • p.im := by
  have hn : ‖p‖ = 1 := by
    have h : ‖p‖ * ‖p‖ = 1 := by
      rw [← Quaternion.normSq_eq_norm_mul_self, Quaternion.normSq_def']
      exact hp
    nlinarith [norm_nonneg p]
  unfold logq
  dsimp only
  rw [hn, div_one, if_neg hθ, Real.log_one, Quaternion.coe_zero, zero_add]
  congr 1
  rw [div_one, one_div_div]

theorem key_alg (θ s c S C a b R : ℝ) (g1 : s ^ 2 + c ^ 2 = 1) (hs : s ≠ 0) (h : s ^ 2 * R = θ * ((s * C - c * S) * (b - c * a) + S * (c * b - a))) :
    -(θ * (c * C + s * S)) / s * a + θ * C / s * b = R := by
  have : s ^ 2 * (-(θ * (c * C + s * S)) / s * a + θ * C / s * b) = s ^ 2 * R := by
    rw [h]
    have e : s ^ 2 * (-(θ * (c * C + s * S)) / s * a + θ * C / s * b) = s * (-(θ * (c * C + s * S)) * a + θ * C * b) := by field_simp
    rw [e]
    linear_combination (-a * θ * S) * g1
  exact mul_left_cancel₀ (pow_ne_zero 2 hs) this

/-- the quaternion of the orientation has the velocity that the code uses -/
theorem slerp_deriv (ε : ℝ) (hε : 0 ≤ ε) (q0 q1 : ℍ[ℝ]) (h0 : Unit4 q0) (h1 : Unit4 q1) (hd : |qdot q0 q1| < 1 - ε) (t : ℝ) :
    HasDerivAt (fun t => (slerp ε q0 q1 t).re) (qvel ε q0 q1 t).re t ∧ HasDerivAt (fun t => (slerp ε q0 q1 t).imI) (qvel ε q0 q1 t).imI t ∧
      HasDerivAt (fun t => (slerp ε q0 q1 t).imJ) (qvel ε q0 q1 t).imJ t ∧ HasDerivAt (fun t => (slerp ε q0 q1 t).imK) (qvel ε q0 q1 t).imK t := by
  have hn : Unit4 (near q0 q1) := unit_near h1
  have hdot := qdot_near q0 q1
  have hs := sin_arccos_pos (abs_nonneg (qdot q0 q1)) (by linarith : |qdot q0 q1| < 1)
  have hc : Real.cos (Real.arccos |qdot q0 q1|) = |qdot q0 q1| := Real.cos_arccos (by linarith [abs_nonneg (qdot q0 q1)]) (by linarith)
  have hre : (star q0 * near q0 q1).re = |qdot q0 q1| := by
    rw [← hdot]; unfold qdot; simp [Quaternion.re_mul]
  have hup : Unit4 (star q0 * near q0 q1) := by
    unfold Unit4 at *
    simp only [Quaternion.re_mul, Quaternion.imI_mul, Quaternion.imJ_mul, Quaternion.imK_mul, Quaternion.re_star, Quaternion.imI_star, Quaternion.imJ_star, Quaternion.imK_star]
    linear_combination (q0.re ^ 2 + q0.imI ^ 2 + q0.imJ ^ 2 + q0.imK ^ 2) * hn + h0
  have hne : Real.arccos (star q0 * near q0 q1).re ≠ 0 := by
    rw [hre]; intro h; rw [h, Real.sin_zero] at hs; exact lt_irrefl _ hs
  have hv : qvel ε q0 q1 t = slerp ε q0 q1 t * logq (star q0 * near q0 q1) := rfl
  rw [hv, logq_unit _ hup hne, hre]
  rw [← hc] at hdot
  have hsl : ∀ t, slerp ε q0 q1 t = (Real.sin ((1 - t) * Real.arccos |qdot q0 q1|) / Real.sin (Real.arccos |qdot q0 q1|)) • q0 +
      (Real.sin (t * Real.arccos |qdot q0 q1|) / Real.sin (Real.arccos |qdot q0 q1|)) • near q0 q1 := fun t => by
    rw [slerp_eq, (wt_trig ε _ t hd).1, (wt_trig ε _ t hd).2]
  simp only [hsl]
  clear hsl hv hne hup hre
  generalize near q0 q1 = p at hn hdot
  generalize Real.arccos |qdot q0 q1| = θ at *
  have d0 : HasDerivAt (fun t : ℝ => Real.sin ((1 - t) * θ) / Real.sin θ) (-(θ * Real.cos ((1 - t) * θ)) / Real.sin θ) t := by
    have := ((((hasDerivAt_id t).const_sub 1).mul_const θ).sin).div_const (Real.sin θ)
    refine this.congr_deriv ?_
    simp only [id]; ring
  have d1 : HasDerivAt (fun t : ℝ => Real.sin (t * θ) / Real.sin θ) (θ * Real.cos (t * θ) / Real.sin θ) t := by
    have := (((hasDerivAt_id t).mul_const θ).sin).div_const (Real.sin θ)
    refine this.congr_deriv ?_
    simp only [id]; ring
  have e1 : Real.sin ((1 - t) * θ) = Real.sin θ * Real.cos (t * θ) - Real.cos θ * Real.sin (t * θ) := by
    rw [show (1 - t) * θ = θ - t * θ by ring, Real.sin_sub]
  have e2 : Real.cos ((1 - t) * θ) = Real.cos θ * Real.cos (t * θ) + Real.sin θ * Real.sin (t * θ) := by
    rw [show (1 - t) * θ = θ - t * θ by ring, Real.cos_sub]
  rw [e2] at d0
  have g1 := Real.sin_sq_add_cos_sq θ
  have hs' := hs.ne'
  simp only [Quaternion.re_add, Quaternion.imI_add, Quaternion.imJ_add, Quaternion.imK_add, Quaternion.re_smul, Quaternion.imI_smul, Quaternion.imJ_smul, Quaternion.imK_smul, smul_eq_mul, Quaternion.re_mul,
    Quaternion.imI_mul, Quaternion.imJ_mul, Quaternion.imK_mul, Quaternion.re_star, Quaternion.imI_star, Quaternion.imJ_star, Quaternion.imK_star, Quaternion.re_im, Quaternion.imI_im, Quaternion.imJ_im, Quaternion.imK_im]
  rw [e1]
  unfold Unit4 qdot at *
  generalize Real.cos (t * θ) = C at *
  generalize Real.sin (t * θ) = S at *
  generalize Real.sin θ = s at *
  generalize Real.cos θ = c at *
  have hf : ∀ x y u : ℝ, s ^ 2 * (((s * C - c * S) / s * x + S / s * y) * (θ / s * u)) = θ * ((s * C - c * S) * (x * u) + S * (y * u)) := by
    intro x y u; field_simp
  refine ⟨?_, ?_, ?_, ?_⟩
  · refine ((d0.mul_const _).add (d1.mul_const _)).congr_deriv (key_alg θ s c S C _ _ _ g1 hs' ?_)
    linear_combination hf q0.re p.re 0 - hf q0.imI p.imI (q0.re * p.imI + -q0.imI * p.re + -q0.imJ * p.imK - -q0.imK * p.imJ) - hf q0.imJ p.imJ (q0.re * p.imJ - -q0.imI * p.imK + -q0.imJ * p.re + -q0.imK * p.imI) - hf q0.imK p.imK (q0.re * p.imK + -q0.imI * p.imJ - -q0.imJ * p.imI + -q0.imK * p.re) + θ * (s * C - c * S) * (p.re * h0 - q0.re * hdot) + θ * S * (-q0.re * hn + p.re * hdot)
  · refine ((d0.mul_const _).add (d1.mul_const _)).congr_deriv (key_alg θ s c S C _ _ _ g1 hs' ?_)
    linear_combination hf q0.re p.re (q0.re * p.imI + -q0.imI * p.re + -q0.imJ * p.imK - -q0.imK * p.imJ) + hf q0.imI p.imI 0 + hf q0.imJ p.imJ (q0.re * p.imK + -q0.imI * p.imJ - -q0.imJ * p.imI + -q0.imK * p.re) - hf q0.imK p.imK (q0.re * p.imJ - -q0.imI * p.imK + -q0.imJ * p.re + -q0.imK * p.imI) + θ * (s * C - c * S) * (p.imI * h0 - q0.imI * hdot) + θ * S * (-q0.imI * hn + p.imI * hdot)
  · refine ((d0.mul_const _).add (d1.mul_const _)).congr_deriv (key_alg θ s c S C _ _ _ g1 hs' ?_)
    linear_combination hf q0.re p.re (q0.re * p.imJ - -q0.imI * p.imK + -q0.imJ * p.re + -q0.imK * p.imI) - hf q0.imI p.imI (q0.re * p.imK + -q0.imI * p.imJ - -q0.imJ * p.imI + -q0.imK * p.re) + hf q0.imJ p.imJ 0 + hf q0.imK p.imK (q0.re * p.imI + -q0.imI * p.re + -q0.imJ * p.imK - -q0.imK * p.imJ) + θ * (s * C - c * S) * (p.imJ * h0 - q0.imJ * hdot) + θ * S * (-q0.imJ * hn + p.imJ * hdot)
  · refine ((d0.mul_const _).add (d1.mul_const _)).congr_deriv (key_alg θ s c S C _ _ _ g1 hs' ?_)
    linear_combination hf q0.re p.re (q0.re * p.imK + -q0.imI * p.imJ - -q0.imJ * p.imI + -q0.imK * p.re) + hf q0.imI p.imI (q0.re * p.imJ - -q0.imI * p.imK + -q0.imJ * p.re + -q0.imK * p.imI) - hf q0.imJ p.imJ (q0.re * p.imI + -q0.imI * p.re + -q0.imJ * p.imK - -q0.imK * p.imJ) + hf q0.imK p.imK 0 + θ * (s * C - c * S) * (p.imK * h0 - q0.imK * hdot) + θ * S * (-q0.imK * hn + p.imK * hdot)

/-- entries of the rotation matrix of a moving quaternion -/
theorem toRot_deriv (q : ℝ → ℍ[ℝ]) (v : ℍ[ℝ]) (t : ℝ) (h0 : HasDerivAt (fun t => (q t).re) v.re t) (h1 : HasDerivAt (fun t => (q t).imI) v.imI t)
    (h2 : HasDerivAt (fun t => (q t).imJ) v.imJ t) (h3 : HasDerivAt (fun t => (q t).imK) v.imK t) (i j : Fin 3) :
    HasDerivAt (fun t => toRot (q t) i j) ((v.re • dRr (q t) + v.imI • dRi (q t) + v.imJ • dRj (q t) + v.imK • dRk (q t)) i j) t := by
  unfold toRot dRr dRi dRj dRk
  fin_cases i <;> fin_cases j
  · refine (((((h2.pow 2).add (h3.pow 2)).const_mul 2).const_sub 1)).congr_deriv ?_
    simp; ring
  · refine (((h1.mul h2).sub (h0.mul h3)).const_mul 2).congr_deriv ?_
    simp; ring
  · refine (((h1.mul h3).add (h0.mul h2)).const_mul 2).congr_deriv ?_
    simp; ring
  · refine (((h1.mul h2).add (h0.mul h3)).const_mul 2).congr_deriv ?_
    simp; ring
  · refine (((((h1.pow 2).add (h3.pow 2)).const_mul 2).const_sub 1)).congr_deriv ?_
    simp; ring
  · refine (((h2.mul h3).sub (h0.mul h1)).const_mul 2).congr_deriv ?_
    simp; ring
  · refine (((h1.mul h3).sub (h0.mul h2)).const_mul 2).congr_deriv ?_
    simp; ring
  · refine (((h2.mul h3).add (h0.mul h1)).const_mul 2).congr_deriv ?_
    simp; ring
  · refine (((((h1.pow 2).add (h2.pow 2)).const_mul 2).const_sub 1)).congr_deriv ?_
    simp; ring

/-- keyframes with the same orientation: the orientation stays and the velocity is zero -/
theorem slerp_same (ε : ℝ) (hε : 0 ≤ ε) (q0 q1 : ℍ[ℝ]) (h0 : Unit4 q0) (h : q1 = q0 ∨ q1 = -q0) (t : ℝ) : slerp ε q0 q1 t = q0 ∧ qvel ε q0 q1 t = 0 := by
  have hq : qdot q0 q0 = 1 := by unfold qdot Unit4 at *; linarith [h0]
  have hn : near q0 q1 = q0 ∧ |qdot q0 q1| = 1 := by
    rcases h with rfl | rfl
    · unfold near; rw [if_neg (by rw [hq]; norm_num), hq]; simp
    · have : qdot q0 (-q0) = -1 := by
        rw [← hq]; unfold qdot; simp; ring
      unfold near; rw [this]; norm_num
  have hs : slerp ε q0 q1 t = q0 := by
    rw [slerp_eq, hn.1, hn.2]
    unfold wt0 wt1
    rw [if_pos (by linarith), if_pos (by linarith), ← add_smul, sub_add_cancel, one_smul]
  refine ⟨hs, ?_⟩
  have hv : qvel ε q0 q1 t = slerp ε q0 q1 t * logq (star q0 * near q0 q1) := rfl
  have hone : star q0 * q0 = 1 := by
    rw [Quaternion.star_mul_self, Quaternion.normSq_def']
    rw [show q0.re ^ 2 + q0.imI ^ 2 + q0.imJ ^ 2 + q0.imK ^ 2 = 1 from h0]; rfl
  rw [hv, hn.1, hone]
  unfold logq
  simp

/-- With equal scales at both keyframes of a segment, and orientations that are equal or not nearly equal, the matrix `VRt` that the code computes is the derivative of the matrix `Rt` with respect to time. -/
theorem C114_velocity (ε τ tb : ℝ) (hε : 0 ≤ ε) (q0 q1 : ℍ[ℝ]) (h0 : Unit4 q0) (h1 : Unit4 q1) (s : Pt 3) (hd : |qdot q0 q1| < 1 - ε ∨ q1 = q0 ∨ q1 = -q0) (t : ℝ) (i j : Fin 3) :
    HasDerivAt (fun t => orient ε q0 q1 s s ((t - tb) / τ) i j) (orientVel ε τ q0 q1 s s ((t - tb) / τ) i j) t := by
  have hsc : ∀ x, scaleAt s s x = s := by intro x; unfold scaleAt; rw [sub_self, smul_zero, add_zero]
  unfold orient orientVel orient
  have hz : Matrix.diagonal ((1 / τ) • (s - s)) = (0 : Matrix (Fin 3) (Fin 3) ℝ) := by rw [sub_self, smul_zero]; exact Matrix.diagonal_zero
  simp only [hsc, hz, mul_zero, add_zero, Matrix.mul_diagonal]
  have hin : HasDerivAt (fun t : ℝ => (t - tb) / τ) (1 / τ) t := by
    simpa using ((hasDerivAt_id t).sub_const tb).div_const τ
  have key : HasDerivAt (fun t => toRot (slerp ε q0 q1 t) i j) (((qvel ε q0 q1 ((t - tb) / τ)).re • dRr (slerp ε q0 q1 ((t - tb) / τ)) + (qvel ε q0 q1 ((t - tb) / τ)).imI • dRi (slerp ε q0 q1 ((t - tb) / τ)) +
      (qvel ε q0 q1 ((t - tb) / τ)).imJ • dRj (slerp ε q0 q1 ((t - tb) / τ)) + (qvel ε q0 q1 ((t - tb) / τ)).imK • dRk (slerp ε q0 q1 ((t - tb) / τ))) i j) ((t - tb) / τ) := by
    rcases hd with hd | hd
    · obtain ⟨g0, g1, g2, g3⟩ := slerp_deriv ε hε q0 q1 h0 h1 hd ((t - tb) / τ)
      exact toRot_deriv _ _ _ g0 g1 g2 g3 i j
    · have hs := fun t => slerp_same ε hε q0 q1 h0 hd t
      simp only [(hs _).1, (hs _).2]
      refine (hasDerivAt_const _ _).congr_deriv ?_
      simp
  refine ((HasDerivAt.comp t key hin).mul_const (s j)).congr_deriv ?_
  rw [Matrix.smul_apply, smul_eq_mul]
  ring

/-- With scales that change within the segment it is not: for a mesh that grows from scale 1 to scale 3 without turning, in one unit of time, the code gives 4 instead of 2 for the growth at half time. -/
theorem C114_scale_velocity_violated (ε : ℝ) (hε : 0 ≤ ε) :
    orientVel ε 1 1 1 (fun _ => 1) (fun _ => 3) (1 / 2) 0 0 = 4 ∧ HasDerivAt (fun t => orient ε 1 1 (fun _ => 1) (fun _ => 3) t 0 0) 2 (1 / 2) := by
  have h1 : Unit4 (1 : ℍ[ℝ]) := by unfold Unit4; simp
  have hs := fun t => slerp_same ε hε 1 1 h1 (Or.inl rfl) t
  have hone : toRot (1 : ℍ[ℝ]) 0 0 = 1 := by unfold toRot; simp
  constructor
  · unfold orientVel orient scaleAt
    simp only [(hs _).1, (hs _).2]
    simp [Matrix.mul_diagonal, hone]
    norm_num
  · unfold orient scaleAt
    simp only [(hs _).1, Matrix.mul_diagonal, hone, Pi.add_apply, Pi.smul_apply, Pi.sub_apply, one_mul, smul_eq_mul]
    have : HasDerivAt (fun t : ℝ => 3 + (1 - t) * (1 - 3)) (0 + (0 - 1) * (1 - 3)) (1 / 2) :=
      (hasDerivAt_const _ _).add (((hasDerivAt_const _ _).sub (hasDerivAt_id _)).mul_const _)
    exact this.congr_deriv (by norm_num)

/-- The velocity of a query point relative to the moving mesh: when the orientation is invertible and `VRt`, `vt` are the derivatives of `Rt`, `xt`, then `point_velocity` is the derivative of `pos`. -/
theorem C114_local_velocity (P : Pt 3) (R : ℝ → Matrix (Fin 3) (Fin 3) ℝ) (VR : Matrix (Fin 3) (Fin 3) ℝ) (x : ℝ → Pt 3) (v : Pt 3) (t : ℝ) (hR : ∀ i j, HasDerivAt (fun t => R t i j) (VR i j) t)
    (hx : ∀ i, HasDerivAt (fun t => x t i) (v i) t) (hdet : (R t).det ≠ 0) (i : Fin 3) :
    HasDerivAt (fun t => localPos P (x t) (R t) i) (localVel P (x t) v (R t) VR i) t := by
  have hdd : DifferentiableAt ℝ (fun t => (R t).det) t := by
    simp only [Matrix.det_fin_three]
    have := fun i j => (hR i j).differentiableAt
    fun_prop (disch := assumption)
  have hev : ∀ᶠ u in nhds t, (R u).det ≠ 0 := hdd.continuousAt.eventually_ne hdet
  have hinv : ∀ i j, DifferentiableAt ℝ (fun t => (R t)⁻¹ i j) t := by
    intro i j
    have h1 : DifferentiableAt ℝ (fun t => (R t).adjugate i j) t := by
      simp only [Matrix.adjugate_fin_three]
      have := fun i j => (hR i j).differentiableAt
      fin_cases i <;> fin_cases j <;> simp <;> fun_prop (disch := assumption)
    have e : (fun t => (R t)⁻¹ i j) = fun t => ((R t).det)⁻¹ * (R t).adjugate i j := by
      funext t
      rw [Matrix.inv_def, Ring.inverse_eq_inv', Matrix.smul_apply, smul_eq_mul]
    rw [e]
    exact (hdd.inv hdet).mul h1
  -- the derivative of the inverse
  set A : Matrix (Fin 3) (Fin 3) ℝ := Matrix.of (fun i j => deriv (fun t => (R t)⁻¹ i j) t) with hA
  have hAd : ∀ i j, HasDerivAt (fun t => (R t)⁻¹ i j) (A i j) t := fun i j => (hinv i j).hasDerivAt
  have hzero : VR * (R t)⁻¹ + R t * A = 0 := by
    ext i j
    have h1 : HasDerivAt (fun u => ∑ k, R u i k * (R u)⁻¹ k j) (∑ k, (VR i k * (R t)⁻¹ k j + R t i k * A k j)) t :=
      HasDerivAt.fun_sum (fun k _ => (hR i k).mul (hAd k j))
    have h2 : (fun u => ∑ k, R u i k * (R u)⁻¹ k j) =ᶠ[nhds t] fun _ => (1 : Matrix (Fin 3) (Fin 3) ℝ) i j := by
      filter_upwards [hev] with u hu
      rw [← Matrix.mul_apply, Matrix.mul_nonsing_inv _ (Ne.isUnit hu)]
    have h3 := (h1.congr_of_eventuallyEq h2.symm).unique (hasDerivAt_const t _)
    rw [Finset.sum_add_distrib] at h3
    exact h3
  have hAe : A = -(R t)⁻¹ * VR * (R t)⁻¹ := by
    have h1 : R t * A = -(VR * (R t)⁻¹) := by
      rw [eq_neg_iff_add_eq_zero, add_comm]; exact hzero
    have h2 : (R t)⁻¹ * (R t * A) = A := by rw [← Matrix.mul_assoc, Matrix.nonsing_inv_mul _ (Ne.isUnit hdet), Matrix.one_mul]
    rw [← h2, h1, Matrix.mul_neg, Matrix.neg_mul, Matrix.neg_mul, Matrix.mul_assoc]
  unfold localPos localVel
  rw [← hAe]
  have : HasDerivAt (fun u => ∑ k, (R u)⁻¹ i k * (P k - x u k)) (∑ k, (A i k * (P k - x t k) + (R t)⁻¹ i k * (0 - v k))) t :=
    HasDerivAt.fun_sum (fun k _ => (hAd i k).mul ((hasDerivAt_const t (P k)).sub (hx k)))
  refine this.congr_deriv ?_
  simp only [Pi.sub_apply, Matrix.mulVec, dotProduct, Finset.sum_add_distrib, zero_add, mul_neg, Finset.sum_neg_distrib, sub_eq_add_neg, Pi.add_apply, Pi.neg_apply]

/-- the hypotheses can be met: a quarter turn about the first axis, at half time -/
example : ∃ q0 q1 : ℍ[ℝ], Unit4 q0 ∧ Unit4 q1 ∧ |qdot q0 q1| < 1 - 1 / 100 ∧ IsRotation (toRot (slerp (1 / 100) q0 q1 (1 / 2))) := by
  refine ⟨⟨1, 0, 0, 0⟩, ⟨0, 1, 0, 0⟩, by unfold Unit4; norm_num, by unfold Unit4; norm_num, by unfold qdot; norm_num, ?_⟩
  exact C114_rotation _ (by norm_num) _ _ (by unfold Unit4; norm_num) (by unfold Unit4; norm_num) (by unfold qdot; norm_num) _

/-- two keyframes -/
example : ∃ γ γ' : ℝ → Pt 3, position [0, ![1, 0, 0]] (1 / 2) = some (γ (1 / 2), γ' (1 / 2)) := by
  obtain ⟨γ, γ', h, -⟩ := C114_position [0, ![1, 0, 0]] (by simp)
  exact ⟨γ, γ', (h _ ⟨by norm_num, by norm_num⟩).1⟩

end Gpy.Swept
