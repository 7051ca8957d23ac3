import Verif.Model.Resolve
import Verif.Proofs.SquaredDistance
import Mathlib.Tactic.LinearCombination

/-!
# Intersections of circles and spheres: proofs
-/

set_option autoImplicit false
namespace Gpy.Arcs
open Classical

variable {d : ℕ}

/-- `x` is on the sphere with centre `c` and radius `r` -/
def On (x c : Pt d) (r : ℝ) : Prop := pnorm (x - c) = r

theorem on_iff {x c : Pt d} {r : ℝ} (hr : 0 ≤ r) : On x c r ↔ psq (x - c) = r ^ 2 := by
  unfold On
  constructor
  · intro h; rw [← h, pnorm_sq]
  · intro h; unfold pnorm; rw [h, Real.sqrt_sq hr]

theorem psq2 (x : Pt 2) : psq x = x 0 ^ 2 + x 1 ^ 2 := by simp [psq]
theorem psq3 (x : Pt 3) : psq x = x 0 ^ 2 + x 1 ^ 2 + x 2 ^ 2 := by simp [psq, Fin.sum_univ_three]
theorem pdot_3 (x y : Pt 3) : pdot x y = x 0 * y 0 + x 1 * y 1 + x 2 * y 2 := by simp [pdot, Fin.sum_univ_three]

theorem psq_pos_of_ne {x : Pt d} (h : x ≠ 0) : 0 < psq x := by
  rcases (psq_nonneg x).lt_or_eq with h1 | h1
  · exact h1
  · exfalso
    apply h
    funext j
    have := (Finset.sum_eq_zero_iff_of_nonneg (fun i _ => sq_nonneg (x i))).mp h1.symm j (Finset.mem_univ j)
    exact pow_eq_zero_iff (two_ne_zero) |>.mp this

theorem pnorm_pos_of {x : Pt d} (h : 0 < psq x) : 0 < pnorm x := Real.sqrt_pos.mpr h

theorem pnorm_eq_zero {x : Pt d} (h : pnorm x = 0) : x = 0 := by
  by_contra hx
  exact absurd h (pnorm_pos_of (psq_pos_of_ne hx)).ne'

theorem normalized_eq {x : Pt d} (h : x ≠ 0) : normalized x = fun j => x j / pnorm x := if_pos (psq_pos_of_ne h)

theorem psq_div (x : Pt d) (t : ℝ) : psq (fun j => x j / t) = psq x / t ^ 2 := by
  unfold psq
  rw [Finset.sum_div]
  exact Finset.sum_congr rfl (fun j _ => div_pow _ _ _)

theorem psq_normalized {x : Pt d} (h : x ≠ 0) : psq (normalized x) = 1 := by
  rw [normalized_eq h, psq_div, pnorm_sq, div_self (psq_pos_of_ne h).ne']

theorem psq_smul (t : ℝ) (x : Pt d) : psq (fun j => t * x j) = t ^ 2 * psq x := by
  unfold psq
  rw [Finset.mul_sum]
  exact Finset.sum_congr rfl (fun j _ => mul_pow _ _ _)

theorem on_add {c u : Pt d} {r : ℝ} (hr : 0 ≤ r) (hu : psq u = 1) : On (fun j => c j + r * u j) c r := by
  rw [on_iff hr]
  have : (fun j => c j + r * u j) - c = fun j => r * u j := by funext j; simp
  rw [this, psq_smul, hu, mul_one]

theorem pnorm_comm (x y : Pt d) : pnorm (x - y) = pnorm (y - x) := by
  unfold pnorm psq
  congr 1
  exact Finset.sum_congr rfl (fun j _ => by simp only [Pi.sub_apply]; ring)

/-! ## two circles -/

theorem circleCircle_on {c1 c2 p1 p2 : Pt 2} {r1 r2 : ℝ} (h1 : 0 ≤ r1) (h2 : 0 ≤ r2) (h : circleCircle c1 r1 c2 r2 = some (some (p1, p2))) :
    On p1 c1 r1 ∧ On p2 c1 r1 ∧ On p1 c2 r2 ∧ On p2 c2 r2 := by
  unfold circleCircle at h
  dsimp only at h
  split at h
  · split at h <;> simp at h
  rename_i hd
  split at h
  · simp at h
  rename_i hdis
  simp only [Option.some.injEq, Prod.mk.injEq] at h
  obtain ⟨e1, e2⟩ := h
  set D := pnorm (c1 - c2) with hD
  set a := (r1 * r1 - r2 * r2 + D * D) / (2 * D) with ha
  have hh : Real.sqrt (r1 * r1 - a * a) ^ 2 = r1 * r1 - a * a := Real.sq_sqrt (by linarith)
  set h := Real.sqrt (r1 * r1 - a * a) with hhdef
  have hDsq : D ^ 2 = (c2 0 - c1 0) ^ 2 + (c2 1 - c1 1) ^ 2 := by
    rw [hD, pnorm_sq, psq2]; simp only [Pi.sub_apply]; ring
  have haD : 2 * a * D = r1 * r1 - r2 * r2 + D * D := by rw [ha]; field_simp
  have hne : (![-(c2 - c1) 1, (c2 - c1) 0] : Pt 2) ≠ 0 := by
    intro h0
    have a0 := congrFun h0 0
    have a1 := congrFun h0 1
    simp at a0 a1
    apply hd
    have : D ^ 2 = 0 := by rw [hDsq, a1]; have : c2 1 - c1 1 = 0 := by linarith
                           rw [this]; ring
    exact pow_eq_zero_iff two_ne_zero |>.mp this
  have hn : pnorm (![-(c2 - c1) 1, (c2 - c1) 0] : Pt 2) = D := by
    rw [hD]; unfold pnorm; rw [psq2, psq2]; congr 1; simp; ring
  have hu : unitOrthogonal (c2 - c1) = ![-(c2 1 - c1 1) / D, (c2 0 - c1 0) / D] := by
    unfold unitOrthogonal
    rw [normalized_eq hne, hn]
    funext j; fin_cases j <;> simp
  rw [hu] at e1 e2
  rw [on_iff h1, on_iff h1, on_iff h2, on_iff h2, psq2, psq2, psq2, psq2, ← e1, ← e2]
  simp only [Pi.sub_apply, Matrix.cons_val_zero, Matrix.cons_val_one]
  set x := c2 0 - c1 0 with hx
  set y := c2 1 - c1 1 with hy
  have hx2 : c2 0 = c1 0 + x := by rw [hx]; ring
  have hy2 : c2 1 = c1 1 + y := by rw [hy]; ring
  have hDD : D * D = x ^ 2 + y ^ 2 := by rw [← hDsq]; ring
  rw [hx2, hy2]
  clear_value x y h a D
  refine ⟨?_, ?_, ?_, ?_⟩ <;> field_simp
  · linear_combination (-r1 ^ 2 ) * hDsq + (x ^ 2 + y ^ 2) * hh
  · linear_combination (-r1 ^ 2 ) * hDsq + (x ^ 2 + y ^ 2) * hh
  · linear_combination (x ^ 2 + y ^ 2) * hh - (x ^ 2 + y ^ 2) * haD - r2 ^ 2 * hDsq
  · linear_combination (x ^ 2 + y ^ 2) * hh - (x ^ 2 + y ^ 2) * haD - r2 ^ 2 * hDsq

/-! ## two spheres -/

theorem sphereSphere_pred {p c1 c2 : Pt 3} {r1 r2 : ℝ} (Q : Pt 3 → Prop) (hQ : ∀ x, On x c1 r1 → Q x) (h1 : 0 ≤ r1) (hp : Q p) (hc : c2 = c1 → r2 = r1) : Q (sphereSphere p c1 r1 c2 r2) := by
  unfold sphereSphere
  dsimp only
  split
  · split
    · exact hp
    · rename_i hn
      have hn0 : p - c1 ≠ 0 := by rintro h0; rw [h0] at hn; apply hn; unfold pnorm; simp [psq]
      refine hQ _ ?_
      have := on_add (c := c1) h1 (psq_normalized hn0)
      rw [normalized_eq hn0] at this
      convert this using 3
      ring
  · rename_i hnid
    have hne : c2 - c1 ≠ 0 := by
      intro h0
      have e : c2 = c1 := sub_eq_zero.mp h0
      apply hnid
      rw [hc e, e]
      simp [pnorm, psq]
    have hN := psq_normalized hne
    split
    · exact hQ _ (on_add h1 hN)
    split
    · exact hQ _ (on_add h1 hN)
    rename_i hdis
    split
    · exact hp
    rename_i hpp
    set D := pnorm (c1 - c2) with hD
    set a := (r1 * r1 - r2 * r2 + D * D) / (2 * D) with ha
    have hh : Real.sqrt (r1 * r1 - a * a) ^ 2 = r1 * r1 - a * a := Real.sq_sqrt (by linarith)
    set h := Real.sqrt (r1 * r1 - a * a) with hhdef
    set N := normalized (c2 - c1) with hNdef
    set mid : Pt 3 := fun j => c1 j + a * N j with hmid
    set w : Pt 3 := (fun j => p j - pdot N (p - mid) * N j) - mid with hw
    have hwne : w ≠ 0 := fun h0 => hpp (sub_eq_zero.mp h0)
    have hu := psq_normalized hwne
    have hperp : pdot N w = 0 := by
      rw [hw, pdot_3, pdot_3]
      rw [psq3] at hN
      simp only [Pi.sub_apply]
      linear_combination (-(N 0 * (p 0 - mid 0) + N 1 * (p 1 - mid 1) + N 2 * (p 2 - mid 2))) * hN
    have hpu : pdot N (normalized w) = 0 := by
      rw [normalized_eq hwne]
      have : pdot N (fun j => w j / pnorm w) = pdot N w / pnorm w := by
        rw [pdot_3, pdot_3]; ring
      rw [this, hperp, zero_div]
    refine hQ _ ?_
    rw [on_iff h1, psq3]
    rw [psq3] at hN hu
    rw [pdot_3] at hpu
    simp only [Pi.sub_apply, hmid]
    set u := normalized w
    linear_combination a ^ 2 * hN + 2 * a * h * hpu + h ^ 2 * hu + hh

/-- when the two spheres meet, the result is on both, or it is the given point -/
theorem sphereSphere_both {p c1 c2 : Pt 3} {r1 r2 : ℝ} (h1 : 0 ≤ r1) (h2 : 0 ≤ r2) (hne : c2 ≠ c1) (hm1 : pnorm (c1 - c2) ≤ r1 + r2) (hm2 : |r1 - r2| ≤ pnorm (c1 - c2)) :
    sphereSphere p c1 r1 c2 r2 = p ∨ (On (sphereSphere p c1 r1 c2 r2) c1 r1 ∧ On (sphereSphere p c1 r1 c2 r2) c2 r2) := by
  have hne' : c2 - c1 ≠ 0 := fun h => hne (sub_eq_zero.mp h)
  have hN := psq_normalized hne'
  have hD0 : 0 < pnorm (c1 - c2) := by rw [pnorm_comm]; exact pnorm_pos_of (psq_pos_of_ne hne')
  unfold sphereSphere
  dsimp only
  rw [if_neg (by intro h; linarith [h.1]), if_neg (by push Not; exact ⟨hm1, hm2⟩)]
  set D := pnorm (c1 - c2) with hD
  set a := (r1 * r1 - r2 * r2 + D * D) / (2 * D) with ha
  have haD : 2 * a * D = r1 * r1 - r2 * r2 + D * D := by rw [ha]; field_simp
  have hdis : 0 ≤ r1 * r1 - a * a := by
    have e : (r1 * r1 - a * a) * (4 * D ^ 2) = ((r1 + r2) ^ 2 - D ^ 2) * (D ^ 2 - (r1 - r2) ^ 2) := by
      have : (r1 * r1 - a * a) * (4 * D ^ 2) = 4 * r1 ^ 2 * D ^ 2 - (2 * a * D) ^ 2 := by ring
      rw [this, haD]; ring
    have f1 : 0 ≤ (r1 + r2) ^ 2 - D ^ 2 := by nlinarith
    have f2 : 0 ≤ D ^ 2 - (r1 - r2) ^ 2 := by
      have := sq_le_sq' (by linarith [abs_nonneg (r1 - r2)] : -D ≤ |r1 - r2|) hm2
      rw [sq_abs] at this; linarith
    have : 0 ≤ (r1 * r1 - a * a) * (4 * D ^ 2) := by rw [e]; exact mul_nonneg f1 f2
    exact nonneg_of_mul_nonneg_left this (by positivity)
  rw [if_neg (not_lt.mpr hdis)]
  have hh : Real.sqrt (r1 * r1 - a * a) ^ 2 = r1 * r1 - a * a := Real.sq_sqrt hdis
  set h := Real.sqrt (r1 * r1 - a * a) with hhdef
  have hNl : ∀ l, c2 l = c1 l + D * normalized (c2 - c1) l := by
    intro l
    rw [normalized_eq hne', hD, pnorm_comm c1 c2]
    have := (pnorm_pos_of (psq_pos_of_ne hne')).ne'
    simp only [Pi.sub_apply]
    field_simp
    ring
  set N := normalized (c2 - c1) with hNdef
  set mid : Pt 3 := fun j => c1 j + a * N j with hmid
  split
  · exact Or.inl rfl
  rename_i hpp
  right
  set w : Pt 3 := (fun j => p j - pdot N (p - mid) * N j) - mid with hw
  have hwne : w ≠ 0 := fun h0 => hpp (sub_eq_zero.mp h0)
  have hu := psq_normalized hwne
  have hperp : pdot N w = 0 := by
    rw [hw, pdot_3, pdot_3]
    rw [psq3] at hN
    simp only [Pi.sub_apply]
    linear_combination (-(N 0 * (p 0 - mid 0) + N 1 * (p 1 - mid 1) + N 2 * (p 2 - mid 2))) * hN
  have hpu : pdot N (normalized w) = 0 := by
    rw [normalized_eq hwne]
    have : pdot N (fun j => w j / pnorm w) = pdot N w / pnorm w := by
      rw [pdot_3, pdot_3]; ring
    rw [this, hperp, zero_div]
  rw [on_iff h1, on_iff h2, psq3, psq3]
  rw [psq3] at hN hu
  rw [pdot_3] at hpu
  simp only [Pi.sub_apply, hmid]
  rw [hNl 0, hNl 1, hNl 2]
  set u := normalized w
  constructor
  · linear_combination a ^ 2 * hN + 2 * a * h * hpu + h ^ 2 * hu + hh
  · linear_combination (a - D) ^ 2 * hN + 2 * (a - D) * h * hpu + h ^ 2 * hu + hh - haD

/-! ## three spheres -/

theorem sphereSphereSphere_on {c1 c2 c3 p1 p2 : Pt 3} {r1 r2 r3 : ℝ} (h1 : 0 ≤ r1) (h2 : 0 ≤ r2) (h3 : 0 ≤ r3) (h : sphereSphereSphere c1 r1 c2 r2 c3 r3 = some (p1, p2)) :
    (On p1 c1 r1 ∧ On p1 c2 r2 ∧ On p1 c3 r3) ∧ On p2 c1 r1 ∧ On p2 c2 r2 ∧ On p2 c3 r3 := by
  unfold sphereSphereSphere at h
  dsimp only at h
  split at h
  · simp at h
  rename_i hfar
  split at h
  · simp at h
  rename_i hcol
  split at h
  · simp at h
  rename_i hdis
  simp only [Option.some.injEq, Prod.mk.injEq] at h
  obtain ⟨e1, e2⟩ := h
  push Not at hfar
  have heps : (0 : ℝ) < eps := by unfold eps; norm_num
  have hb2 : 0 < pnorm (c2 - c1) := pnorm_pos_of (by linarith [hfar.1])
  set b2v := c2 - c1 with hb2v
  set b3v := c3 - c1 with hb3v
  set b2 := pnorm b2v with hb2d
  have hb2sq : b2 ^ 2 = b2v 0 ^ 2 + b2v 1 ^ 2 + b2v 2 ^ 2 := by rw [hb2d, pnorm_sq, psq3]
  have hb3sq : pnorm b3v ^ 2 = b3v 0 ^ 2 + b3v 1 ^ 2 + b3v 2 ^ 2 := by rw [pnorm_sq, psq3]
  set i : Pt 3 := fun l => b2v l / b2 with hi
  set q := pdot b3v i with hq
  set w : Pt 3 := fun l => b3v l - q * i l with hw
  have hii : i 0 ^ 2 + i 1 ^ 2 + i 2 ^ 2 = 1 := by
    simp only [hi]
    field_simp
    linarith
  have hqe : q = b3v 0 * i 0 + b3v 1 * i 1 + b3v 2 * i 2 := by rw [hq, pdot_3]
  have hqb : pdot b2v b3v = q * b2 := by
    rw [hqe, pdot_3]
    simp only [hi]
    field_simp
    try ring
  have hw0 : w ≠ 0 := by
    intro h0
    apply hcol
    have hb3 : b3v = fun l => q * i l := by
      funext l
      have := congrFun h0 l
      simp only [hw, Pi.zero_apply] at this
      linarith
    have : pnorm b3v = |q| := by
      have e : psq b3v = q ^ 2 := by rw [hb3, psq_smul, psq3, hii, mul_one]
      unfold pnorm; rw [e, Real.sqrt_sq_eq_abs]
    rw [this, hqb, abs_mul, abs_of_pos hb2]
    have : |q| * b2 - b2 * |q| = 0 := by ring
    rw [this, abs_zero]
    exact heps
  have hjj := psq_normalized hw0
  have hij : i 0 * w 0 + i 1 * w 1 + i 2 * w 2 = 0 := by
    simp only [hw]
    linear_combination (-q) * hii - hqe
  have hjw : ∀ l, normalized w l = w l / pnorm w := fun l => by rw [normalized_eq hw0]
  have hwn := pnorm_pos_of (psq_pos_of_ne hw0)
  have hij' : i 0 * normalized w 0 + i 1 * normalized w 1 + i 2 * normalized w 2 = 0 := by
    rw [hjw, hjw, hjw]
    field_simp
    linarith
  have hwsq : pnorm w ^ 2 = w 0 ^ 2 + w 1 ^ 2 + w 2 ^ 2 := by rw [pnorm_sq, psq3]
  have hbj : pdot b3v (normalized w) = pnorm w := by
    rw [pdot_3, hjw, hjw, hjw]
    field_simp
    have : ∀ l, b3v l = w l + q * i l := fun l => by simp only [hw]; ring
    rw [this, this, this]
    linear_combination q * hij - hwsq
  rw [hbj] at e1 e2 hdis
  have hb3w : ∀ l, b3v l = q * i l + pnorm w * normalized w l := by
    intro l
    rw [hjw, mul_div_cancel₀ _ hwn.ne']
    simp only [hw]
    ring
  set j := normalized w with hj
  set X := (r1 * r1 - r2 * r2 + b2 * b2) / (2 * b2) with hX
  set B := pnorm w with hB
  set Y := (r1 * r1 - r3 * r3 + pnorm b3v * pnorm b3v - 2 * q * X) / (2 * B) with hY
  have hX2 : 2 * b2 * X = r1 * r1 - r2 * r2 + b2 * b2 := by rw [hX]; field_simp
  have hY2 : 2 * B * Y = r1 * r1 - r3 * r3 + pnorm b3v * pnorm b3v - 2 * q * X := by rw [hY]; field_simp
  have hZ : Real.sqrt (r1 * r1 - X * X - Y * Y) ^ 2 = r1 * r1 - X * X - Y * Y := Real.sq_sqrt (by linarith)
  set Z := Real.sqrt (r1 * r1 - X * X - Y * Y) with hZd
  rw [psq3] at hjj
  have hc2 : ∀ l, c2 l = c1 l + b2 * i l := by
    intro l
    have : b2v l = c2 l - c1 l := rfl
    simp only [hi]
    field_simp
    linarith
  have hc3 : ∀ l, c3 l = c1 l + (q * i l + B * j l) := by
    intro l
    rw [← hb3w l]
    show c3 l = c1 l + (c3 l - c1 l)
    ring
  have hb3B : pnorm b3v * pnorm b3v = q ^ 2 + B ^ 2 := by
    have : pnorm b3v * pnorm b3v = pnorm b3v ^ 2 := by ring
    rw [this, hb3sq, hb3w, hb3w, hb3w]
    linear_combination q ^ 2 * hii + 2 * q * B * hij' + B ^ 2 * hjj
  have k0 : cross i j 0 = i 1 * j 2 - i 2 * j 1 := by simp [cross]
  have k1 : cross i j 1 = i 2 * j 0 - i 0 * j 2 := by simp [cross]
  have k2 : cross i j 2 = i 0 * j 1 - i 1 * j 0 := by simp [cross]
  -- any point `c1 + X i + Y j + z k`
  have key : ∀ z : ℝ, z ^ 2 = r1 * r1 - X * X - Y * Y → ∀ x : Pt 3, (∀ l, x l = c1 l + X * i l + Y * j l + z * cross i j l) → On x c1 r1 ∧ On x c2 r2 ∧ On x c3 r3 := by
    intro z hz x hx
    have hkk : cross i j 0 ^ 2 + cross i j 1 ^ 2 + cross i j 2 ^ 2 = 1 := by
      rw [k0, k1, k2]
      linear_combination (j 0 ^ 2 + j 1 ^ 2 + j 2 ^ 2) * hii + hjj - (i 0 * j 0 + i 1 * j 1 + i 2 * j 2) * hij'
    have hik : i 0 * cross i j 0 + i 1 * cross i j 1 + i 2 * cross i j 2 = 0 := by rw [k0, k1, k2]; ring
    have hjk : j 0 * cross i j 0 + j 1 * cross i j 1 + j 2 * cross i j 2 = 0 := by rw [k0, k1, k2]; ring
    rw [on_iff h1, on_iff h2, on_iff h3, psq3, psq3, psq3]
    simp only [Pi.sub_apply]
    rw [hx 0, hx 1, hx 2, hc2 0, hc2 1, hc2 2, hc3 0, hc3 1, hc3 2]
    generalize cross i j 0 = a0 at *
    generalize cross i j 1 = a1 at *
    generalize cross i j 2 = a2 at *
    refine ⟨?_, ?_, ?_⟩
    · linear_combination X ^ 2 * hii + Y ^ 2 * hjj + z ^ 2 * hkk + 2 * X * Y * hij' + 2 * X * z * hik + 2 * Y * z * hjk + hz
    · linear_combination (X - b2) ^ 2 * hii + Y ^ 2 * hjj + z ^ 2 * hkk + 2 * (X - b2) * Y * hij' + 2 * (X - b2) * z * hik + 2 * Y * z * hjk + hz - hX2
    · linear_combination (X - q) ^ 2 * hii + (Y - B) ^ 2 * hjj + z ^ 2 * hkk + 2 * (X - q) * (Y - B) * hij' + 2 * (X - q) * z * hik + 2 * (Y - B) * z * hjk + hz - hY2 - hb3B
  exact ⟨key Z hZ p1 (fun l => by rw [← e1]), key (-Z) (by rw [neg_sq, hZ]) p2 (fun l => by rw [← e2]; ring)⟩

/-! ## the loops -/

theorem pick_cases {L : List (Pt d × ℝ)} {p p1 p2 q : Pt d} {ign : List ℕ} (h : pick L p p1 p2 ign = some q) : (q = p1 ∨ q = p2) ∧ InBounds q ∧ ¬ Collision L q ign := by
  unfold pick at h
  split at h
  · rename_i h1
    split at h
    · rename_i h2
      simp only [Option.some.injEq] at h
      split at h <;> subst h
      · exact ⟨Or.inl rfl, h1⟩
      · exact ⟨Or.inr rfl, h2⟩
    · simp only [Option.some.injEq] at h; subst h; exact ⟨Or.inl rfl, h1⟩
  · split at h
    · rename_i h2
      simp only [Option.some.injEq] at h; subst h; exact ⟨Or.inr rfl, h2⟩
    · simp at h

theorem loop2_pred (L : List (Pt 2 × ℝ)) {p c : Pt 2} {r : ℝ} (Q : Pt 2 → Prop) (hQ : ∀ x, On x c r → Q x) (hr : 0 ≤ r) (hp : Q p) (i : ℕ) (rest : List (Pt 2 × ℝ))
    (hrest : ∀ e ∈ rest, 0 ≤ e.2 ∧ (e.1 = c → e.2 = r)) (q : Pt 2) (h : loop2 L p c r i rest = some q) : Q q := by
  induction rest generalizing i with
  | nil => rw [loop2] at h; rw [← Option.some.inj h]; exact hp
  | cons e rest ih =>
    obtain ⟨he1, he2⟩ := hrest e (by simp)
    have ih := ih (i + 1) (fun e h => hrest e (by simp [h]))
    rw [loop2] at h
    split at h
    · simp at h
    · rename_i p1 p2 hcc
      obtain ⟨o1, o2, _, _⟩ := circleCircle_on hr he1 hcc
      split at h
      · rename_i q' hq
        rw [← Option.some.inj h]
        rcases (pick_cases hq).1 with rfl | rfl
        · exact hQ _ o1
        · exact hQ _ o2
      · exact ih h
    · rename_i hcc
      dsimp only at h
      split at h
      · have hne : e.1 - c ≠ 0 := by
          intro h0
          have e0 := sub_eq_zero.mp h0
          have e2 := he2 e0
          unfold circleCircle at hcc
          simp [e0, e2, pnorm, psq] at hcc
        rw [← Option.some.inj h]
        exact hQ _ (on_add hr (psq_normalized hne))
      · exact ih h

theorem loop3_pred (L : List (Pt 3 × ℝ)) {p c : Pt 3} {r : ℝ} (Q : Pt 3 → Prop) (hQ : ∀ x, On x c r → Q x) (hr : 0 ≤ r) (hp : Q p) (hL : ∀ e ∈ L, 0 ≤ e.2 ∧ (e.1 = c → e.2 = r)) (ps : List (ℕ × ℕ))
    (hps : ∀ x ∈ ps, x.1 < L.length ∧ x.2 < L.length) : Q (loop3 L p c r ps) := by
  induction ps with
  | nil => rw [loop3]; exact hp
  | cons x ps ih =>
    obtain ⟨i, j⟩ := x
    obtain ⟨hi, hj⟩ := hps (i, j) (by simp)
    have ih := ih (fun x h => hps x (by simp [h]))
    have ei : L.getD i (0, 0) ∈ L := by rw [List.getD_eq_getElem?_getD, List.getElem?_eq_getElem hi]; exact List.getElem_mem _
    have ej : L.getD j (0, 0) ∈ L := by rw [List.getD_eq_getElem?_getD, List.getElem?_eq_getElem hj]; exact List.getElem_mem _
    rw [loop3]
    dsimp only
    split
    · rename_i p1 p2 hs
      obtain ⟨⟨o1, _⟩, o2, _⟩ := sphereSphereSphere_on hr (hL _ ei).1 (hL _ ej).1 hs
      split
      · rename_i q hq
        rcases (pick_cases hq).1 with rfl | rfl
        · exact hQ _ o1
        · exact hQ _ o2
      · exact ih
    · split
      · exact sphereSphere_pred Q hQ hr hp (hL _ ei).2
      · split
        · exact sphereSphere_pred Q hQ hr hp (hL _ ej).2
        · exact ih

/-- what holds of the given point and of the points of the sphere holds of the result, when other spheres with the same centre have the same radius -/
theorem resolve_pred (d : ℕ) {p c : Pt d} {r : ℝ} (Q : Pt d → Prop) (hQ : ∀ x, On x c r → Q x) (hr : 0 ≤ r) (hp : Q p) (L : List (Pt d × ℝ)) (hL : ∀ e ∈ L, 0 ≤ e.2 ∧ (e.1 = c → e.2 = r)) : Q (resolve d p c r L) := by
  match d with
  | 2 =>
    show Q ((loop2 L p c r 0 L).getD p)
    cases h : loop2 L p c r 0 L with
    | none => exact hp
    | some q => exact loop2_pred L Q hQ hr hp 0 L hL q h
  | 3 =>
    show Q (resolve3 p c r L)
    unfold resolve3
    split
    · exact hp
    · exact sphereSphere_pred Q hQ hr hp (hL _ (by simp)).2
    · refine loop3_pred _ Q hQ hr hp hL _ ?_
      intro x hx
      unfold pairs at hx
      obtain ⟨i, hi, hx⟩ := List.mem_flatMap.mp hx
      obtain ⟨j, hj, rfl⟩ := List.mem_map.mp hx
      have h1 := List.mem_range.mp hi
      have h2 := List.mem_range.mp hj
      exact ⟨h1, h2.trans h1⟩
  | 0 => exact hp
  | 1 => exact hp
  | _ + 4 => exact hp

theorem resolve_on (d : ℕ) {p c : Pt d} {r : ℝ} (hr : 0 ≤ r) (hp : On p c r) (L : List (Pt d × ℝ)) (hL : ∀ e ∈ L, 0 ≤ e.2 ∧ (e.1 = c → e.2 = r)) : On (resolve d p c r L) c r :=
  resolve_pred d (fun x => On x c r) (fun _ h => h) hr hp L hL

end Gpy.Arcs
