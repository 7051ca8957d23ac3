import Verif.Model.Rotation
import Mathlib.LinearAlgebra.Matrix.Determinant.Basic
import Mathlib.LinearAlgebra.UnitaryGroup
import Mathlib.Tactic.LinearCombination
import Mathlib.Tactic.FinCases
import Mathlib.Algebra.BigOperators.Field

/-! C44: `rotation_matrix_from_vectors`. -/

set_option autoImplicit false
namespace Gpy
open Matrix

/-- `R` is a rotation matrix: orthogonal with determinant one. -/
def IsRotation {n : ℕ} (R : Matrix (Fin n) (Fin n) ℝ) : Prop := R.transpose * R = 1 ∧ R.det = 1

/-- the directions of two vectors: `R` maps the direction of `x` to that of `y` -/
def MapsDirection {n : ℕ} (R : Matrix (Fin n) (Fin n) ℝ) (x y : Pt n) : Prop :=
  R.mulVec (fun i => x i / pnorm x) = fun i => y i / pnorm y

theorem unitize_spec {d : ℕ} {x : Pt d} (hx : x ≠ 0) :
    unitize x = some (fun i => x i / pnorm x) ∧ ∑ i, (x i / pnorm x) * (x i / pnorm x) = 1 := by
  have hp : 0 < psq x := by
    obtain ⟨i, hi⟩ := Function.ne_iff.mp hx
    exact Finset.sum_pos' (fun i _ => sq_nonneg _) ⟨i, Finset.mem_univ _, by have : x i ≠ 0 := hi; positivity⟩
  have hn : pnorm x ≠ 0 := (Real.sqrt_pos.mpr hp).ne'
  refine ⟨by unfold unitize; rw [if_neg hn], ?_⟩
  have hs : pnorm x ^ 2 = psq x := Real.sq_sqrt hp.le
  have : ∀ i, (x i / pnorm x) * (x i / pnorm x) = x i ^ 2 / psq x := by
    intro i; rw [← hs]; field_simp
  rw [Finset.sum_congr rfl (fun i _ => this i), ← Finset.sum_div]
  exact div_self hp.ne'

theorem rot3_general {a b : Pt 3} (ha : ∑ i, a i * a i = 1) (hb : ∑ i, b i * b i = 1) (hv : cross3 a b ≠ 0) :
    IsRotation (1 + kmat (cross3 a b) + ((1 - pdot a b) / pnorm (cross3 a b) ^ 2) • (kmat (cross3 a b) * kmat (cross3 a b))) ∧
      (1 + kmat (cross3 a b) + ((1 - pdot a b) / pnorm (cross3 a b) ^ 2) • (kmat (cross3 a b) * kmat (cross3 a b))).mulVec a = b := by
  have hs : pnorm (cross3 a b) ^ 2 = psq (cross3 a b) := Real.sq_sqrt (Finset.sum_nonneg (fun i _ => sq_nonneg _))
  have hp : 0 < psq (cross3 a b) := by
    obtain ⟨i, hi⟩ := Function.ne_iff.mp hv
    exact Finset.sum_pos' (fun i _ => sq_nonneg _) ⟨i, Finset.mem_univ _, by have : cross3 a b i ≠ 0 := hi; positivity⟩
  rw [hs]
  set c := pdot a b with hc
  set t := (1 - c) / psq (cross3 a b) with ht
  have ht' : t * psq (cross3 a b) = 1 - c := by rw [ht]; field_simp
  have hc' : c = a 0 * b 0 + a 1 * b 1 + a 2 * b 2 := by rw [hc]; simp [pdot, Fin.sum_univ_three]
  have ha' : a 0 * a 0 + a 1 * a 1 + a 2 * a 2 = 1 := by rw [← ha]; simp [Fin.sum_univ_three]
  have hb' : b 0 * b 0 + b 1 * b 1 + b 2 * b 2 = 1 := by rw [← hb]; simp [Fin.sum_univ_three]
  have hps : psq (cross3 a b) = (cross3 a b 0) ^ 2 + (cross3 a b 1) ^ 2 + (cross3 a b 2) ^ 2 := by simp [psq, Fin.sum_univ_three]
  have hv0 : cross3 a b 0 = a 1 * b 2 - a 2 * b 1 := rfl
  have hv1 : cross3 a b 1 = a 2 * b 0 - a 0 * b 2 := rfl
  have hv2 : cross3 a b 2 = a 0 * b 1 - a 1 * b 0 := rfl
  have hcs : psq (cross3 a b) = 1 - c ^ 2 := by
    rw [hps, hv0, hv1, hv2, hc']
    linear_combination (b 0 * b 0 + b 1 * b 1 + b 2 * b 2) * ha' + hb'
  rw [hcs] at ht'
  -- `v×a = b - c a`
  have w0 : cross3 a b 1 * a 2 - cross3 a b 2 * a 1 = b 0 - c * a 0 := by
    rw [hv1, hv2, hc']; linear_combination b 0 * ha'
  have w1 : cross3 a b 2 * a 0 - cross3 a b 0 * a 2 = b 1 - c * a 1 := by
    rw [hv2, hv0, hc']; linear_combination b 1 * ha'
  have w2 : cross3 a b 0 * a 1 - cross3 a b 1 * a 0 = b 2 - c * a 2 := by
    rw [hv0, hv1, hc']; linear_combination b 2 * ha'
  -- `v·a = 0`
  have va : cross3 a b 0 * a 0 + cross3 a b 1 * a 1 + cross3 a b 2 * a 2 = 0 := by
    rw [hv0, hv1, hv2]; ring
  have hsum : (cross3 a b 0) ^ 2 + (cross3 a b 1) ^ 2 + (cross3 a b 2) ^ 2 = 1 - c ^ 2 := by rw [← hps, hcs]
  generalize cross3 a b = v at *
  clear_value t c
  have hc2 : 1 - c ^ 2 ≠ 0 := by rw [← hcs]; exact hp.ne'
  have ht2 : t * (1 + c) = 1 := by
    have h1 : 1 - c ≠ 0 := fun h => hc2 (by rw [show 1 - c ^ 2 = (1 - c) * (1 + c) by ring, h, zero_mul])
    apply mul_right_cancel₀ h1
    linear_combination ht'
  have hR : (1 + kmat v + t • (kmat v * kmat v)) = !![c + t * v 0 * v 0, -v 2 + t * v 0 * v 1, v 1 + t * v 0 * v 2;
      v 2 + t * v 0 * v 1, c + t * v 1 * v 1, -v 0 + t * v 1 * v 2; -v 1 + t * v 0 * v 2, v 0 + t * v 1 * v 2, c + t * v 2 * v 2] := by
    have e : t * ((v 0) ^ 2 + (v 1) ^ 2 + (v 2) ^ 2) = 1 - c := by rw [hsum]; exact ht'
    ext i j
    fin_cases i <;> fin_cases j <;> simp [kmat, Matrix.mul_apply, Fin.sum_univ_three, Matrix.add_apply, Matrix.one_apply] <;>
      first | ring1 | linear_combination e | linear_combination -e
  have e : t * ((v 0) ^ 2 + (v 1) ^ 2 + (v 2) ^ 2) = 1 - c := by rw [hsum]; exact ht'
  have k : 2 * c * t + t ^ 2 * ((v 0) ^ 2 + (v 1) ^ 2 + (v 2) ^ 2) - 1 = 0 := by linear_combination t * e + ht2
  rw [hR]
  refine ⟨⟨?_, ?_⟩, ?_⟩
  · ext i j
    fin_cases i <;> fin_cases j <;> simp [Matrix.mul_apply, Fin.sum_univ_three, Matrix.one_apply] <;>
      first
      | linear_combination hsum + v 0 * v 0 * k
      | linear_combination hsum + v 1 * v 1 * k
      | linear_combination hsum + v 2 * v 2 * k
      | linear_combination v 0 * v 1 * k
      | linear_combination v 0 * v 2 * k
      | linear_combination v 1 * v 2 * k
  · rw [Matrix.det_fin_three]
    simp
    linear_combination (c + t * ((v 0) ^ 2 + (v 1) ^ 2 + (v 2) ^ 2)) * hsum + e
  · funext i
    fin_cases i <;> simp [Matrix.mulVec, dotProduct, Fin.sum_univ_three]
    · linear_combination w0 + t * v 0 * va
    · linear_combination w1 + t * v 1 * va
    · linear_combination w2 + t * v 2 * va

/-- a pair of unit vectors with inner product one is a pair of equal vectors -/
theorem unit_eq_of_dot {n : ℕ} {a b : Pt n} (ha : ∑ i, a i * a i = 1) (hb : ∑ i, b i * b i = 1) (h : ∑ i, a i * b i = 1) : a = b := by
  have h0 : ∑ i, (a i - b i) ^ 2 = 0 := by
    have : ∀ i, (a i - b i) ^ 2 = a i * a i + b i * b i - 2 * (a i * b i) := fun i => by ring
    rw [Finset.sum_congr rfl (fun i _ => this i), Finset.sum_sub_distrib, Finset.sum_add_distrib, ← Finset.mul_sum, ha, hb, h]; norm_num
  funext i
  have := (Finset.sum_eq_zero_iff_of_nonneg (fun i _ => sq_nonneg (a i - b i))).mp h0 i (Finset.mem_univ i)
  have := pow_eq_zero_iff (two_ne_zero) |>.mp this
  linarith

theorem unit_eq_neg_of_dot {n : ℕ} {a b : Pt n} (ha : ∑ i, a i * a i = 1) (hb : ∑ i, b i * b i = 1) (h : ∑ i, a i * b i = -1) : b = -a := by
  have := unit_eq_of_dot (a := -a) (b := b) (by simpa using ha) hb (by simp only [Pi.neg_apply, neg_mul, Finset.sum_neg_distrib, h]; norm_num)
  rw [this]

/-- the two vectors point in opposite directions -/
def Opposite {n : ℕ} (x y : Pt n) : Prop := ∃ k : ℝ, k < 0 ∧ ∀ i, y i = k * x i

theorem opposite_of_units {n : ℕ} {x y : Pt n} (hx : 0 < pnorm x) (hy : 0 < pnorm y)
    (h : (fun i => y i / pnorm y) = -(fun i => x i / pnorm x)) : Opposite x y := by
  refine ⟨-(pnorm y / pnorm x), by have := div_pos hy hx; linarith, fun i => ?_⟩
  have := congrFun h i
  simp only [Pi.neg_apply] at this
  field_simp at this ⊢
  linarith

theorem pnorm_pos {d : ℕ} {x : Pt d} (hx : x ≠ 0) : 0 < pnorm x := by
  refine Real.sqrt_pos.mpr ?_
  obtain ⟨i, hi⟩ := Function.ne_iff.mp hx
  exact Finset.sum_pos' (fun i _ => sq_nonneg _) ⟨i, Finset.mem_univ _, by have : x i ≠ 0 := hi; positivity⟩

theorem isRotation_one {n : ℕ} : IsRotation (1 : Matrix (Fin n) (Fin n) ℝ) := by
  constructor <;> simp

theorem cross3_lagrange {a b : Pt 3} (ha : ∑ i, a i * a i = 1) (hb : ∑ i, b i * b i = 1) (hv : cross3 a b = 0) :
    pdot a b = 1 ∨ pdot a b = -1 := by
  have hc' : pdot a b = a 0 * b 0 + a 1 * b 1 + a 2 * b 2 := by simp [pdot, Fin.sum_univ_three]
  have ha' : a 0 * a 0 + a 1 * a 1 + a 2 * a 2 = 1 := by rw [← ha]; simp [Fin.sum_univ_three]
  have hb' : b 0 * b 0 + b 1 * b 1 + b 2 * b 2 = 1 := by rw [← hb]; simp [Fin.sum_univ_three]
  have hv0 : a 1 * b 2 - a 2 * b 1 = 0 := congrFun hv 0
  have hv1 : a 2 * b 0 - a 0 * b 2 = 0 := congrFun hv 1
  have hv2 : a 0 * b 1 - a 1 * b 0 = 0 := congrFun hv 2
  have : (pdot a b - 1) * (pdot a b + 1) = 0 := by
    rw [hc']
    linear_combination (b 0 * b 0 + b 1 * b 1 + b 2 * b 2) * ha' + hb' - (a 1 * b 2 - a 2 * b 1) * hv0 -
      (a 2 * b 0 - a 0 * b 2) * hv1 - (a 0 * b 1 - a 1 * b 0) * hv2
  rcases mul_eq_zero.mp this with h | h
  · left; linarith
  · right; linarith

theorem rot3_unit {a b : Pt 3} {x y : Pt 3} (hx : unitize x = some a) (hy : unitize y = some b)
    (ha : ∑ i, a i * a i = 1) (hb : ∑ i, b i * b i = 1) (hno : b ≠ -a) :
    ∃ R, rotationMatrix3 x y = some R ∧ IsRotation R ∧ R.mulVec a = b := by
  unfold rotationMatrix3
  rw [hx, hy]
  simp only [Option.bind_eq_bind, Option.bind_some]
  by_cases hv : cross3 a b ≠ 0
  · rw [if_pos hv]
    exact ⟨_, rfl, rot3_general ha hb hv⟩
  · rw [if_neg hv]
    rcases cross3_lagrange ha hb (not_not.mp hv) with h | h
    · rw [h, if_neg (by norm_num)]
      refine ⟨1, rfl, isRotation_one, ?_⟩
      rw [Matrix.one_mulVec]; exact unit_eq_of_dot ha hb h
    · exact absurd (unit_eq_neg_of_dot ha hb h) hno

/-- **C44 (three dimensions).** For every pair of nonzero vectors that do not point in opposite directions the function
    returns a rotation matrix mapping the first direction to the second. -/
theorem C44_rotation3 (x y : Pt 3) (hx : x ≠ 0) (hy : y ≠ 0) (hop : ¬ Opposite x y) :
    ∃ R, rotationMatrix3 x y = some R ∧ IsRotation R ∧ MapsDirection R x y := by
  obtain ⟨hux, ha⟩ := unitize_spec hx
  obtain ⟨huy, hb⟩ := unitize_spec hy
  have hno := fun h => hop (opposite_of_units (pnorm_pos hx) (pnorm_pos hy) h)
  exact rot3_unit hux huy ha hb hno

theorem unit_of_opposite {n : ℕ} {x y : Pt n} (hx : x ≠ 0) (h : Opposite x y) :
    y ≠ 0 ∧ (fun i => y i / pnorm y) = -(fun i => x i / pnorm x) := by
  obtain ⟨k, hk, h⟩ := h
  have hpx := pnorm_pos hx
  have hn : pnorm y = -k * pnorm x := by
    have : psq y = (-k) ^ 2 * psq x := by
      unfold psq
      rw [Finset.mul_sum]
      exact Finset.sum_congr rfl (fun i _ => by rw [h i]; ring)
    unfold pnorm
    rw [this, Real.sqrt_mul (sq_nonneg _), Real.sqrt_sq (by linarith)]
  constructor
  · rintro rfl
    have : pnorm (0 : Pt n) = 0 := by simp [pnorm, psq]
    rw [this] at hn
    have := mul_pos (neg_pos.mpr hk) hpx
    linarith
  · funext i
    simp only [Pi.neg_apply]
    rw [hn, h i]
    have : k ≠ 0 := hk.ne
    field_simp

/-- **C44 (the exception).** For every pair of opposite nonzero vectors of three entries the function returns minus the
    identity: a matrix that maps one direction to the other and is orthogonal but has determinant minus one, so it is a
    point reflection and no rotation, contrary to the docstring. -/
theorem C44_opposite3_violated (x y : Pt 3) (hx : x ≠ 0) (hop : Opposite x y) :
    rotationMatrix3 x y = some (-1) ∧ MapsDirection (-1) x y ∧ ((-1 : Matrix (Fin 3) (Fin 3) ℝ).transpose * (-1) = 1) ∧
      (-1 : Matrix (Fin 3) (Fin 3) ℝ).det = -1 ∧ ¬ IsRotation (-1 : Matrix (Fin 3) (Fin 3) ℝ) := by
  have hdet : (-1 : Matrix (Fin 3) (Fin 3) ℝ).det = -1 := by
    rw [Matrix.det_neg]; simp; norm_num
  obtain ⟨hy, hneg⟩ := unit_of_opposite hx hop
  obtain ⟨hux, ha⟩ := unitize_spec hx
  obtain ⟨huy, hb⟩ := unitize_spec hy
  refine ⟨?_, ?_, ?_, hdet, ?_⟩
  · unfold rotationMatrix3
    rw [hux, huy, hneg]
    simp only [Option.bind_eq_bind, Option.bind_some]
    have hc : cross3 (fun i => x i / pnorm x) (-(fun i => x i / pnorm x)) = 0 := by
      funext i
      fin_cases i <;> simp [cross3] <;> ring
    rw [if_neg (by rw [hc]; simp), if_pos]
    unfold pdot
    simp only [Pi.neg_apply, mul_neg, Finset.sum_neg_distrib]
    rw [ha]; norm_num
  · unfold MapsDirection
    rw [Matrix.neg_mulVec, Matrix.one_mulVec, hneg]
  · simp
  · intro h
    have := h.2
    rw [hdet] at this
    norm_num at this

/-- **C44 (two dimensions).** For every pair of nonzero vectors, opposite or not, the function returns a rotation matrix
    mapping the first direction to the second. -/
theorem C44_rotation2 (x y : Pt 2) (hx : x ≠ 0) (hy : y ≠ 0) :
    ∃ R, rotationMatrix2 x y = some R ∧ IsRotation R ∧ MapsDirection R x y := by
  obtain ⟨hux, ha⟩ := unitize_spec hx
  obtain ⟨huy, hb⟩ := unitize_spec hy
  have key : ∀ a b : Pt 2, ∑ i, a i * a i = 1 → ∑ i, b i * b i = 1 → unitize x = some a → unitize y = some b →
      ∃ R, rotationMatrix2 x y = some R ∧ IsRotation R ∧ R.mulVec a = b := by
    intro a b ha hb hux huy
    have ha' : a 0 * a 0 + a 1 * a 1 = 1 := by rw [← ha]; simp
    have hb' : b 0 * b 0 + b 1 * b 1 = 1 := by rw [← hb]; simp
    have hc' : pdot a b = a 0 * b 0 + a 1 * b 1 := by simp [pdot]
    have hv' : cross2 a b = a 0 * b 1 - a 1 * b 0 := rfl
    have hlag : pdot a b ^ 2 + cross2 a b ^ 2 = 1 := by
      rw [hc', hv']
      linear_combination (b 0 * b 0 + b 1 * b 1) * ha' + hb'
    unfold rotationMatrix2
    rw [hux, huy]
    simp only [Option.bind_eq_bind, Option.bind_some]
    by_cases hv : cross2 a b ≠ 0
    · rw [if_pos hv]
      have hcos : Real.cos (if cross2 a b < 0 then -Real.arccos (pdot a b) else Real.arccos (pdot a b)) = pdot a b := by
        have h1 : -1 ≤ pdot a b := by nlinarith [sq_nonneg (cross2 a b)]
        have h2 : pdot a b ≤ 1 := by nlinarith [sq_nonneg (cross2 a b)]
        split
        · rw [Real.cos_neg, Real.cos_arccos h1 h2]
        · rw [Real.cos_arccos h1 h2]
      have hsin : Real.sin (if cross2 a b < 0 then -Real.arccos (pdot a b) else Real.arccos (pdot a b)) = cross2 a b := by
        have hs : 1 - pdot a b ^ 2 = cross2 a b ^ 2 := by linarith
        split
        · rename_i h
          rw [Real.sin_neg, Real.sin_arccos, hs, Real.sqrt_sq_eq_abs, abs_of_neg h]; ring
        · rename_i h
          rw [Real.sin_arccos, hs, Real.sqrt_sq_eq_abs, abs_of_nonneg (not_lt.mp h)]
      rw [hcos, hsin]
      refine ⟨_, rfl, ⟨?_, ?_⟩, ?_⟩
      · ext i j
        fin_cases i <;> fin_cases j <;> simp [Matrix.mul_apply, Fin.sum_univ_two] <;>
          first | ring1 | linear_combination hlag
      · rw [Matrix.det_fin_two]; simp; linear_combination hlag
      · funext i
        fin_cases i <;> simp [Matrix.mulVec, dotProduct, Fin.sum_univ_two]
        · rw [hc', hv']; linear_combination b 0 * ha'
        · rw [hc', hv']; linear_combination b 1 * ha'
    · rw [if_neg hv]
      rw [not_not.mp hv] at hlag
      have hor : (pdot a b - 1) * (pdot a b + 1) = 0 := by linarith
      rcases mul_eq_zero.mp hor with h | h
      · have h : pdot a b = 1 := by linarith
        rw [h, if_neg (by norm_num)]
        exact ⟨1, rfl, isRotation_one, by rw [Matrix.one_mulVec]; exact unit_eq_of_dot ha hb h⟩
      · have h : pdot a b = -1 := by linarith
        rw [h, if_pos (by norm_num)]
        refine ⟨-1, rfl, ⟨by simp, by rw [Matrix.det_neg]; simp⟩, ?_⟩
        rw [Matrix.neg_mulVec, Matrix.one_mulVec]; exact (unit_eq_neg_of_dot ha hb h).symm
  exact key _ _ ha hb hux huy

/-- the hypotheses of `C44_rotation3` hold of two coordinate axes, those of the exception of an axis and its double negative -/
theorem C44_example : (![1, 0, 0] : Pt 3) ≠ 0 ∧ (![0, 1, 0] : Pt 3) ≠ 0 ∧ ¬ Opposite (![1, 0, 0] : Pt 3) ![0, 1, 0] ∧
    Opposite (![1, 0, 0] : Pt 3) ![-2, 0, 0] := by
  refine ⟨fun h => ?_, fun h => ?_, ?_, ⟨-2, by norm_num, fun i => by fin_cases i <;> simp⟩⟩
  · have := congrFun h 0; simp at this
  · have := congrFun h 1; simp at this
  · rintro ⟨k, -, h⟩
    have := h 1
    simp at this

end Gpy
