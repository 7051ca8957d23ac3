import Verif.Model.DualQef
import Verif.Proofs.DualReturns
import Mathlib.LinearAlgebra.Span.Basic

/-!
# The quadratic problem of a cell
-/

set_option autoImplicit false
namespace Gpy.Dual
open Matrix

/-! ### specification -/

/-- `U diag(s) V^T` is a singular value decomposition of `M` -/
def IsSvd (M : Matrix (Fin 3) (Fin 3) ℝ) (r : Matrix (Fin 3) (Fin 3) ℝ × Pt 3 × Matrix (Fin 3) (Fin 3) ℝ) : Prop :=
  r.1.transpose * r.1 = 1 ∧ r.2.2.transpose * r.2.2 = 1 ∧ (∀ i, 0 ≤ r.2.1 i) ∧ r.1 * Matrix.diagonal r.2.1 * r.2.2.transpose = M

/-- `|A x - b|^2` -/
def residual (rows : List Row) (x : Pt 3) : ℝ := (rows.map (fun r => (pdot r.1 x - r.2) ^ 2)).sum

/-- the span of the eigenvectors of `M` for eigenvalues above the threshold -/
def Strong (M : Matrix (Fin 3) (Fin 3) ℝ) (threshold : ℝ) : Submodule ℝ (Pt 3) := Submodule.span ℝ {w | ∃ l, threshold < l ∧ M.mulVec w = l • w}

/-! ### proofs -/

/-- `|A w|^2` -/
def quad (rows : List Row) (w : Pt 3) : ℝ := (rows.map (fun r => (pdot r.1 w) ^ 2)).sum

theorem quad_nonneg (rows : List Row) (w : Pt 3) : 0 ≤ quad rows w := by
  refine List.sum_nonneg (fun a ha => ?_)
  obtain ⟨r, -, rfl⟩ := List.mem_map.mp ha
  exact sq_nonneg _

theorem ata_cons (r : Row) (rows : List Row) (i j : Fin 3) : ata (r :: rows) i j = r.1 i * r.1 j + ata rows i j := by
  simp [ata]

theorem atb_cons (r : Row) (rows : List Row) (i : Fin 3) : atb (r :: rows) i = r.1 i * r.2 + atb rows i := by
  simp [atb]

theorem mulVec3 (M : Matrix (Fin 3) (Fin 3) ℝ) (x : Pt 3) (i : Fin 3) : M.mulVec x i = M i 0 * x 0 + M i 1 * x 1 + M i 2 * x 2 := by
  simp [Matrix.mulVec, dotProduct, Fin.sum_univ_three]

theorem ata_symm (rows : List Row) (x y : Pt 3) : pdot x ((ata rows).mulVec y) = pdot y ((ata rows).mulVec x) := by
  have h : ∀ i j, ata rows i j = ata rows j i := by intro i j; simp only [ata, Matrix.of_apply]; exact congrArg List.sum (List.map_congr_left (fun r _ => mul_comm _ _))
  simp only [pdot3, mulVec3]
  rw [h 1 0, h 2 0, h 2 1]; ring

theorem ata_quad (rows : List Row) (x : Pt 3) : pdot x ((ata rows).mulVec x) = quad rows x := by
  induction rows with
  | nil => simp [ata, quad, pdot3, mulVec3]
  | cons r rows ih =>
    have e : quad (r :: rows) x = pdot r.1 x ^ 2 + quad rows x := by simp [quad]
    rw [e, ← ih]
    simp only [pdot3, mulVec3, ata_cons]
    ring

theorem residual_add (rows : List Row) (x w : Pt 3) : residual rows (x + w) = residual rows x + quad rows w + 2 * pdot w ((ata rows).mulVec x - atb rows) := by
  induction rows with
  | nil => simp [residual, quad, ata, atb, pdot3, mulVec3]
  | cons r rows ih =>
    have e1 : ∀ x, residual (r :: rows) x = (pdot r.1 x - r.2) ^ 2 + residual rows x := by intro x; simp [residual]
    have e2 : quad (r :: rows) w = pdot r.1 w ^ 2 + quad rows w := by simp [quad]
    rw [e1, e1, e2, ih]
    simp only [pdot3, mulVec3, ata_cons, atb_cons, Pi.add_apply, Pi.sub_apply]
    ring

theorem pdot_self (w : Pt 3) : pdot w w = psq w := by rw [pdot3, psq3]; ring

theorem eq_zero_of_psq (w : Pt 3) (h : psq w = 0) : w = 0 := by
  rw [psq3] at h
  have h0 := sq_nonneg (w 0); have h1 := sq_nonneg (w 1); have h2 := sq_nonneg (w 2)
  funext i
  fin_cases i
  · exact pow_eq_zero_iff (two_ne_zero) |>.mp (by linarith : w 0 ^ 2 = 0)
  · exact pow_eq_zero_iff (two_ne_zero) |>.mp (by linarith : w 1 ^ 2 = 0)
  · exact pow_eq_zero_iff (two_ne_zero) |>.mp (by linarith : w 2 ^ 2 = 0)

section svd
variable {rows : List Row} {U V : Matrix (Fin 3) (Fin 3) ℝ} {s : Pt 3}

theorem col_orth (hV : V.transpose * V = 1) (i j : Fin 3) : pdot (V.col i) (V.col j) = if i = j then 1 else 0 := by
  have := congrFun (congrFun hV i) j
  rw [Matrix.mul_apply, Matrix.one_apply] at this
  exact this

theorem col_complete (hV : V.transpose * V = 1) (w : Pt 3) : w = ∑ i, pdot (V.col i) w • V.col i := by
  have h : V * V.transpose = 1 := mul_eq_one_comm.mp hV
  have e : (V * V.transpose).mulVec w = w := by rw [h, Matrix.one_mulVec]
  conv_lhs => rw [← e]
  rw [← Matrix.mulVec_mulVec]
  funext k
  rw [Finset.sum_apply]
  simp only [Matrix.mulVec, dotProduct, Pi.smul_apply, smul_eq_mul, Matrix.col, Matrix.transpose_apply, pdot]
  refine Finset.sum_congr rfl (fun i _ => ?_)
  rw [mul_comm]

theorem svd_col (hV : V.transpose * V = 1) (hM : U * Matrix.diagonal s * V.transpose = ata rows) (i : Fin 3) : (ata rows).mulVec (V.col i) = s i • U.col i := by
  rw [← hM, ← Matrix.mulVec_mulVec, ← Matrix.mulVec_mulVec]
  have : V.transpose.mulVec (V.col i) = Pi.single i 1 := by
    funext j
    have := col_orth hV j i
    rw [Pi.single_apply]
    exact this
  rw [this]
  funext k
  simp [Matrix.mulVec_diagonal, Matrix.mulVec, dotProduct, Pi.single_apply, Matrix.diagonal_apply, Matrix.col, mul_comm]

theorem svd_trans (hU : U.transpose * U = 1) (hV : V.transpose * V = 1) (hM : U * Matrix.diagonal s * V.transpose = ata rows) (i : Fin 3) : (ata rows).mulVec (U.col i) = s i • V.col i := by
  rw [col_complete hV ((ata rows).mulVec (U.col i))]
  have h : ∀ j, pdot (V.col j) ((ata rows).mulVec (U.col i)) = if i = j then s i else 0 := by
    intro j
    rw [ata_symm, svd_col hV hM]
    have e : pdot (U.col i) (s j • U.col j) = s j * pdot (U.col i) (U.col j) := by simp only [pdot3, Pi.smul_apply, smul_eq_mul]; ring
    rw [e, col_orth hU]
    split_ifs with h
    · rw [h, mul_one]
    · rw [mul_zero]
  simp only [h, ite_smul, zero_smul, Finset.sum_ite_eq, Finset.mem_univ, if_true]

/-- the singular vectors of a positive semidefinite matrix are eigenvectors -/
theorem svd_eigen (hU : U.transpose * U = 1) (hV : V.transpose * V = 1) (hs : ∀ i, 0 ≤ s i) (hM : U * Matrix.diagonal s * V.transpose = ata rows) (i : Fin 3) : s i ≠ 0 → U.col i = V.col i := by
  intro h0
  have hp : 0 < s i := lt_of_le_of_ne (hs i) (Ne.symm h0)
  set w := U.col i - V.col i with hw
  have h1 : (ata rows).mulVec w = -(s i) • w := by
    rw [hw, Matrix.mulVec_sub, svd_col hV hM, svd_trans hU hV hM]
    funext k; simp only [Pi.sub_apply, Pi.smul_apply, smul_eq_mul]; ring
  have h2 := ata_quad rows w
  rw [h1] at h2
  have h3 : pdot w (-(s i) • w) = -(s i) * psq w := by rw [pdot3, psq3]; simp only [Pi.smul_apply, smul_eq_mul]; ring
  rw [h3] at h2
  have h4 := quad_nonneg rows w
  have h5 := psq_nn w
  have h6 : psq w = 0 := by nlinarith
  exact sub_eq_zero.mp (eq_zero_of_psq w h6)

theorem svd_col' (hU : U.transpose * U = 1) (hV : V.transpose * V = 1) (hs : ∀ i, 0 ≤ s i) (hM : U * Matrix.diagonal s * V.transpose = ata rows) (i : Fin 3) :
    (ata rows).mulVec (V.col i) = s i • V.col i := by
  rw [svd_col hV hM]
  by_cases h : s i = 0
  · rw [h, zero_smul, zero_smul]
  · rw [svd_eigen hU hV hs hM i h]

theorem parseval (hV : V.transpose * V = 1) (w z : Pt 3) : pdot w z = ∑ i, pdot (V.col i) w * pdot (V.col i) z := by
  conv_lhs => rw [col_complete hV w]
  simp only [Fin.sum_univ_three, pdot3, Pi.add_apply, Pi.smul_apply, smul_eq_mul]
  ring

theorem pdot_smul_right (a : ℝ) (x y : Pt 3) : pdot x (a • y) = a * pdot x y := by simp only [pdot3, Pi.smul_apply, smul_eq_mul]; ring

/-- coordinates of a vector of the strong space vanish outside the kept directions -/
theorem strong_coord (hU : U.transpose * U = 1) (hV : V.transpose * V = 1) (hs : ∀ i, 0 ≤ s i) (hM : U * Matrix.diagonal s * V.transpose = ata rows) (t : ℝ) (w : Pt 3)
    (hw : w ∈ Strong (ata rows) t) (i : Fin 3) (hi : ¬ t < s i) : pdot (V.col i) w = 0 := by
  unfold Strong at hw
  induction hw using Submodule.span_induction with
  | mem w h =>
    obtain ⟨l, hl, h⟩ := h
    have e1 : pdot (V.col i) ((ata rows).mulVec w) = s i * pdot (V.col i) w := by
      rw [ata_symm, svd_col' hU hV hs hM, pdot_smul_right]
      congr 1; simp only [pdot3]; ring
    rw [h, pdot_smul_right] at e1
    have : (l - s i) * pdot (V.col i) w = 0 := by linear_combination e1
    rcases mul_eq_zero.mp this with h | h
    · exact absurd hl (by rw [show l = s i by linarith]; exact hi)
    · exact h
  | zero => simp [pdot3]
  | add x y _ _ hx hy =>
    have e : pdot (V.col i) (x + y) = pdot (V.col i) x + pdot (V.col i) y := by simp only [pdot3, Pi.add_apply]; ring
    rw [e, hx, hy, add_zero]
  | smul a x _ hx => rw [pdot_smul_right, hx, mul_zero]

theorem strong_col (hU : U.transpose * U = 1) (hV : V.transpose * V = 1) (hs : ∀ i, 0 ≤ s i) (hM : U * Matrix.diagonal s * V.transpose = ata rows) (t : ℝ) (i : Fin 3) (hi : t < s i) :
    V.col i ∈ Strong (ata rows) t := Submodule.subset_span ⟨s i, hi, svd_col' hU hV hs hM i⟩

end svd

/-- the step of `solveSystem` from the centre in the directions that are kept -/
theorem solve_eq (svd : Svd) (c : Pt 3) (t : ℝ) (rows : List Row) : solveSystem svd c t rows =
    c + ∑ i, (if t < (svd (ata rows)).2.1 i then pdot ((svd (ata rows)).1.col i) (atb rows - (ata rows).mulVec c) / (svd (ata rows)).2.1 i else 0) • (svd (ata rows)).2.2.col i := by
  unfold solveSystem
  simp only
  congr 1
  rw [← Matrix.mulVec_mulVec, ← Matrix.mulVec_mulVec]
  funext k
  rw [Finset.sum_apply]
  simp only [Matrix.mulVec, dotProduct, Matrix.diagonal_apply, ite_mul, zero_mul, Finset.sum_ite_eq, Finset.mem_univ, if_true, Pi.smul_apply, smul_eq_mul, Matrix.col, Matrix.transpose_apply, pdot]
  refine Finset.sum_congr rfl (fun i _ => ?_)
  split_ifs
  · ring
  · ring

/-- the solution of the truncated system: the minimiser among the points that differ from the centre by kept directions -/
theorem solve_min (svd : Svd) (c : Pt 3) (t : ℝ) (ht : 0 ≤ t) (rows : List Row) (h : IsSvd (ata rows) (svd (ata rows))) :
    solveSystem svd c t rows - c ∈ Strong (ata rows) t ∧ ∀ y, y - c ∈ Strong (ata rows) t →
      residual rows (solveSystem svd c t rows) ≤ residual rows y ∧ (residual rows y = residual rows (solveSystem svd c t rows) → y = solveSystem svd c t rows) := by
  rw [solve_eq]
  generalize svd (ata rows) = r at h
  obtain ⟨U, s, V⟩ := r
  obtain ⟨hU, hV, hs, hM⟩ := h
  simp only at hU hV hs hM ⊢
  set ρ := atb rows - (ata rows).mulVec c with hρ
  set x := c + ∑ i, (if t < s i then pdot (U.col i) ρ / s i else 0) • V.col i with hx
  have hmem : x - c ∈ Strong (ata rows) t := by
    rw [hx, add_sub_cancel_left]
    refine Submodule.sum_mem _ (fun i _ => ?_)
    split_ifs with hi
    · exact Submodule.smul_mem _ _ (strong_col hU hV hs hM t i hi)
    · rw [zero_smul]; exact Submodule.zero_mem _
  have hcol : ∀ i, t < s i → U.col i = V.col i := fun i hi => svd_eigen hU hV hs hM i (by linarith : 0 < s i).ne'
  refine ⟨hmem, fun y hy => ?_⟩
  have hw : y - x ∈ Strong (ata rows) t := by
    have := Submodule.sub_mem _ hy hmem
    rwa [sub_sub_sub_cancel_right] at this
  set w := y - x with hwd
  have hyx : y = x + w := by rw [hwd]; abel
  have hcoef : ∀ i, t < s i → pdot (V.col i) (x - c) = pdot (V.col i) ρ / s i := by
    intro i hi
    have e : pdot (V.col i) (x - c) = ∑ j, (if t < s j then pdot (U.col j) ρ / s j else 0) * pdot (V.col i) (V.col j) := by
      rw [hx, add_sub_cancel_left]
      simp only [Fin.sum_univ_three, pdot3, Pi.add_apply, Pi.smul_apply, smul_eq_mul]
      ring
    rw [e]
    simp only [col_orth hV, mul_ite, mul_one, mul_zero, Finset.sum_ite_eq, Finset.mem_univ, if_true]
    rw [if_pos hi, hcol i hi]
  have hMv : ∀ i z, pdot (V.col i) ((ata rows).mulVec z) = s i * pdot (V.col i) z := by
    intro i z
    rw [ata_symm, svd_col' hU hV hs hM, pdot_smul_right]
    congr 1; simp only [pdot3]; ring
  have hg : pdot w ((ata rows).mulVec x - atb rows) = 0 := by
    rw [parseval hV]
    refine Finset.sum_eq_zero (fun i _ => ?_)
    by_cases hi : t < s i
    · have e : (ata rows).mulVec x - atb rows = (ata rows).mulVec (x - c) - ρ := by rw [hρ, Matrix.mulVec_sub]; abel
      have e2 : pdot (V.col i) ((ata rows).mulVec (x - c) - ρ) = pdot (V.col i) ((ata rows).mulVec (x - c)) - pdot (V.col i) ρ := by
        simp only [pdot3, Pi.sub_apply]; ring
      have hsi : s i ≠ 0 := (by linarith : 0 < s i).ne'
      rw [e, e2, hMv, hcoef i hi, mul_div_cancel₀ _ hsi, sub_self, mul_zero]
    · rw [strong_coord hU hV hs hM t w hw i hi, zero_mul]
  have hr := residual_add rows x w
  rw [hg, mul_zero, add_zero, ← hyx] at hr
  refine ⟨by linarith [quad_nonneg rows w], fun he => ?_⟩
  have hq : quad rows w = 0 := by linarith
  rw [← ata_quad, parseval hV] at hq
  have hz : ∀ i, pdot (V.col i) w = 0 := by
    intro i
    by_cases hi : t < s i
    · have h0 := (Finset.sum_eq_zero_iff_of_nonneg (fun j _ => by
        rw [hMv]; have := mul_nonneg (hs j) (mul_self_nonneg (pdot (V.col j) w)); linarith)).mp hq i (Finset.mem_univ i)
      rw [hMv] at h0
      have hsi : 0 < s i := by linarith
      rcases mul_eq_zero.mp h0 with h | h
      · exact h
      · exact (mul_eq_zero.mp h).resolve_left hsi.ne'
    · exact strong_coord hU hV hs hM t w hw i hi
  have hw0 : w = 0 := by
    rw [col_complete hV w]
    exact Finset.sum_eq_zero (fun i _ => by rw [hz i, zero_smul])
  rw [hyx, hw0, add_zero]

/-- if the form is at least `mu` times the squared length, nothing is left out for thresholds below `mu` -/
theorem strong_top (rows : List Row) (r : Matrix (Fin 3) (Fin 3) ℝ × Pt 3 × Matrix (Fin 3) (Fin 3) ℝ) (h : IsSvd (ata rows) r) (t mu : ℝ) (ht : 0 ≤ t) (hmu : t < mu) (hq : ∀ w, mu * psq w ≤ quad rows w) :
    Strong (ata rows) t = ⊤ := by
  obtain ⟨U, s, V⟩ := r
  obtain ⟨hU, hV, hs, hM⟩ := h
  simp only at hU hV hs hM
  refine Submodule.eq_top_iff'.mpr (fun w => ?_)
  rw [col_complete hV w]
  refine Submodule.sum_mem _ (fun i _ => Submodule.smul_mem _ _ (strong_col hU hV hs hM t i ?_))
  have h1 := hq (V.col i)
  have h2 := col_orth hV i i
  rw [if_pos rfl] at h2
  rw [← pdot_self, h2, ← ata_quad, svd_col' hU hV hs hM, pdot_smul_right, h2] at h1
  linarith

end Gpy.Dual
