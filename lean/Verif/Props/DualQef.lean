import Verif.Proofs.DualQef
import Mathlib.Data.Fin.VecNotation

/-!
# C121: the vertex of a cell minimises its quadratic energy
-/

set_option autoImplicit false
namespace Gpy.Dual
open Matrix

noncomputable section
open Classical

/-! ### specification -/

/-- the squared distances to the tangent planes of the Hermite data (for unit normals) -/
def hermiteTerm (c : Cell) (x : Pt 3) : ℝ := ((List.range 12).map (fun e => match c.pos e with | none => 0 | some p => pdot ((c.nrm e).getD 0) (x - p) ^ 2)).sum

/-- the weights of the cell vertex, the Hermite point and the face point in the point of the surface that is closest to the centre of a sphere; the vertex itself if its weight is tiny -/
def weights (f : Info) : ℝ × ℝ × ℝ := if |f.bary.1| < 1 / 10 ^ 6 then (1, 0, 0) else f.bary

/-- where that point is if the cell vertex is at `x` -/
def moved (f : Info) (x : Pt 3) : Pt 3 := (weights f).1 • x + (weights f).2.1 • f.p + (weights f).2.2 • f.fip

/-- the point of the sphere in the direction of the present surface point (the centre if this is not a direction) -/
def target (f : Info) (prev : Pt 3) : Pt 3 :=
  if pnorm (moved f prev - f.c) < 1 / 10 ^ 9 then f.c else f.c + (pnorm (f.q - f.c) / pnorm (moved f prev - f.c)) • (moved f prev - f.c)

/-- a sphere of a negative sample does not count if the surface is outside of it -/
def Ignored (c : Cell) (f : Info) : Prop := pnorm (f.q - f.c) < pnorm (moved f c.prev - f.c) ∧ (c.spheres.getD f.sphere ⟨0, 1, 0⟩).sign = -1

/-- the squares of the radius times the distance of the surface point to the tangent plane of the sphere -/
def sphereTerm (c : Cell) (x : Pt 3) : ℝ := (c.infos.map (fun f => if Ignored c f then 0 else pdot (target f c.prev - f.c) (moved f x - target f c.prev) ^ 2)).sum

/-- the energy of a cell -/
def energy (mu dcWeight sphereWeight : ℝ) (c : Cell) (x : Pt 3) : ℝ := dcWeight ^ 2 * hermiteTerm c x + sphereWeight * sphereTerm c x + mu * psq (x - c.prev)

/-! ### theorems -/

theorem residual_append (l l' : List Row) (x : Pt 3) : residual (l ++ l') x = residual l x + residual l' x := by simp [residual]

theorem hermite_residual (w : ℝ) (c : Cell) (x : Pt 3) : ∀ l : List ℕ, residual (l.filterMap (fun e => (c.pos e).map (fun p => (w • (c.nrm e).getD 0, pdot (w • (c.nrm e).getD 0) p)))) x =
    w ^ 2 * (l.map (fun e => match c.pos e with | none => 0 | some p => pdot ((c.nrm e).getD 0) (x - p) ^ 2)).sum := by
  intro l
  induction l with
  | nil => simp [residual]
  | cons e l ih =>
    rw [List.map_cons, List.sum_cons, mul_add, ← ih, List.filterMap_cons]
    cases hp : c.pos e with
    | none => simp
    | some p =>
      simp only [Option.map_some]
      rw [residual, List.map_cons, List.sum_cons, ← residual]
      congr 1
      simp only [pdot3, Pi.smul_apply, Pi.sub_apply, smul_eq_mul]; ring

theorem sphere_residual (w : ℝ) (hw : 0 ≤ w) (c : Cell) (x : Pt 3) : ∀ l : List Info, residual (l.filterMap (sphereRow c.spheres w c.prev)) x =
    w * (l.map (fun f => if Ignored c f then 0 else pdot (target f c.prev - f.c) (moved f x - target f c.prev) ^ 2)).sum := by
  intro l
  induction l with
  | nil => simp [residual]
  | cons f l ih =>
    rw [List.map_cons, List.sum_cons, mul_add, ← ih, List.filterMap_cons]
    have hmv : ∀ y, (if |f.bary.1| < 1 / 10 ^ 6 then 1 else f.bary.1) • y + (if |f.bary.1| < 1 / 10 ^ 6 then 0 else f.bary.2.1) • f.p + (if |f.bary.1| < 1 / 10 ^ 6 then 0 else f.bary.2.2) • f.fip = moved f y := by
      intro y; unfold moved weights; split_ifs <;> rfl
    have h1 : (if |f.bary.1| < 1 / 10 ^ 6 then 1 else f.bary.1) = (weights f).1 := by unfold weights; split_ifs <;> rfl
    have h2 : (if |f.bary.1| < 1 / 10 ^ 6 then 0 else f.bary.2.1) = (weights f).2.1 := by unfold weights; split_ifs <;> rfl
    have h3 : (if |f.bary.1| < 1 / 10 ^ 6 then 0 else f.bary.2.2) = (weights f).2.2 := by unfold weights; split_ifs <;> rfl
    have hrow : sphereRow c.spheres w c.prev f = if Ignored c f then none else some (((weights f).1 * Real.sqrt w) • (target f c.prev - f.c),
        Real.sqrt w * (pdot (target f c.prev) (target f c.prev - f.c) - (weights f).2.1 * pdot f.p (target f c.prev - f.c) - (weights f).2.2 * pdot f.fip (target f c.prev - f.c))) := by
      unfold sphereRow
      simp only
      rw [hmv, h1, h2, h3]
      unfold Ignored target
      congr
    rw [hrow]
    by_cases hi : Ignored c f
    · simp [hi]
    · simp only [if_neg hi]
      rw [residual, List.map_cons, List.sum_cons, ← residual]
      congr 1
      have hs := Real.mul_self_sqrt hw
      simp only [pdot3, moved, Pi.smul_apply, Pi.sub_apply, Pi.add_apply, smul_eq_mul]
      generalize target f c.prev = q
      generalize Real.sqrt w = s at hs
      rw [← hs]
      ring

theorem reg_residual (mu : ℝ) (hmu : 0 ≤ mu) (v x : Pt 3) : residual ((List.finRange 3).map (fun i => (Pi.single i (Real.sqrt mu), Real.sqrt mu * v i))) x = mu * psq (x - v) := by
  have hs := Real.mul_self_sqrt hmu
  generalize Real.sqrt mu = s at hs
  have : List.finRange 3 = [0, 1, 2] := rfl
  rw [this, ← hs]
  simp [residual, pdot3, psq3, Pi.single_apply]
  ring

/-- C121: the least squares system of `minimize_qef` is the energy of the cell -/
theorem C121_energy (mu dcWeight w : ℝ) (hmu : 0 ≤ mu) (hw : 0 ≤ w) (c : Cell) (x : Pt 3) : residual (qefRows mu dcWeight w c) x = energy mu dcWeight w c x := by
  unfold qefRows energy hermiteTerm sphereTerm
  rw [residual_append, residual_append, hermite_residual, sphere_residual _ hw, reg_residual _ hmu]

theorem qef_quad (mu dcWeight w : ℝ) (hmu : 0 ≤ mu) (c : Cell) (x : Pt 3) : mu * psq x ≤ quad (qefRows mu dcWeight w c) x := by
  have happ : ∀ l l' : List Row, quad (l ++ l') x = quad l x + quad l' x := by intro l l'; simp [quad]
  unfold qefRows
  rw [happ]
  have h1 := quad_nonneg (List.filterMap (fun e => Option.map (fun p => let n := dcWeight • (c.nrm e).getD 0; (n, pdot n p)) (c.pos e)) (List.range 12) ++ List.filterMap (sphereRow c.spheres w c.prev) c.infos) x
  have h2 : quad ((List.finRange 3).map (fun i => (Pi.single i (Real.sqrt mu), Real.sqrt mu * c.prev i))) x = mu * psq x := by
    have hs := Real.mul_self_sqrt hmu
    generalize Real.sqrt mu = s at hs
    have : List.finRange 3 = [0, 1, 2] := rfl
    rw [this, ← hs]
    simp [quad, pdot3, psq3, Pi.single_apply]
    ring
  rw [h2]
  linarith

/-- C121: if `mu` is above `svd_threshold` (as by default) and the linear algebra routine returns a singular value decomposition, the new vertex is the only minimiser of the energy of the cell -/
theorem C121_step (svd : Svd) (mu dcWeight w t : ℝ) (c : Cell) (ht : 0 ≤ t) (hmu : t < mu) (hw : 0 ≤ w) (h : IsSvd (ata (qefRows mu dcWeight w c)) (svd (ata (qefRows mu dcWeight w c)))) (y : Pt 3) :
    energy mu dcWeight w c (minimizeQef svd mu dcWeight w t c).vertex ≤ energy mu dcWeight w c y ∧
      (energy mu dcWeight w c y = energy mu dcWeight w c (minimizeQef svd mu dcWeight w t c).vertex → y = (minimizeQef svd mu dcWeight w t c).vertex) := by
  have h0 : 0 ≤ mu := by linarith
  have := (solve_min svd (centroid c) t ht _ h).2 y (by rw [strong_top _ _ h t mu ht hmu (qef_quad mu dcWeight w h0 c)]; trivial)
  rw [C121_energy _ _ _ h0 hw, C121_energy _ _ _ h0 hw] at this
  exact this

/-- C121: so the energy does not go up and the step is bounded by the energy before it -/
theorem C121_bounded (svd : Svd) (mu dcWeight w t : ℝ) (c : Cell) (ht : 0 ≤ t) (hmu : t < mu) (hw : 0 ≤ w) (h : IsSvd (ata (qefRows mu dcWeight w c)) (svd (ata (qefRows mu dcWeight w c)))) :
    mu * psq ((minimizeQef svd mu dcWeight w t c).vertex - c.prev) ≤ dcWeight ^ 2 * hermiteTerm c c.prev + w * sphereTerm c c.prev := by
  have h1 := (C121_step svd mu dcWeight w t c ht hmu hw h c.prev).1
  have h2 : psq (c.prev - c.prev) = 0 := by rw [sub_self, psq3]; simp
  unfold energy at h1
  rw [h2, mul_zero, add_zero] at h1
  have hH : 0 ≤ hermiteTerm c (minimizeQef svd mu dcWeight w t c).vertex := by
    refine List.sum_nonneg (fun a ha => ?_)
    obtain ⟨e, -, rfl⟩ := List.mem_map.mp ha
    split
    · exact le_refl 0
    · exact sq_nonneg _
  have hS : 0 ≤ sphereTerm c (minimizeQef svd mu dcWeight w t c).vertex := by
    refine List.sum_nonneg (fun a ha => ?_)
    obtain ⟨e, -, rfl⟩ := List.mem_map.mp ha
    split
    · exact le_refl 0
    · exact sq_nonneg _
  have := mul_nonneg (sq_nonneg dcWeight) hH
  have := mul_nonneg hw hS
  linarith

/-- C121: a vertex on all Hermite planes whose surface touches all spheres stays where it is -/
theorem C121_stays (svd : Svd) (mu dcWeight w t : ℝ) (c : Cell) (ht : 0 ≤ t) (hmu : t < mu) (hw : 0 ≤ w) (h : IsSvd (ata (qefRows mu dcWeight w c)) (svd (ata (qefRows mu dcWeight w c))))
    (hH : ∀ e < 12, ∀ p, c.pos e = some p → pdot ((c.nrm e).getD 0) (c.prev - p) = 0) (hS : ∀ f ∈ c.infos, pnorm (moved f c.prev - f.c) = pnorm (f.q - f.c)) :
    (minimizeQef svd mu dcWeight w t c).vertex = c.prev := by
  have h1 := C121_bounded svd mu dcWeight w t c ht hmu hw h
  have e1 : hermiteTerm c c.prev = 0 := by
    refine List.sum_eq_zero (fun a ha => ?_)
    obtain ⟨e, he, rfl⟩ := List.mem_map.mp ha
    split
    · rfl
    · rename_i p hp
      rw [hH e (by simpa using he) p hp]; norm_num
  have e2 : sphereTerm c c.prev = 0 := by
    refine List.sum_eq_zero (fun a ha => ?_)
    obtain ⟨f, hf, rfl⟩ := List.mem_map.mp ha
    split
    · rfl
    · unfold target
      by_cases hr : pnorm (moved f c.prev - f.c) < 1 / 10 ^ 9
      · rw [if_pos hr, sub_self]; simp [pdot3]
      · rw [if_neg hr, ← hS f hf, div_self (fun h0 => hr (by rw [h0]; positivity)), one_smul]
        have : moved f c.prev - (f.c + (moved f c.prev - f.c)) = 0 := by abel
        rw [this]; simp [pdot3]
  rw [e1, e2, mul_zero, mul_zero, add_zero] at h1
  have h2 := psq_nn ((minimizeQef svd mu dcWeight w t c).vertex - c.prev)
  have h3 : psq ((minimizeQef svd mu dcWeight w t c).vertex - c.prev) = 0 := by nlinarith
  exact sub_eq_zero.mp (eq_zero_of_psq _ h3)

/-- C121: for any `svd_threshold` the new vertex differs from the mean of the Hermite points by a vector of the span of the eigenvectors of `A^T A` for eigenvalues above it, and is the only minimiser of the energy among these
points -/
theorem C121_truncated (svd : Svd) (mu dcWeight w t : ℝ) (c : Cell) (ht : 0 ≤ t) (hmu : 0 ≤ mu) (hw : 0 ≤ w) (h : IsSvd (ata (qefRows mu dcWeight w c)) (svd (ata (qefRows mu dcWeight w c)))) :
    (minimizeQef svd mu dcWeight w t c).vertex - centroid c ∈ Strong (ata (qefRows mu dcWeight w c)) t ∧ ∀ y, y - centroid c ∈ Strong (ata (qefRows mu dcWeight w c)) t →
      energy mu dcWeight w c (minimizeQef svd mu dcWeight w t c).vertex ≤ energy mu dcWeight w c y ∧
        (energy mu dcWeight w c y = energy mu dcWeight w c (minimizeQef svd mu dcWeight w t c).vertex → y = (minimizeQef svd mu dcWeight w t c).vertex) := by
  obtain ⟨h1, h2⟩ := solve_min svd (centroid c) t ht _ h
  refine ⟨h1, fun y hy => ?_⟩
  have := h2 y hy
  rw [C121_energy _ _ _ hmu hw, C121_energy _ _ _ hmu hw] at this
  exact this

/-- a cell with one Hermite point and a singular value decomposition of its system -/
example : ∃ (c : Cell) (svd : Svd), IsSvd (ata (qefRows (1 / 10) 1 1 c)) (svd (ata (qefRows (1 / 10) 1 1 c))) ∧ hermiteTerm c c.prev = 1 := by
  refine ⟨⟨0, 0, 0, fun _ => 0, fun _ => 0, fun e => if e = 0 then some 0 else none, fun e => if e = 0 then some ![1, 0, 0] else none, [], [], fun _ => none, 0, ![1, 0, 0], true⟩,
    fun _ => (1, ![1 + 1 / 10, 1 / 10, 1 / 10], 1), ⟨by simp, by simp, ?_, ?_⟩, ?_⟩
  · intro i; fin_cases i <;> norm_num
  · have hs : Real.sqrt (1 / 10) * Real.sqrt (1 / 10) = 1 / 10 := Real.mul_self_sqrt (by norm_num)
    rw [Matrix.one_mul, Matrix.transpose_one, Matrix.mul_one]
    have h3 : List.finRange 3 = [0, 1, 2] := rfl
    unfold qefRows
    rw [h3]
    generalize Real.sqrt (1 / 10) = s at hs
    ext i j
    simp only [ata, Matrix.of_apply, List.range, List.range.loop, List.filterMap_cons, List.filterMap_nil]
    fin_cases i <;> fin_cases j <;> simp [Matrix.diagonal_apply, Pi.single_apply, hs] <;> norm_num
  · simp [hermiteTerm, List.range, List.range.loop, pdot3]

end

end Gpy.Dual
