import Verif.Model.Angles
import Verif.Proofs.Heron
import Verif.Proofs.EdgeCount
import Mathlib.Geometry.Euclidean.Triangle
import Mathlib.Analysis.SpecialFunctions.Trigonometric.Bounds
import Mathlib.Analysis.InnerProductSpace.PiL2

set_option autoImplicit false
namespace Gpy
open Np

theorem arccos_clip1 (x : ℝ) : Real.arccos (clip1 x) = Real.arccos x := by
  unfold clip1
  rcases le_total x (-1) with h | h
  · rw [max_eq_right h, min_eq_left (by norm_num), Real.arccos_of_le_neg_one h, Real.arccos_neg_one]
  · rw [max_eq_left h]
    rcases le_total x 1 with h1 | h1
    · rw [min_eq_left h1]
    · rw [min_eq_right h1, Real.arccos_one, Real.arccos_of_one_le h1]

theorem angle_formula {E : Type} [NormedAddCommGroup E] [InnerProductSpace ℝ E] (x y : E) :
    Real.arccos ((‖x‖ ^ 2 + ‖y‖ ^ 2 - ‖x - y‖ ^ 2) / (2 * Real.sqrt (‖x‖ ^ 2 * ‖y‖ ^ 2))) = InnerProductGeometry.angle x y := by
  unfold InnerProductGeometry.angle
  congr 1
  rw [real_inner_eq_norm_mul_self_add_norm_mul_self_sub_norm_sub_mul_self_div_two,
    show ‖x‖ ^ 2 * ‖y‖ ^ 2 = (‖x‖ * ‖y‖) ^ 2 by ring, Real.sqrt_sq (by positivity), div_div, sq, sq, sq]

/-- a triangle in the plane with given side lengths -/
theorem exists_triangle {r : Row3 ℝ} (h : NonDeg r) : ∃ x y : ℂ, x ≠ 0 ∧ y ≠ 0 ∧ ‖x‖ ^ 2 = r.x2 ∧ ‖y‖ ^ 2 = r.x1 ∧ ‖x - y‖ ^ 2 = r.x0 := by
  obtain ⟨p0, p1, p2⟩ := h.pos
  have hp := h.2.2.2
  have s2 := Real.sqrt_pos.mpr p2
  have q2 := Real.sq_sqrt p2.le
  set l := Real.sqrt r.x2 with hl
  set u := (r.x1 + r.x2 - r.x0) / (2 * l) with hu
  have hul : u * l = (r.x1 + r.x2 - r.x0) / 2 := by rw [hu]; field_simp
  have hv : 0 ≤ r.x1 - u ^ 2 := by
    have : (r.x1 - u ^ 2) * (4 * r.x2) = heron r := by
      have : (u * l) ^ 2 = ((r.x1 + r.x2 - r.x0) / 2) ^ 2 := by rw [hul]
      rw [mul_pow, q2] at this
      unfold heron
      nlinarith
    by_contra hn
    have : (r.x1 - u ^ 2) * (4 * r.x2) < 0 := by nlinarith
    linarith
  set v := Real.sqrt (r.x1 - u ^ 2) with hvd
  have qv := Real.sq_sqrt hv
  have n2 : ∀ z : ℂ, ‖z‖ ^ 2 = z.re ^ 2 + z.im ^ 2 := by intro z; rw [Complex.sq_norm, Complex.normSq_apply]; ring
  have ny : ‖(⟨u, v⟩ : ℂ)‖ ^ 2 = r.x1 := by rw [n2]; simp only; rw [qv]; ring
  refine ⟨(⟨l, 0⟩ : ℂ), ⟨u, v⟩, ?_, ?_, ?_, ny, ?_⟩
  · intro h; exact s2.ne' (by simpa using congrArg Complex.re h)
  · intro h; rw [h] at ny; simp at ny; linarith
  · rw [n2]; simp only; rw [q2]; ring
  · rw [n2]; simp only [Complex.sub_re, Complex.sub_im]
    have : (l - u) ^ 2 + (0 - v) ^ 2 = l ^ 2 - 2 * (u * l) + (u ^ 2 + v ^ 2) := by ring
    rw [this, q2, hul, qv]; ring

/-- the exact angles -/
noncomputable def exactAngle (a b c : ℝ) : ℝ := Real.arccos ((a + b - c) / (2 * Real.sqrt (a * b)))

theorem exactAngle_sum {r : Row3 ℝ} (h : NonDeg r) : exactAngle r.x1 r.x2 r.x0 + exactAngle r.x2 r.x0 r.x1 + exactAngle r.x0 r.x1 r.x2 = Real.pi := by
  obtain ⟨x, y, hx, hy, e2, e1, e0⟩ := exists_triangle h
  have key := InnerProductGeometry.angle_add_angle_sub_add_angle_sub_eq_pi x hy
  have a0 : exactAngle r.x1 r.x2 r.x0 = InnerProductGeometry.angle x y := by
    rw [← angle_formula, e2, e1, e0]; unfold exactAngle; rw [add_comm r.x1, mul_comm r.x1]
  have a1 : exactAngle r.x2 r.x0 r.x1 = InnerProductGeometry.angle x (x - y) := by
    rw [← angle_formula, sub_sub_cancel, e2, e0, e1]; rfl
  have a2 : exactAngle r.x0 r.x1 r.x2 = InnerProductGeometry.angle y (y - x) := by
    rw [← angle_formula, sub_sub_cancel, norm_sub_rev y x, e1, e0, e2]; unfold exactAngle; rw [add_comm r.x0, mul_comm r.x0]
  rw [a0, a1, a2]; exact key

theorem crAngle_exact {approx : Bool} {a b c : ℝ} (h : approx = false ∨ smallSq ≤ c) : crAngle approx a b c = exactAngle a b c := by
  unfold crAngle exactAngle
  rw [if_neg, arccos_clip1]
  rintro ⟨h1, h2⟩
  rcases h with h | h
  · rw [h] at h1; exact absurd h1 (by decide)
  · linarith

/-- triangle inequality in squared form -/
theorem NonDeg.cos_bound {r : Row3 ℝ} (h : NonDeg r) : |(r.x1 + r.x2 - r.x0) / (2 * Real.sqrt (r.x1 * r.x2))| ≤ 1 := by
  obtain ⟨p0, p1, p2⟩ := h.pos
  have hp := h.2.2.2
  have pp : 0 < r.x1 * r.x2 := mul_pos p1 p2
  have sp := Real.sqrt_pos.mpr pp
  rw [abs_div, abs_of_pos (by positivity : (0 : ℝ) < 2 * Real.sqrt (r.x1 * r.x2)), div_le_one (by positivity)]
  apply abs_le_of_sq_le_sq _ (by positivity)
  rw [mul_pow, Real.sq_sqrt pp.le]
  unfold heron at hp
  nlinarith

/-- the value of the small angle branch is the chord of the angle -/
theorem small_chord {r : Row3 ℝ} (h : NonDeg r) :
    Real.sqrt (max ((r.x0 - (Real.sqrt r.x1 - Real.sqrt r.x2) ^ 2) / (Real.sqrt r.x1 * Real.sqrt r.x2)) 0) =
      2 * Real.sin (exactAngle r.x1 r.x2 r.x0 / 2) := by
  obtain ⟨p0, p1, p2⟩ := h.pos
  have s1 := Real.sqrt_pos.mpr p1
  have s2 := Real.sqrt_pos.mpr p2
  have q1 := Real.sq_sqrt p1.le
  have q2 := Real.sq_sqrt p2.le
  have hc := abs_le.mp h.cos_bound
  set C := (r.x1 + r.x2 - r.x0) / (2 * Real.sqrt (r.x1 * r.x2)) with hC
  have hcos : Real.cos (exactAngle r.x1 r.x2 r.x0) = C := by unfold exactAngle; rw [Real.cos_arccos hc.1 hc.2]
  have e : (r.x0 - (Real.sqrt r.x1 - Real.sqrt r.x2) ^ 2) / (Real.sqrt r.x1 * Real.sqrt r.x2) = 2 - 2 * C := by
    rw [hC, Real.sqrt_mul p1.le]
    field_simp
    rw [sub_sq, q1, q2]; ring
  rw [e, max_eq_left (by linarith)]
  have hs : 2 - 2 * C = (2 * Real.sin (exactAngle r.x1 r.x2 r.x0 / 2)) ^ 2 := by
    rw [mul_pow, Real.sin_sq_eq_half_sub, mul_div_cancel₀ _ (by norm_num), hcos]; ring
  rw [hs, Real.sqrt_sq]
  have h0 : 0 ≤ exactAngle r.x1 r.x2 r.x0 := Real.arccos_nonneg _
  have hπ : exactAngle r.x1 r.x2 r.x0 ≤ Real.pi := Real.arccos_le_pi _
  have := Real.sin_nonneg_of_nonneg_of_le_pi (x := exactAngle r.x1 r.x2 r.x0 / 2) (by linarith) (by linarith [Real.pi_pos])
  linarith

theorem NonDeg.rot {r : Row3 ℝ} (h : NonDeg r) : NonDeg ⟨r.x1, r.x2, r.x0⟩ := by
  obtain ⟨h0, h1, h2, hp⟩ := h
  refine ⟨h1, h2, h0, ?_⟩
  unfold heron at *
  simp only
  linarith

/-- sum of a bincount -/
theorem foldl_max_le (x : List ℕ) : ∀ m : ℕ, m ≤ x.foldl (fun m y => max m (y + 1)) m ∧ ∀ y ∈ x, y < x.foldl (fun m y => max m (y + 1)) m := by
  induction x with
  | nil => intro m; simp
  | cons a t ih =>
    intro m
    obtain ⟨h1, h2⟩ := ih (max m (a + 1))
    refine ⟨le_trans (le_max_left _ _) h1, ?_⟩
    intro y hy
    rcases List.mem_cons.mp hy with rfl | hy
    · have : y + 1 ≤ max m (y + 1) := le_max_right _ _
      exact lt_of_lt_of_le (by omega) h1
    · exact h2 y hy

theorem foldl_max_lub (x : List ℕ) (N : ℕ) : ∀ m : ℕ, m ≤ N → (∀ y ∈ x, y < N) → x.foldl (fun m y => max m (y + 1)) m ≤ N := by
  induction x with
  | nil => intro m h _; exact h
  | cons a t ih =>
    intro m h hy
    exact ih _ (max_le h (hy a (by simp))) (fun y hy' => hy y (List.mem_cons_of_mem _ hy'))

theorem sum_range_filter (L : ℕ) (p : List (ℕ × ℝ)) (h : ∀ q ∈ p, q.1 < L) :
    ((List.range L).map (fun i => ((p.filter (fun q => q.1 = i)).map (·.2)).sum)).sum = (p.map (·.2)).sum := by
  induction p with
  | nil => simp
  | cons a t ih =>
    have ih := ih (fun q hq => h q (List.mem_cons_of_mem _ hq))
    have e : ∀ i, (((a :: t).filter (fun q => q.1 = i)).map (·.2)).sum = (if a.1 = i then a.2 else 0) + ((t.filter (fun q => q.1 = i)).map (·.2)).sum := by
      intro i
      rw [List.filter_cons]
      by_cases hi : a.1 = i <;> simp [hi]
    rw [List.map_congr_left (fun i _ => e i), List.sum_map_add, ih, List.map_cons, List.sum_cons]
    congr 1
    have ha := h a (by simp)
    rw [← List.sum_toFinset _ List.nodup_range]
    simp [List.toFinset_range, ha]

theorem bincount_sum (x : List ℕ) (w : List ℝ) (n : ℕ) (h : w.length = x.length) : (bincount x w n).sum = w.sum := by
  unfold bincount
  rw [sum_range_filter]
  · rw [List.map_snd_zip (by omega)]
  · intro q hq
    have := List.of_mem_zip hq
    exact lt_of_lt_of_le ((foldl_max_le x 0).2 q.1 this.1) (le_max_right _ _)

/-- a mesh in which every edge has two triangles -/
theorem closed_count {F : List Tri} (hF : F ≠ []) (hc : ∀ e ∈ sides F, incid F e = 2) : 2 * numEdges F = 3 * F.length := by
  rw [numEdges_eq hF (edges_eq hF)]
  have hb : bdryL F = [] := by
    rw [List.eq_nil_iff_forall_not_mem]
    intro e he
    obtain ⟨h1, h2⟩ := mem_bdryL.mp he
    have := hc e h1
    omega
  have hp : (npUnique (sortedL F)).Perm (sortedL F).dedup := by
    apply (List.perm_ext_iff_of_nodup _ (List.nodup_dedup _)).mpr
    · intro a; rw [mem_npUnique, List.mem_dedup]
    · exact (npUnique_pairwise_lt _).imp (fun h => ne_of_lt h)
  have h1 : ((npUnique (sortedL F)).map (fun x => (sortedL F).count x)).sum = (sortedL F).length := by
    rw [(hp.map _).sum_eq, List.sum_map_count_dedup_eq_length]
  have h2 : (sortedL F).length = 3 * F.length := by rw [sortedL, List.length_map, length_flatL]
  have hcount : ∀ x ∈ npUnique (sortedL F), (sortedL F).count x = 2 := by
    intro x hx
    have hx' := mem_sortedL hx
    have hs : x.sort = x := by
      unfold sortedL at hx'; rw [List.mem_map] at hx'
      obtain ⟨a, _, rfl⟩ := hx'; exact Edge.sort_sort a
    have hi : incid F x = (sortedL F).count x := by rw [incid_eq_count, hs]
    have hpos := count_pos_of_mem_uniq hx
    obtain ⟨h, hh, hu⟩ := (incid_pos_iff F x).mp (by omega)
    have := hc h hh
    rw [← hi, ← this, incid_eq_count, incid_eq_count, Edge.sort_eq_iff.mpr hu]
  rw [List.map_congr_left hcount] at h1
  simp only [List.length_append, hb, List.length_nil, Nat.zero_add]
  have h3 : (intL F).length = (npUnique (sortedL F)).length := by
    unfold intL
    rw [List.filter_eq_self.mpr]
    intro x hx
    simp [hcount x hx]
  rw [h3, ← h2, ← h1]
  simp [mul_comm]

end Gpy
