import Verif.Proofs.Angles
import Mathlib.Analysis.Real.Pi.Bounds

/-! Properties C53 and C46: `tip_angles`, `angle_defect`. -/

set_option autoImplicit false
namespace Gpy
open Np

/-! ## C53 -/

/-- The angle at `a` between the directions to `b` and to `c`. -/
noncomputable def angleAt (a b c : V3 ℝ) : ℝ :=
  Real.arccos (V3.dot (b - a) (c - a) / (Real.sqrt (V3.normSq (b - a)) * Real.sqrt (V3.normSq (c - a))))

/-- All squared side lengths are at least `sqrt(eps)`, so that the special case of `tip_angles_intrinsic` does not apply. -/
def NotSmall (r : Row3 ℝ) : Prop := (2 : ℝ) ^ (-26 : ℤ) ≤ r.x0 ∧ (2 : ℝ) ^ (-26 : ℤ) ≤ r.x1 ∧ (2 : ℝ) ^ (-26 : ℤ) ≤ r.x2

theorem tip_some {lsq : List (Row3 ℝ)} {F : List Tri} (h : LsqNonDeg lsq F) (approx : Bool) :
    tipAnglesIntrinsic lsq F approx = some (lsq.map (tipRow approx)) := by
  unfold tipAnglesIntrinsic
  rw [if_pos]
  refine ⟨⟨h.1, fun r hr => ?_⟩, fun r hr => ?_⟩
  · obtain ⟨h0, h1, h2, _⟩ := h.2 r hr; exact ⟨h0, h1, h2⟩
  · obtain ⟨h0, h1, h2⟩ := (h.2 r hr).pos; exact ⟨h0.ne', h1.ne', h2.ne'⟩

theorem tipRow_exact {approx : Bool} {r : Row3 ℝ} (h : approx = false ∨ NotSmall r) :
    tipRow approx r = ⟨exactAngle r.x1 r.x2 r.x0, exactAngle r.x2 r.x0 r.x1, exactAngle r.x0 r.x1 r.x2⟩ := by
  unfold tipRow
  rcases h with h | h
  · rw [crAngle_exact (Or.inl h), crAngle_exact (Or.inl h), crAngle_exact (Or.inl h)]
  · rw [crAngle_exact (Or.inr h.1), crAngle_exact (Or.inr h.2.1), crAngle_exact (Or.inr h.2.2)]

/-- C53, sum: for all triangles of positive area, given by squared side lengths, with the small-angle approximation turned off or with all
squared lengths at least `sqrt(eps)`, the three angles returned for a triangle are between 0 and pi and sum to pi. -/
theorem C53_tip_angles_sum (lsq : List (Row3 ℝ)) (F : List Tri) (h : LsqNonDeg lsq F) (approx : Bool) (hs : approx = false ∨ ∀ r ∈ lsq, NotSmall r) :
    ∃ α, tipAnglesIntrinsic lsq F approx = some α ∧ α.length = F.length ∧
      ∀ a ∈ α, a.x0 + a.x1 + a.x2 = Real.pi ∧ (0 ≤ a.x0 ∧ a.x0 ≤ Real.pi) ∧ (0 ≤ a.x1 ∧ a.x1 ≤ Real.pi) ∧ (0 ≤ a.x2 ∧ a.x2 ≤ Real.pi) := by
  refine ⟨_, tip_some h approx, by rw [List.length_map, h.1], ?_⟩
  intro a ha
  obtain ⟨r, hr, rfl⟩ := List.mem_map.mp ha
  rw [tipRow_exact (hs.imp id (fun h => h r hr))]
  exact ⟨exactAngle_sum (h.2 r hr), ⟨Real.arccos_nonneg _, Real.arccos_le_pi _⟩, ⟨Real.arccos_nonneg _, Real.arccos_le_pi _⟩,
    ⟨Real.arccos_nonneg _, Real.arccos_le_pi _⟩⟩

/-- C53, value: for triangles in the plane or in space, row `i` of `tip_angles(V,F)` consists of the angles of triangle `i` at its three
corners. -/
theorem C53_tip_angles_value (V : List (V3 ℝ)) (F : List Tri) (hne : F ≠ []) (hF : InRange F V.length) (approx : Bool)
    (hd : ∀ t ∈ F, NonDeg (lens (V.getD t.a 0) (V.getD t.b 0) (V.getD t.c 0)))
    (hs : approx = false ∨ ∀ t ∈ F, NotSmall (lens (V.getD t.a 0) (V.getD t.b 0) (V.getD t.c 0))) :
    tipAngles V F approx = some (F.map (fun t =>
      let a := V.getD t.a 0
      let b := V.getD t.b 0
      let c := V.getD t.c 0
      ⟨angleAt a b c, angleAt b c a, angleAt c a b⟩)) := by
  have hl : LsqNonDeg (F.map (fun t => lens (V.getD t.a 0) (V.getD t.b 0) (V.getD t.c 0))) F := by
    refine ⟨by simp, ?_⟩
    intro r hr
    obtain ⟨t, ht, rfl⟩ := List.mem_map.mp hr
    exact hd t ht
  have gen : ∀ a b c : V3 ℝ, exactAngle (V3.normSq (a - c)) (V3.normSq (b - a)) (V3.normSq (c - b)) = angleAt a b c := by
    intro a b c
    unfold exactAngle angleAt
    have n0 : 0 ≤ V3.normSq (b - a) := by simp only [V3.normSq, V3.dot]; nlinarith [sq_nonneg (b - a).x, sq_nonneg (b - a).y, sq_nonneg (b - a).z]
    have e1 : V3.normSq (c - a) = V3.normSq (a - c) := by simp only [V3.normSq, V3.dot, V3.sub_x, V3.sub_y, V3.sub_z]; ring
    have e2 : V3.normSq (a - c) + V3.normSq (b - a) - V3.normSq (c - b) = 2 * V3.dot (b - a) (c - a) := by
      simp only [V3.normSq, V3.dot, V3.sub_x, V3.sub_y, V3.sub_z]; ring
    rw [e1, e2, mul_comm (V3.normSq (a - c)), Real.sqrt_mul n0, mul_div_mul_left _ _ (by norm_num : (2 : ℝ) ≠ 0)]
  unfold tipAngles
  rw [hls_some hne hF]
  simp only [Option.bind_eq_bind, Option.bind_some]
  rw [tip_some hl approx, List.map_map]
  congr 1
  refine List.map_congr_left (fun t ht => ?_)
  rw [Function.comp_apply, tipRow_exact (hs.imp id (fun h => h t ht))]
  simp only [lens, gen]

/-- C53, the special case: an angle opposite of a side of squared length below `sqrt(eps)` is replaced by its chord, `2 sin(γ/2)` (which is
smaller than the angle). -/
theorem C53_small_side_chord_partial (r : Row3 ℝ) (h : NonDeg r) (h0 : r.x0 < (2 : ℝ) ^ (-26 : ℤ)) :
    (tipRow true r).x0 = 2 * Real.sin ((tipRow false r).x0 / 2) ∧ (tipRow true r).x0 < (tipRow false r).x0 := by
  have e : (tipRow false r).x0 = exactAngle r.x1 r.x2 r.x0 := crAngle_exact (Or.inl rfl)
  have e1 : (tipRow true r).x0 = 2 * Real.sin (exactAngle r.x1 r.x2 r.x0 / 2) := by
    unfold tipRow crAngle
    simp only
    rw [if_pos ⟨trivial, h0⟩, small_chord h]
  rw [e, e1]
  refine ⟨rfl, ?_⟩
  have hpos : 0 < exactAngle r.x1 r.x2 r.x0 := by
    unfold exactAngle
    rw [Real.arccos_pos]
    obtain ⟨p0, p1, p2⟩ := h.pos
    have hp := h.2.2.2
    have pp : 0 < r.x1 * r.x2 := mul_pos p1 p2
    have sp := Real.sqrt_pos.mpr pp
    rw [div_lt_one (by positivity)]
    apply lt_of_pow_lt_pow_left₀ 2 (by positivity)
    rw [mul_pow, Real.sq_sqrt pp.le]
    unfold heron at hp
    nlinarith
  have := Real.sin_lt (x := exactAngle r.x1 r.x2 r.x0 / 2) (by linarith)
  linarith

/-- C53 is FALSE of the default settings for small triangles: for the equilateral triangle of side `10^-5` the three returned angles are
all equal to one. -/
theorem C53_small_violated : ∃ r : Row3 ℝ, NonDeg r ∧ tipRow true r = ⟨1, 1, 1⟩ ∧ (tipRow true r).x0 + (tipRow true r).x1 + (tipRow true r).x2 ≠ Real.pi := by
  have hs : (1e-10 : ℝ) < smallSq := by unfold smallSq; norm_num
  have e : tipRow true ⟨1e-10, 1e-10, 1e-10⟩ = ⟨1, 1, 1⟩ := by
    unfold tipRow crAngle
    simp only
    rw [if_pos ⟨trivial, hs⟩, sub_self, Real.mul_self_sqrt (by norm_num)]
    norm_num
  refine ⟨⟨1e-10, 1e-10, 1e-10⟩, ?_, e, ?_⟩
  · unfold NonDeg heron; norm_num
  · rw [e]
    simp only
    have := Real.pi_gt_three
    intro h
    linarith

/-- a right-angled triangle meets the hypotheses -/
example : NonDeg ⟨25, 16, 9⟩ ∧ NotSmall ⟨25, 16, 9⟩ := by
  unfold NonDeg heron NotSmall; norm_num

/-! ## C46 -/

theorem angleDefect_sum {lsq : List (Row3 ℝ)} {F : List Tri} (hF : F ≠ []) (h : LsqNonDeg lsq F) (approx : Bool)
    (hs : approx = false ∨ ∀ r ∈ lsq, NotSmall r) (hc : ∀ e ∈ sides F, incid F e = 2) (n : Option ℕ) :
    ∃ k, angleDefectIntrinsic lsq F n approx = some k ∧
      k.length = max (n.getD 0) ((F.flatMap (fun t => [t.a, t.b, t.c])).foldl (fun m y => max m (y + 1)) 0) ∧
      k.sum = 2 * Real.pi * k.length - Real.pi * F.length := by
  have hb : boundaryVertices F = some [] := by
    unfold boundaryVertices
    rw [boundaryEdges_eq hF]
    have hb : bdryL F = [] := by
      rw [List.eq_nil_iff_forall_not_mem]
      intro e he
      obtain ⟨h1, h2⟩ := mem_bdryL.mp he
      have := hc e h1
      omega
    rw [hb]; rfl
  unfold angleDefectIntrinsic
  simp only [tip_some h approx, hb, Option.bind_eq_bind, Option.bind_some, List.foldl_nil]
  refine ⟨_, rfl, by unfold bincount; simp, ?_⟩
  have hlen : ((lsq.map (tipRow approx)).flatMap (fun r => [r.x0, r.x1, r.x2])).length = (F.flatMap (fun t => [t.a, t.b, t.c])).length := by
    rw [List.length_flatMap, List.length_flatMap]; simp [Function.comp_def, h.1]
  have hw : ((lsq.map (tipRow approx)).flatMap (fun r => [r.x0, r.x1, r.x2])).sum = Real.pi * F.length := by
    rw [← h.1]
    have : ∀ l : List (Row3 ℝ), (∀ r ∈ l, NonDeg r ∧ (approx = false ∨ NotSmall r)) →
        ((l.map (tipRow approx)).flatMap (fun r => [r.x0, r.x1, r.x2])).sum = Real.pi * l.length := by
      intro l
      induction l with
      | nil => intro _; simp
      | cons r t ih =>
        intro hl
        have ih := ih (fun r hr => hl r (List.mem_cons_of_mem _ hr))
        obtain ⟨h1, h2⟩ := hl r (by simp)
        have e := exactAngle_sum h1
        rw [List.map_cons, List.flatMap_cons, List.sum_append, ih, tipRow_exact h2]
        simp only [List.sum_cons, List.sum_nil, List.length_cons]
        push_cast
        linarith
    exact this lsq (fun r hr => ⟨h.2 r hr, hs.imp id (fun h => h r hr)⟩)
  have gen : ∀ l : List ℝ, (l.map (fun s => 2 * Real.pi - s)).sum = 2 * Real.pi * l.length - l.sum := by
    intro l
    induction l with
    | nil => simp
    | cons a t ih => rw [List.map_cons, List.sum_cons, ih, List.sum_cons, List.length_cons]; push_cast; ring
  rw [gen, bincount_sum _ _ _ hlen, hw, List.length_map]

/-- C46 (Gauss-Bonnet): for a closed triangle mesh (every edge on exactly two triangle sides, orientable or not) of triangles of positive
area, the angle defects returned by `angle_defect(V,F)` sum to `2*pi*(V - E + F)`.  (The small-angle approximation is turned off, or no
side is shorter than its threshold.) -/
theorem C46_gauss_bonnet (V : List (V3 ℝ)) (F : List Tri) (hne : F ≠ []) (hF : InRange F V.length)
    (hd : ∀ t ∈ F, NonDeg (lens (V.getD t.a 0) (V.getD t.b 0) (V.getD t.c 0))) (hc : ∀ e ∈ sides F, incid F e = 2) (approx : Bool)
    (hs : approx = false ∨ ∀ t ∈ F, NotSmall (lens (V.getD t.a 0) (V.getD t.b 0) (V.getD t.c 0))) :
    ∃ k, angleDefect V F approx = some k ∧ k.length = V.length ∧
      k.sum = 2 * Real.pi * ((V.length : ℝ) - numEdges F + F.length) := by
  have hl : LsqNonDeg (F.map (fun t => lens (V.getD t.a 0) (V.getD t.b 0) (V.getD t.c 0))) F := by
    refine ⟨by simp, ?_⟩
    intro r hr
    obtain ⟨t, ht, rfl⟩ := List.mem_map.mp hr
    exact hd t ht
  obtain ⟨k, h1, h2, h3⟩ := angleDefect_sum hne hl approx (hs.imp id (fun h r hr => by
    obtain ⟨t, ht, rfl⟩ := List.mem_map.mp hr; exact h t ht)) hc (some V.length)
  have hlen : k.length = V.length := by
    rw [h2, Option.getD_some, max_eq_left]
    apply foldl_max_lub _ _ _ (Nat.zero_le _)
    intro y hy
    obtain ⟨t, ht, hy⟩ := List.mem_flatMap.mp hy
    have := hF t ht
    simp only [List.mem_cons, List.not_mem_nil, or_false] at hy
    omega
  refine ⟨k, ?_, hlen, ?_⟩
  · unfold angleDefect
    rw [hls_some hne hF]
    simp only [Option.bind_eq_bind, Option.bind_some]
    exact h1
  · rw [h3, hlen]
    have : (2 : ℝ) * numEdges F = 3 * F.length := by exact_mod_cast closed_count hne hc
    linear_combination Real.pi * this

/-- C46 for given squared edge lengths (a metric that need not come from an embedding). -/
theorem C46_gauss_bonnet_intrinsic (lsq : List (Row3 ℝ)) (F : List Tri) (hne : F ≠ []) (h : LsqNonDeg lsq F) (hc : ∀ e ∈ sides F, incid F e = 2)
    (approx : Bool) (hs : approx = false ∨ ∀ r ∈ lsq, NotSmall r) (n : ℕ) (hn : InRange F n) :
    ∃ k, angleDefectIntrinsic lsq F (some n) approx = some k ∧ k.length = n ∧
      k.sum = 2 * Real.pi * ((n : ℝ) - numEdges F + F.length) := by
  obtain ⟨k, h1, h2, h3⟩ := angleDefect_sum hne h approx hs hc (some n)
  have hlen : k.length = n := by
    rw [h2, Option.getD_some, max_eq_left]
    apply foldl_max_lub _ _ _ (Nat.zero_le _)
    intro y hy
    obtain ⟨t, ht, hy⟩ := List.mem_flatMap.mp hy
    have := hn t ht
    simp only [List.mem_cons, List.not_mem_nil, or_false] at hy
    omega
  refine ⟨k, h1, hlen, ?_⟩
  rw [h3, hlen]
  have : (2 : ℝ) * numEdges F = 3 * F.length := by exact_mod_cast closed_count hne hc
  linear_combination Real.pi * this

/-- the boundary of a tetrahedron, with a regular metric, meets the hypotheses -/
example : let F : List Tri := [⟨0, 1, 2⟩, ⟨0, 2, 3⟩, ⟨0, 3, 1⟩, ⟨1, 3, 2⟩]
    (∀ e ∈ sides F, incid F e = 2) ∧ InRange F 4 ∧ numEdges F = 6 ∧ LsqNonDeg (List.replicate 4 ⟨1, 1, 1⟩) F := by
  refine ⟨by decide, by decide, by decide, ⟨rfl, ?_⟩⟩
  intro r hr
  rw [List.eq_of_mem_replicate hr]
  unfold NonDeg heron; norm_num

end Gpy
