import Verif.Model.Winding
import Verif.Props.SquaredDistance
import Verif.Props.PointElement
import Mathlib.Analysis.SpecialFunctions.Complex.Log
import Mathlib.Topology.Order.IntermediateValue
import Mathlib.Tactic.LinearCombination

/-! C45: winding numbers of plane polylines. -/

set_option autoImplicit false
namespace Gpy
open Complex

/-! ## Specification -/

/-- The edges of the curve: pairs of points. -/
def curveEdges (V : List (Pt 2)) (E : List (ℕ × ℕ)) (P : List (Pt 2 × Pt 2)) : Prop :=
  List.Forall₂ (fun e p => V[e.1]? = some p.1 ∧ V[e.2]? = some p.2) E P

/-- Every vertex is the start of as many edges as it is the end of: a union of closed polylines. -/
def ClosedCurve (E : List (ℕ × ℕ)) : Prop := (E.map Prod.fst).Perm (E.map Prod.snd)

/-- the rows of the index array -/
def edgeRows (E : List (ℕ × ℕ)) : List (List ℕ) := E.map (fun e => [e.1, e.2])

/-- `x` lies on the closed segment from `s` to `d` -/
def OnSegment (x s d : Pt 2) : Prop := ∃ t : ℝ, 0 ≤ t ∧ t ≤ 1 ∧ ∀ i, x i = (1 - t) * s i + t * d i

/-- a point of the plane as a complex number -/
def toC (x : Pt 2) : ℂ := ⟨x 0, x 1⟩

/-! ## Proofs -/

theorem wnEnds_rows (V : List (Pt 2)) : ∀ (E : List (ℕ × ℕ)) (P : List (Pt 2 × Pt 2)),
    (edgeRows E).mapM (wnEnds V) = some P ↔ curveEdges V E P
  | [], P => by
    unfold curveEdges edgeRows
    simp only [List.map_nil, List.mapM_nil, Option.pure_def, Option.some.injEq]
    constructor
    · rintro rfl; exact List.Forall₂.nil
    · intro h; cases h; rfl
  | (i, j) :: E, P => by
    have ih := wnEnds_rows V E
    unfold edgeRows at ih ⊢
    rw [List.map_cons, List.mapM_cons]
    simp only [Option.bind_eq_bind, Option.bind_eq_some_iff, Option.pure_def, Option.some.injEq, wnEnds]
    constructor
    · rintro ⟨p, ⟨s, hs, d, hd, rfl⟩, P', hP', rfl⟩
      exact List.Forall₂.cons ⟨hs, hd⟩ ((ih P').mp hP')
    · intro h
      cases h with
      | cons h1 h2 => exact ⟨_, ⟨_, h1.1, _, h1.2, rfl⟩, _, (ih _).mpr h2, rfl⟩

theorem wnAngle_eq (o s d : Pt 2) : wnAngle o s d = -arg ((starRingEnd ℂ) (toC o - toC d) * (toC o - toC s)) := by
  unfold wnAngle npArctan2
  simp only
  congr 2
  apply Complex.ext
  · simp [toC]; ring
  · simp [toC]; ring

theorem toC_inj {x y : Pt 2} (h : toC x = toC y) : x = y := by
  have h0 : x 0 = y 0 := congrArg Complex.re h
  have h1 : x 1 = y 1 := congrArg Complex.im h
  funext i
  match i with
  | 0 => exact h0
  | 1 => exact h1

theorem wnAngle_coe {o s d : Pt 2} (hs : o ≠ s) (hd : o ≠ d) :
    (wnAngle o s d : Real.Angle) = (arg (toC o - toC d) : Real.Angle) - arg (toC o - toC s) := by
  have h1 : toC o - toC d ≠ 0 := sub_ne_zero.mpr (fun h => hd (toC_inj h))
  have h2 : toC o - toC s ≠ 0 := sub_ne_zero.mpr (fun h => hs (toC_inj h))
  rw [wnAngle_eq, Real.Angle.coe_neg, arg_mul_coe_angle ((map_ne_zero _).mpr h1) h2, arg_conj_coe_angle]
  abel

theorem curve_fst {V : List (Pt 2)} {E : List (ℕ × ℕ)} {P : List (Pt 2 × Pt 2)} (h : curveEdges V E P) :
    P.map (fun p => some p.1) = E.map (fun e => V[e.1]?) ∧ P.map (fun p => some p.2) = E.map (fun e => V[e.2]?) := by
  unfold curveEdges at h
  induction h with
  | nil => exact ⟨rfl, rfl⟩
  | cons h1 h2 ih => simp only [List.map_cons, ih.1, ih.2, h1.1, h1.2]; exact ⟨trivial, trivial⟩

/-- the starting points of the edges of a closed curve are, with multiplicity, their end points -/
theorem closed_perm {V : List (Pt 2)} {E : List (ℕ × ℕ)} {P : List (Pt 2 × Pt 2)} (h : curveEdges V E P) (hc : ClosedCurve E) :
    (P.map Prod.fst).Perm (P.map Prod.snd) := by
  obtain ⟨h1, h2⟩ := curve_fst h
  have : (P.map (fun p => some p.1)).Perm (P.map (fun p => some p.2)) := by
    rw [h1, h2]
    have := hc.map (fun i => V[i]?)
    rwa [List.map_map, List.map_map] at this
  have h3 := this.filterMap id
  have e1 : ∀ l : List (Pt 2 × Pt 2), (l.map (fun p => some p.1)).filterMap id = l.map Prod.fst := by
    intro l; induction l with
    | nil => rfl
    | cons a l ih => simp
  have e2 : ∀ l : List (Pt 2 × Pt 2), (l.map (fun p => some p.2)).filterMap id = l.map Prod.snd := by
    intro l; induction l with
    | nil => rfl
    | cons a l ih => simp
  rwa [e1, e2] at h3

theorem wn_sum_coe {o : Pt 2} : ∀ {P : List (Pt 2 × Pt 2)}, (∀ p ∈ P, o ≠ p.1 ∧ o ≠ p.2) →
    ((P.map (fun e => wnAngle o e.1 e.2)).sum : Real.Angle) =
      ((P.map Prod.snd).map (fun x => (arg (toC o - toC x) : Real.Angle))).sum -
      ((P.map Prod.fst).map (fun x => (arg (toC o - toC x) : Real.Angle))).sum
  | [], _ => by simp
  | p :: P, h => by
    have ih := wn_sum_coe (P := P) (fun p hp => h p (List.mem_cons_of_mem _ hp))
    obtain ⟨h1, h2⟩ := h p List.mem_cons_self
    simp only [List.map_cons, List.sum_cons, Real.Angle.coe_add, ih, wnAngle_coe h1 h2]
    abel

theorem windingNumber2_eq {V : List (Pt 2)} {E : List (ℕ × ℕ)} {P : List (Pt 2 × Pt 2)} (h : curveEdges V E P) (o : Pt 2) :
    windingNumber2 o V (edgeRows E) = some ((P.map (fun e => wnAngle o e.1 e.2)).sum / (2 * Real.pi)) := by
  unfold windingNumber2
  rw [(wnEnds_rows V E P).mpr h]
  rfl

/-- **C45.** The winding number of a union of closed polylines at a point that is no vertex of them is an integer. -/
theorem C45_integer {V : List (Pt 2)} {E : List (ℕ × ℕ)} {P : List (Pt 2 × Pt 2)} (h : curveEdges V E P) (hc : ClosedCurve E)
    {o : Pt 2} (ho : ∀ p ∈ P, o ≠ p.1 ∧ o ≠ p.2) :
    ∃ w : ℤ, windingNumber2 o V (edgeRows E) = some (w : ℝ) := by
  have h1 := wn_sum_coe ho
  rw [((closed_perm h hc).map _).sum_eq, sub_self] at h1
  obtain ⟨w, hw⟩ := Real.Angle.coe_eq_zero_iff.mp h1
  refine ⟨w, ?_⟩
  rw [windingNumber2_eq h, ← hw]
  congr 1
  rw [zsmul_eq_mul]
  field_simp

/-- twice the signed area of the triangle `x,s,d` -/
def orient (x s d : Pt 2) : ℝ := (s 0 - x 0) * (d 1 - x 1) - (s 1 - x 1) * (d 0 - x 0)

theorem wnAngle_args (o s d : Pt 2) : ((starRingEnd ℂ) (toC o - toC d) * (toC o - toC s)).im = -orient o s d ∧
    ((starRingEnd ℂ) (toC o - toC d) * (toC o - toC s)).re = (o 0 - d 0) * (o 0 - s 0) + (o 1 - d 1) * (o 1 - s 1) := by
  constructor
  · simp [toC, orient]; ring
  · simp [toC]; ring

/-- off the segment, the argument is not on the branch cut -/
theorem wn_slit {o s d : Pt 2} (h : ¬ OnSegment o s d) : (starRingEnd ℂ) (toC o - toC d) * (toC o - toC s) ∈ Complex.slitPlane := by
  rw [Complex.mem_slitPlane_iff]
  obtain ⟨him, hre⟩ := wnAngle_args o s d
  by_contra hcon
  push Not at hcon
  obtain ⟨h1, h2⟩ := hcon
  rw [him] at h2
  rw [hre] at h1
  have h2 : orient o s d = 0 := by linarith
  apply h
  unfold orient at h2
  set x0 := s 0 - o 0 with hx0
  set x1 := s 1 - o 1 with hx1
  set y0 := d 0 - o 0 with hy0
  set y1 := d 1 - o 1 with hy1
  have hdot : x0 * y0 + x1 * y1 ≤ 0 := by
    rw [hx0, hx1, hy0, hy1]; nlinarith
  -- length of `s - d`
  by_cases hL : (x0 - y0) ^ 2 + (x1 - y1) ^ 2 = 0
  · have e0 : x0 = y0 := by nlinarith [sq_nonneg (x0 - y0), sq_nonneg (x1 - y1)]
    have e1 : x1 = y1 := by nlinarith [sq_nonneg (x0 - y0), sq_nonneg (x1 - y1)]
    rw [← e0, ← e1] at hdot
    have z0 : x0 = 0 := by nlinarith [sq_nonneg x0, sq_nonneg x1]
    have z1 : x1 = 0 := by nlinarith [sq_nonneg x0, sq_nonneg x1]
    refine ⟨0, le_refl _, by norm_num, fun i => ?_⟩
    match i with
    | 0 => simp; linarith
    | 1 => simp; linarith
  · have hLp : 0 < (x0 - y0) ^ 2 + (x1 - y1) ^ 2 := lt_of_le_of_ne (by positivity) (Ne.symm hL)
    refine ⟨(x0 * (x0 - y0) + x1 * (x1 - y1)) / ((x0 - y0) ^ 2 + (x1 - y1) ^ 2), ?_, ?_, fun i => ?_⟩
    · apply div_nonneg _ hLp.le
      nlinarith [sq_nonneg x0, sq_nonneg x1]
    · rw [div_le_one hLp]
      nlinarith [sq_nonneg y0, sq_nonneg y1]
    · have key : ∀ (L n X Y O : ℝ), L ≠ 0 → n * (X - Y) = L * X → O = (1 - n / L) * (X + O) + n / L * (Y + O) := by
        intro L n X Y O hL hn
        field_simp
        linear_combination hn
      match i with
      | 0 =>
        have := key _ (x0 * (x0 - y0) + x1 * (x1 - y1)) x0 y0 (o 0) hLp.ne' (by linear_combination (x1 - y1) * h2)
        rw [hx0, hy0] at this ⊢
        simpa using this
      | 1 =>
        have := key _ (x0 * (x0 - y0) + x1 * (x1 - y1)) x1 y1 (o 1) hLp.ne' (by linear_combination (y0 - x0) * h2)
        rw [hx1, hy1] at this ⊢
        simpa using this

theorem wnAngle_continuousAt {o s d : Pt 2} (h : ¬ OnSegment o s d) : ContinuousAt (fun q => wnAngle q s d) o := by
  have hfun : (fun q => wnAngle q s d) = fun q => -arg ((starRingEnd ℂ) (toC q - toC d) * (toC q - toC s)) := by
    funext q; exact wnAngle_eq q s d
  rw [hfun]
  have hC : Continuous toC := by
    have : toC = fun x : Pt 2 => ((x 0 : ℝ) : ℂ) + ((x 1 : ℝ) : ℂ) * I := by
      funext x; apply Complex.ext <;> simp [toC]
    rw [this]
    fun_prop
  have hcont : Continuous (fun q => (starRingEnd ℂ) (toC q - toC d) * (toC q - toC s)) :=
    (Complex.continuous_conj.comp (hC.sub continuous_const)).mul (hC.sub continuous_const)
  exact (ContinuousAt.comp (f := fun q => (starRingEnd ℂ) (toC q - toC d) * (toC q - toC s)) (Complex.continuousAt_arg (wn_slit h)) hcont.continuousAt).neg

theorem onSegment_ends (s d : Pt 2) : OnSegment s s d ∧ OnSegment d s d :=
  ⟨⟨0, le_refl _, by norm_num, fun i => by ring⟩, ⟨1, by norm_num, le_refl _, fun i => by ring⟩⟩

/-- **C45.** The winding number of a union of closed polylines takes one value on every connected set that the polylines do not meet. -/
theorem C45_locally_constant {V : List (Pt 2)} {E : List (ℕ × ℕ)} {P : List (Pt 2 × Pt 2)} (h : curveEdges V E P) (hc : ClosedCurve E)
    {S : Set (Pt 2)} (hS : IsPreconnected S) (hmiss : ∀ q ∈ S, ∀ p ∈ P, ¬ OnSegment q p.1 p.2) {q q' : Pt 2} (hq : q ∈ S) (hq' : q' ∈ S) :
    windingNumber2 q V (edgeRows E) = windingNumber2 q' V (edgeRows E) := by
  set f : Pt 2 → ℝ := fun q => (P.map (fun e => wnAngle q e.1 e.2)).sum / (2 * Real.pi) with hf
  have hval : ∀ q, windingNumber2 q V (edgeRows E) = some (f q) := fun q => windingNumber2_eq h q
  have hcont : ContinuousOn f S := by
    apply ContinuousOn.div_const
    clear hval hf f hc h
    induction P with
    | nil => simp; exact continuousOn_const
    | cons p P ih =>
      simp only [List.map_cons, List.sum_cons]
      refine ContinuousOn.add (fun q hq => (wnAngle_continuousAt (hmiss q hq p List.mem_cons_self)).continuousWithinAt)
        (ih (fun q hq p hp => hmiss q hq p (List.mem_cons_of_mem _ hp)))
  have hint : ∀ q ∈ S, ∃ w : ℤ, f q = w := by
    intro q hq
    obtain ⟨w, hw⟩ := C45_integer h hc (o := q) (fun p hp => by
      have := hmiss q hq p hp
      constructor
      · rintro rfl; exact this (onSegment_ends _ _).1
      · rintro rfl; exact this (onSegment_ends _ _).2)
    rw [hval, Option.some.injEq] at hw
    exact ⟨w, hw⟩
  have key : ∀ a ∈ S, ∀ b ∈ S, ¬ f a < f b := by
    intro a ha b hb hlt
    obtain ⟨wa, hwa⟩ := hint a ha
    obtain ⟨wb, hwb⟩ := hint b hb
    have h1 : wa + 1 ≤ wb := by rw [hwa, hwb] at hlt; have : wa < wb := by exact_mod_cast hlt
                                omega
    have h2 : (wa : ℝ) + 1 ≤ wb := by exact_mod_cast h1
    obtain ⟨c, hcS, hcv⟩ := hS.intermediate_value ha hb hcont (show f a + 1 / 2 ∈ Set.Icc (f a) (f b) from
      ⟨by linarith, by rw [hwa, hwb]; linarith⟩)
    obtain ⟨wc, hwc⟩ := hint c hcS
    rw [hwc, hwa] at hcv
    have : (2 * wc : ℤ) = 2 * wa + 1 := by
      have : (2 * wc : ℝ) = 2 * wa + 1 := by linarith
      exact_mod_cast this
    omega
  rw [hval, hval, le_antisymm (not_lt.mp (key q' hq' q hq)) (not_lt.mp (key q hq q' hq'))]

theorem wnAngle_pos {o s d : Pt 2} (h : 0 < orient o s d) : 0 < wnAngle o s d ∧ wnAngle o s d < Real.pi := by
  rw [wnAngle_eq]
  obtain ⟨him, -⟩ := wnAngle_args o s d
  have h1 : arg ((starRingEnd ℂ) (toC o - toC d) * (toC o - toC s)) < 0 := Complex.arg_neg_iff.mpr (by rw [him]; linarith)
  have h2 := Complex.neg_pi_lt_arg ((starRingEnd ℂ) (toC o - toC d) * (toC o - toC s))
  constructor <;> linarith

theorem wnAngle_range {o s d : Pt 2} (h : ¬ OnSegment o s d) : -Real.pi < wnAngle o s d ∧ wnAngle o s d < Real.pi := by
  rw [wnAngle_eq]
  have h1 := Complex.neg_pi_lt_arg ((starRingEnd ℂ) (toC o - toC d) * (toC o - toC s))
  have h2 := Complex.arg_le_pi ((starRingEnd ℂ) (toC o - toC d) * (toC o - toC s))
  have h3 := Complex.slitPlane_arg_ne_pi (wn_slit h)
  have h4 := lt_of_le_of_ne h2 h3
  constructor <;> linarith

theorem wnAngle_nonpos {o s d : Pt 2} (h : orient o s d ≤ 0) (hs : ¬ OnSegment o s d) : wnAngle o s d ≤ 0 := by
  rw [wnAngle_eq]
  obtain ⟨him, -⟩ := wnAngle_args o s d
  have := (Complex.arg_nonneg_iff (z := (starRingEnd ℂ) (toC o - toC d) * (toC o - toC s))).mpr (by rw [him]; linarith)
  linarith

theorem wnAngle_nonneg {o s d : Pt 2} (h : 0 ≤ orient o s d) (hs : ¬ OnSegment o s d) : 0 ≤ wnAngle o s d := by
  rcases h.lt_or_eq with h | h
  · exact (wnAngle_pos h).1.le
  · rw [wnAngle_eq]
    obtain ⟨him, -⟩ := wnAngle_args o s d
    have h0 : ((starRingEnd ℂ) (toC o - toC d) * (toC o - toC s)).im = 0 := by rw [him, ← h]; norm_num
    have h1 := wn_slit hs
    rw [Complex.mem_slitPlane_iff] at h1
    have h2 : 0 < ((starRingEnd ℂ) (toC o - toC d) * (toC o - toC s)).re := h1.resolve_right (fun h => h h0)
    have h3 := Complex.arg_eq_zero_iff.mpr ⟨h2.le, h0⟩
    rw [h3]; norm_num

/-- the boundary of a triangle as a closed polyline -/
def triE : List (ℕ × ℕ) := [(0, 1), (1, 2), (2, 0)]

theorem triE_closed : ClosedCurve triE := by unfold ClosedCurve triE; decide

theorem triE_edges (a b c : Pt 2) : curveEdges [a, b, c] triE [(a, b), (b, c), (c, a)] :=
  .cons ⟨rfl, rfl⟩ (.cons ⟨rfl, rfl⟩ (.cons ⟨rfl, rfl⟩ .nil))

/-- the weighted mean of three points -/
def mix3 (w : Fin 3 → ℝ) (a b c : Pt 2) : Pt 2 := fun i => w 0 * a i + w 1 * b i + w 2 * c i

theorem orient_mix {w : Fin 3 → ℝ} (hw : w 0 + w 1 + w 2 = 1) (a b c : Pt 2) :
    orient (mix3 w a b c) a b = w 2 * orient a b c ∧ orient (mix3 w a b c) b c = w 0 * orient a b c ∧
      orient (mix3 w a b c) c a = w 1 * orient a b c := by
  have h0 : w 0 = 1 - w 1 - w 2 := by linarith
  unfold orient mix3
  rw [h0]
  refine ⟨?_, ?_, ?_⟩ <;> ring

/-- **C45 (inside).** At every point in the interior of a counterclockwise triangle its winding number is one. -/
theorem C45_triangle_inside {a b c : Pt 2} (hor : 0 < orient a b c) {w : Fin 3 → ℝ} (hw : ∀ i, 0 < w i) (hw1 : w 0 + w 1 + w 2 = 1) :
    windingNumber2 (mix3 w a b c) [a, b, c] (edgeRows triE) = some 1 := by
  obtain ⟨o1, o2, o3⟩ := orient_mix hw1 a b c
  have p1 := wnAngle_pos (o := mix3 w a b c) (s := a) (d := b) (by rw [o1]; exact mul_pos (hw 2) hor)
  have p2 := wnAngle_pos (o := mix3 w a b c) (s := b) (d := c) (by rw [o2]; exact mul_pos (hw 0) hor)
  have p3 := wnAngle_pos (o := mix3 w a b c) (s := c) (d := a) (by rw [o3]; exact mul_pos (hw 1) hor)
  have hne : ∀ x s d : Pt 2, 0 < orient x s d → x ≠ s ∧ x ≠ d := by
    intro x s d h
    constructor <;> rintro rfl <;> unfold orient at h <;> linarith
  have n1 := hne (mix3 w a b c) a b (by rw [o1]; exact mul_pos (hw 2) hor)
  have n2 := hne (mix3 w a b c) b c (by rw [o2]; exact mul_pos (hw 0) hor)
  obtain ⟨n, hn⟩ := C45_integer (triE_edges a b c) triE_closed (o := mix3 w a b c) (by
    intro p hp
    simp only [List.mem_cons, List.not_mem_nil, or_false] at hp
    rcases hp with rfl | rfl | rfl
    · exact n1
    · exact n2
    · exact ⟨n2.2, n1.1⟩)
  rw [hn]
  rw [windingNumber2_eq (triE_edges a b c), Option.some.injEq] at hn
  simp only [List.map_cons, List.map_nil, List.sum_cons, List.sum_nil, add_zero] at hn
  have hpi := Real.pi_pos
  rw [div_eq_iff (by positivity)] at hn
  have h1 : 0 < (n : ℝ) := by nlinarith
  have h2 : (n : ℝ) < 2 := by nlinarith
  have h1' : 0 < n := by exact_mod_cast h1
  have h2' : n < 2 := by exact_mod_cast h2
  have : n = 1 := by omega
  rw [this]; norm_num

theorem mix_of_orient {a b c : Pt 2} (hor : orient a b c ≠ 0) (q : Pt 2) :
    ∃ w : Fin 3 → ℝ, w 0 + w 1 + w 2 = 1 ∧ q = mix3 w a b c := by
  refine ⟨![orient q b c / orient a b c, orient q c a / orient a b c, orient q a b / orient a b c], ?_, ?_⟩
  · simp
    field_simp
    unfold orient; ring
  · funext i
    unfold mix3
    simp
    match i with
    | 0 => field_simp; unfold orient; ring
    | 1 => field_simp; unfold orient; ring

/-- **C45 (outside).** At every point outside of a counterclockwise triangle (boundary included) its winding number is zero. -/
theorem C45_triangle_outside {a b c : Pt 2} (hor : 0 < orient a b c) {q : Pt 2}
    (hq : ∀ w : Fin 3 → ℝ, (∀ i, 0 ≤ w i) → w 0 + w 1 + w 2 = 1 → q ≠ mix3 w a b c) :
    windingNumber2 q [a, b, c] (edgeRows triE) = some 0 := by
  obtain ⟨w, hw1, rfl⟩ := mix_of_orient hor.ne' q
  obtain ⟨o1, o2, o3⟩ := orient_mix hw1 a b c
  have hneg : ∃ i, w i < 0 := by
    by_contra hc
    push Not at hc
    exact hq w hc hw1 rfl
  have s1 : ¬ OnSegment (mix3 w a b c) a b := by
    rintro ⟨t, t0, t1, ht⟩
    refine hq ![1 - t, t, 0] (fun i => ?_) (by simp) (funext fun i => by rw [ht i]; simp [mix3])
    match i with
    | 0 => simpa using t1
    | 1 => simpa using t0
    | 2 => simp
  have s2 : ¬ OnSegment (mix3 w a b c) b c := by
    rintro ⟨t, t0, t1, ht⟩
    refine hq ![0, 1 - t, t] (fun i => ?_) (by simp) (funext fun i => by rw [ht i]; simp [mix3])
    match i with
    | 0 => simp
    | 1 => simpa using t1
    | 2 => simpa using t0
  have s3 : ¬ OnSegment (mix3 w a b c) c a := by
    rintro ⟨t, t0, t1, ht⟩
    refine hq ![t, 0, 1 - t] (fun i => ?_) (by simp) (funext fun i => by rw [ht i]; simp [mix3]; ring)
    match i with
    | 0 => simpa using t0
    | 1 => simp
    | 2 => simpa using t1
  have r1 := wnAngle_range s1
  have r2 := wnAngle_range s2
  have r3 := wnAngle_range s3
  have hpi := Real.pi_pos
  -- one angle is not positive
  have hle : wnAngle (mix3 w a b c) a b + (wnAngle (mix3 w a b c) b c + wnAngle (mix3 w a b c) c a) < 2 * Real.pi := by
    obtain ⟨i, hi⟩ := hneg
    match i with
    | 0 => have := wnAngle_nonpos (by rw [o2]; nlinarith) s2; linarith
    | 1 => have := wnAngle_nonpos (by rw [o3]; nlinarith) s3; linarith
    | 2 => have := wnAngle_nonpos (by rw [o1]; nlinarith) s1; linarith
  have hge : -(2 * Real.pi) < wnAngle (mix3 w a b c) a b + (wnAngle (mix3 w a b c) b c + wnAngle (mix3 w a b c) c a) := by
    by_cases w0 : 0 ≤ w 0
    · have := wnAngle_nonneg (by rw [o2]; positivity) s2; linarith
    · by_cases w1 : 0 ≤ w 1
      · have := wnAngle_nonneg (by rw [o3]; positivity) s3; linarith
      · have w2 : 0 ≤ w 2 := by linarith
        have := wnAngle_nonneg (by rw [o1]; positivity) s1; linarith
  obtain ⟨n, hn⟩ := C45_integer (triE_edges a b c) triE_closed (o := mix3 w a b c) (by
    intro p hp
    simp only [List.mem_cons, List.not_mem_nil, or_false] at hp
    have e : ∀ x s d : Pt 2, ¬ OnSegment x s d → x ≠ s ∧ x ≠ d := by
      intro x s d h
      exact ⟨fun he => h (he ▸ (onSegment_ends s d).1), fun he => h (he ▸ (onSegment_ends s d).2)⟩
    rcases hp with rfl | rfl | rfl
    · exact e _ _ _ s1
    · exact e _ _ _ s2
    · exact e _ _ _ s3)
  rw [hn]
  rw [windingNumber2_eq (triE_edges a b c), Option.some.injEq] at hn
  simp only [List.map_cons, List.map_nil, List.sum_cons, List.sum_nil, add_zero] at hn
  rw [div_eq_iff (by positivity)] at hn
  have h1 : -1 < (n : ℝ) := by nlinarith
  have h2 : (n : ℝ) < 1 := by nlinarith
  have h1' : -1 < n := by exact_mod_cast h1
  have h2' : n < 1 := by exact_mod_cast h2
  have : n = 0 := by omega
  rw [this]; norm_num

/-- **C45 (far away).** The winding number is zero at every point that a line separates from all vertices of the closed curve. -/
theorem C45_separated_zero {V : List (Pt 2)} {E : List (ℕ × ℕ)} {P : List (Pt 2 × Pt 2)} (h : curveEdges V E P) (hc : ClosedCurve E)
    {o n : Pt 2} (hsep : ∀ p ∈ P, (∑ i, n i * o i < ∑ i, n i * p.1 i) ∧ (∑ i, n i * o i < ∑ i, n i * p.2 i)) :
    windingNumber2 o V (edgeRows E) = some 0 := by
  set α : Pt 2 → ℝ := fun x => arg ((toC o - toC x) * (-(starRingEnd ℂ) (toC n))) with hα
  have hre : ∀ x : Pt 2, ∑ i, n i * o i < ∑ i, n i * x i → 0 < ((toC o - toC x) * (-(starRingEnd ℂ) (toC n))).re := by
    intro x hx
    rw [Fin.sum_univ_two, Fin.sum_univ_two] at hx
    simp [toC]
    nlinarith
  have hang : ∀ x y : Pt 2, ∑ i, n i * o i < ∑ i, n i * x i → ∑ i, n i * o i < ∑ i, n i * y i → wnAngle o x y = α y - α x := by
    intro x y hx hy
    have h1 := hre x hx
    have h2 := hre y hy
    have a1 := abs_lt.mp (Complex.abs_arg_lt_pi_div_two_iff.mpr (Or.inl h1))
    have a2 := abs_lt.mp (Complex.abs_arg_lt_pi_div_two_iff.mpr (Or.inl h2))
    have n1 : (toC o - toC x) * (-(starRingEnd ℂ) (toC n)) ≠ 0 := fun hz => by rw [hz] at h1; simp at h1
    have n2 : (toC o - toC y) * (-(starRingEnd ℂ) (toC n)) ≠ 0 := fun hz => by rw [hz] at h2; simp at h2
    have hn0 : toC n ≠ 0 := by rintro hz; rw [hz] at n1; simp at n1
    rw [wnAngle_eq]
    have e1 : (starRingEnd ℂ) ((toC o - toC y) * (-(starRingEnd ℂ) (toC n))) * ((toC o - toC x) * (-(starRingEnd ℂ) (toC n))) =
        ((Complex.normSq (toC n) : ℝ) : ℂ) * ((starRingEnd ℂ) (toC o - toC y) * (toC o - toC x)) := by
      rw [Complex.normSq_eq_conj_mul_self]
      simp only [map_mul, map_neg, Complex.conj_conj]
      ring
    have e2 : arg ((starRingEnd ℂ) ((toC o - toC y) * (-(starRingEnd ℂ) (toC n))) * ((toC o - toC x) * (-(starRingEnd ℂ) (toC n)))) =
        arg ((starRingEnd ℂ) (toC o - toC y) * (toC o - toC x)) := by
      rw [e1, Complex.arg_real_mul _ (Complex.normSq_pos.mpr hn0)]
    rw [← e2]
    have hpi := Real.pi_pos
    have e3 : arg ((starRingEnd ℂ) ((toC o - toC y) * (-(starRingEnd ℂ) (toC n)))) = -α y := by
      rw [Complex.arg_conj, if_neg]
      exact fun he => by rw [he] at a2; linarith [a2.2]
    rw [(Complex.arg_mul_eq_add_arg_iff ((map_ne_zero _).mpr n2) n1).mpr (by rw [e3]; constructor <;> simp only [hα] <;> linarith [a1.1, a1.2, a2.1, a2.2]), e3]
    ring
  rw [windingNumber2_eq h]
  have hsum : (P.map (fun e => wnAngle o e.1 e.2)).sum = ((P.map Prod.snd).map α).sum - ((P.map Prod.fst).map α).sum := by
    clear h
    induction P with
    | nil => simp
    | cons p P ih =>
      obtain ⟨h1, h2⟩ := hsep p List.mem_cons_self
      simp only [List.map_cons, List.sum_cons, ih (fun p hp => hsep p (List.mem_cons_of_mem _ hp)), hang _ _ h1 h2]
      ring
  rw [hsum, ((closed_perm h hc).map α).sum_eq, sub_self, zero_div]

theorem onSegment_comb {x s d : Pt 2} : OnSegment x s d ↔ ∃ w, IsWeights w 2 ∧ x = comb w [s, d] := by
  constructor
  · rintro ⟨t, t0, t1, h⟩
    refine ⟨[1 - t, t], ⟨rfl, ?_, by simp⟩, funext fun i => by rw [h i]; simp [comb]⟩
    intro y hy
    simp at hy
    rcases hy with rfl | rfl <;> linarith
  · rintro ⟨w, ⟨hl, hn, hs⟩, rfl⟩
    match w, hl with
    | [u, v], _ =>
      simp at hs hn
      exact ⟨v, hn.2, by linarith [hn.1], fun i => by simp [comb]; left; linarith⟩

theorem curve_mem {V : List (Pt 2)} {E : List (ℕ × ℕ)} {P : List (Pt 2 × Pt 2)} (h : curveEdges V E P) :
    (∀ es ∈ edgeRows E, ∃ p ∈ P, es.mapM (fun i => V[i]?) = some [p.1, p.2]) ∧
      ∀ p ∈ P, ∃ es ∈ edgeRows E, es.mapM (fun i => V[i]?) = some [p.1, p.2] := by
  unfold curveEdges at h
  induction h with
  | nil => exact ⟨by simp [edgeRows], by simp⟩
  | @cons e p E P h1 h2 ih =>
    have hm : ([e.1, e.2] : List ℕ).mapM (fun i => V[i]?) = some [p.1, p.2] := by
      rw [List.mapM_cons, List.mapM_cons, List.mapM_nil, h1.1, h1.2]; rfl
    constructor
    · intro es hes
      unfold edgeRows at hes
      rw [List.map_cons, List.mem_cons] at hes
      rcases hes with rfl | hes
      · exact ⟨p, List.mem_cons_self, hm⟩
      · obtain ⟨p', hp', h'⟩ := ih.1 es hes
        exact ⟨p', List.mem_cons_of_mem _ hp', h'⟩
    · intro p' hp'
      rcases List.mem_cons.mp hp' with rfl | hp'
      · exact ⟨[e.1, e.2], by simp [edgeRows], hm⟩
      · obtain ⟨es, hes, h'⟩ := ih.2 p' hp'
        exact ⟨es, by unfold edgeRows at hes ⊢; rw [List.map_cons]; exact List.mem_cons_of_mem _ hes, h'⟩

/-- **C45 (signed distance).** For every union of closed polylines with segments no shorter than the threshold of the segment distance and
    every query that is no vertex, `signed_distance` (Python path, on the tree it builds) returns plus or minus the distance of the query
    to the curve, with the minus sign exactly when the winding number is at least one. -/
theorem C45_signed_distance (argsort : List ℝ → List ℕ) (hA : IsArgsort argsort) {V : List (Pt 2)} {E : List (ℕ × ℕ)}
    {P : List (Pt 2 × Pt 2)} (h : curveEdges V E P) (hc : ClosedCurve E) (hne : E ≠ []) (hlen : ∀ p ∈ P, 1e-10 ≤ pnorm (p.2 - p.1))
    {q : Pt 2} (hq : ∀ p ∈ P, q ≠ p.1 ∧ q ≠ p.2) :
    ∃ (T : List (AabbNode 2)) (N : ℕ) (w : ℤ) (δ : ℝ) (I : Int) (lmb : List ℝ),
      (∀ fuel, N ≤ fuel → initializeAabbtree argsort V (edgeRows E) none none fuel = some T) ∧
      windingNumber2 q V (edgeRows E) = some (w : ℝ) ∧
      (∀ fuel, N ≤ fuel → signedDistance2 q V (edgeRows E) T fuel = some (if 1 ≤ w then -δ else δ, I, lmb)) ∧
      (∃ p ∈ P, ∃ x, OnSegment x p.1 p.2 ∧ δ = pnorm (x - q)) ∧ (∀ p ∈ P, ∀ x, OnSegment x p.1 p.2 → δ ≤ pnorm (x - q)) := by
  obtain ⟨m1, m2⟩ := curve_mem h
  have hF : ElemsOk V (edgeRows E) := fun es hes => by
    obtain ⟨p, _, hp⟩ := m1 es hes
    exact ⟨_, hp, .segment _ _⟩
  have hne' : edgeRows E ≠ [] := by unfold edgeRows; simpa using hne
  obtain ⟨T, N, s, out, t1, t2, t3, t4, t5⟩ := C25_aabb_equals_brute argsort hA q V (edgeRows E) hne' hF
  obtain ⟨out', b1, e, es, r, b2, b3, b4, b5⟩ := C25_brute_minimum q V (edgeRows E) hne' hF
  rw [t3, Option.some.injEq] at b1
  subst b1
  obtain ⟨w, hw⟩ := C45_integer h hc hq
  have hbest : s.best = (r.1 : WithTop ℝ) := by rw [t4, b4]
  refine ⟨T, N, w, Real.sqrt r.1, s.elem, s.lmb, t1, hw, fun fuel hf => ?_, ?_, ?_⟩
  · unfold signedDistance2
    rw [t2 fuel hf, hw]
    simp only [Option.bind_eq_bind, Option.bind_some, hbest]
    congr 2
    unfold npSign
    by_cases h1 : 1 ≤ w
    · have : (1 : ℝ) ≤ w := by exact_mod_cast h1
      rw [if_pos (by linarith), if_pos h1]; ring
    · have h2 : w ≤ 0 := by omega
      have : (w : ℝ) ≤ 0 := by exact_mod_cast h2
      rw [if_neg (by linarith), if_neg (by linarith), if_neg h1]; ring
  · obtain ⟨p, hp, hm⟩ := m1 es (List.mem_of_getElem? b2)
    obtain ⟨r', e1, e2, e3, e4⟩ := C26_point_element q V es _ hm (.segment _ _ (hlen p hp))
    rw [b3, Option.some.injEq] at e1
    subst e1
    exact ⟨p, hp, comb r.2 [p.1, p.2], onSegment_comb.mpr ⟨_, e2, rfl⟩, by rw [e3]; rfl⟩
  · intro p hp x hx
    obtain ⟨es', hes', hm⟩ := m2 p hp
    obtain ⟨r', e1, e2, e3, e4⟩ := C26_point_element q V es' _ hm (.segment _ _ (hlen p hp))
    obtain ⟨w', hw', rfl⟩ := onSegment_comb.mp hx
    exact Real.sqrt_le_sqrt (le_trans (b5 es' hes' r' e1) (e4 w' hw'))

/-- `edge_indices(n,closed=True)`, the default of `signed_distance`, lists a closed curve through all vertices in order. -/
theorem C45_edge_indices_closed (n : ℕ) : ∃ E : List (ℕ × ℕ), edgeIndices n true = edgeRows E ∧ (0 < n → ClosedCurve E) ∧
    (0 < n → E = (List.range n).map (fun i => (i, (i + 1) % n))) := by
  refine ⟨(List.range n).zip ((List.range (n - 1)).map (· + 1) ++ [0]), by simp [edgeIndices, edgeRows], fun hn => ?_, fun hn => ?_⟩
  · unfold ClosedCurve
    obtain ⟨m, rfl⟩ : ∃ m, n = m + 1 := ⟨n - 1, by omega⟩
    rw [List.map_fst_zip (by simp), List.map_snd_zip (by simp), Nat.add_sub_cancel, List.range_succ_eq_map]
    exact (List.perm_append_comm (l₁ := [0]))
  · obtain ⟨m, rfl⟩ : ∃ m, n = m + 1 := ⟨n - 1, by omega⟩
    apply List.ext_getElem
    · simp
    · intro i h1 h2
      have hi : i < m + 1 := by simpa using h2
      simp only [Nat.add_sub_cancel, List.getElem_zip, List.getElem_range, List.getElem_map, Prod.mk.injEq, true_and]
      by_cases him : i < m
      · rw [List.getElem_append_left (by simpa using him), Nat.mod_eq_of_lt (by omega)]
        simp
      · have : i = m := by omega
        subst this
        rw [List.getElem_append_right (by simp)]
        simp

/-- `edge_indices(n)` lists the edges of the open polyline: every vertex but the last is followed by the next one. -/
theorem C45_edge_indices_open (n : ℕ) : edgeIndices n false = (List.range (n - 1)).map (fun i => [i, i + 1]) := by
  apply List.ext_getElem <;> simp [edgeIndices]

/-- the boundary of a square, taken counterclockwise, meets the hypotheses of `C45_signed_distance` -/
example : ClosedCurve [(0, 1), (1, 2), (2, 3), (3, 0)] ∧
    curveEdges [![0, 0], ![1, 0], ![1, 1], ![0, 1]] [(0, 1), (1, 2), (2, 3), (3, 0)]
      [(![0, 0], ![1, 0]), (![1, 0], ![1, 1]), (![1, 1], ![0, 1]), (![0, 1], ![0, 0])] :=
  ⟨by unfold ClosedCurve; decide, .cons ⟨rfl, rfl⟩ (.cons ⟨rfl, rfl⟩ (.cons ⟨rfl, rfl⟩ (.cons ⟨rfl, rfl⟩ .nil)))⟩

/-- Why closedness is needed: at the origin the open polyline through (1,0), (0,1), (-1,0) has winding number one half, and the sign computed from it is
    zero, so `signed_distance` returns zero at a point that is not on the curve. -/
theorem C45_open_curve_zero : windingNumber2 ![0, 0] [![1, 0], ![0, 1], ![-1, 0]] (edgeRows [(0, 1), (1, 2)]) = some (1 / 2) ∧
    npSign (-2 * (1 / 2) + 1) = 0 := by
  constructor
  · rw [windingNumber2_eq (P := [(![1, 0], ![0, 1]), (![0, 1], ![-1, 0])]) (.cons ⟨rfl, rfl⟩ (.cons ⟨rfl, rfl⟩ .nil))]
    have e1 : wnAngle ![0, 0] ![1, 0] ![0, 1] = Real.pi / 2 := by
      have : (⟨0, -1⟩ : ℂ) = -I := by apply Complex.ext <;> simp
      simp [wnAngle, npArctan2, this]
    have e2 : wnAngle ![0, 0] ![0, 1] ![-1, 0] = Real.pi / 2 := by
      have : (⟨0, -1⟩ : ℂ) = -I := by apply Complex.ext <;> simp
      simp [wnAngle, npArctan2, this]
    simp only [List.map_cons, List.map_nil, List.sum_cons, List.sum_nil, e1, e2]
    have := Real.pi_pos
    congr 1
    field_simp
    ring
  · unfold npSign; norm_num

/-! ## The winding number counts crossings of a ray -/

/-- `x` lies on the ray from `q` in direction `u` -/
def OnRay (x q u : Pt 2) : Prop := ∃ t : ℝ, 0 ≤ t ∧ ∀ i, x i = q i + t * u i

/-- which side of the line through `q` in direction `u` the point lies on: positive on the left -/
def side (x q u : Pt 2) : ℝ := u 0 * (x 1 - q 1) - u 1 * (x 0 - q 0)

open Classical in
/-- `1` for an edge that crosses the ray from its right to its left, `-1` for one that crosses it from left to right, `0` for one that
    does not cross it -/
noncomputable def crossing (q u s d : Pt 2) : ℤ :=
  if ∃ x, OnSegment x s d ∧ OnRay x q u then
    if side s q u < 0 ∧ 0 < side d q u then 1 else if 0 < side s q u ∧ side d q u < 0 then -1 else 0
  else 0

theorem arg_diff {x y : ℂ} (hx : x ∈ slitPlane) (hy : y ∈ slitPlane) (hxy : (starRingEnd ℂ) y * x ∈ slitPlane) :
    -arg ((starRingEnd ℂ) y * x) = arg y - arg x + 2 * Real.pi *
      ((if 0 < x.im ∧ y.im < 0 ∧ ((starRingEnd ℂ) y * x).im < 0 then 1 else
        if x.im < 0 ∧ 0 < y.im ∧ 0 < ((starRingEnd ℂ) y * x).im then -1 else 0 : ℤ) : ℝ) := by
  have hx0 := slitPlane_ne_zero hx
  have hy0 := slitPlane_ne_zero hy
  have hcoe : ((-arg ((starRingEnd ℂ) y * x) : ℝ) : Real.Angle) = ((arg y - arg x : ℝ) : Real.Angle) := by
    rw [Real.Angle.coe_neg, arg_mul_coe_angle ((map_ne_zero _).mpr hy0) hx0, arg_conj_coe_angle, Real.Angle.coe_sub]
    abel
  obtain ⟨n, hn⟩ := Real.Angle.angle_eq_iff_two_pi_dvd_sub.mp hcoe
  have hpi := Real.pi_pos
  have bnd : ∀ z : ℂ, z ∈ slitPlane → -Real.pi < arg z ∧ arg z < Real.pi := fun z hz =>
    ⟨neg_pi_lt_arg z, lt_of_le_of_ne (arg_le_pi z) (slitPlane_arg_ne_pi hz)⟩
  have bx := bnd x hx
  have by' := bnd y hy
  have bt := bnd _ hxy
  set θ := arg ((starRingEnd ℂ) y * x) with hθ
  have hval : ∀ (m : ℤ), (2 * Real.pi * (m - 1) < -θ - (arg y - arg x)) → (-θ - (arg y - arg x) < 2 * Real.pi * (m + 1)) → n = m := by
    intro m h1 h2
    rw [hn] at h1 h2
    have h1' := lt_of_mul_lt_mul_left h1 (by positivity)
    have h2' := lt_of_mul_lt_mul_left h2 (by positivity)
    have e1 : m - 1 < n := by exact_mod_cast h1'
    have e2 : n < m + 1 := by exact_mod_cast h2'
    omega
  have hfin : ∀ (m : ℤ), n = m → -θ = arg y - arg x + 2 * Real.pi * (m : ℝ) := by
    intro m hm
    rw [← hm]; linarith
  by_cases c1 : 0 < x.im ∧ y.im < 0 ∧ ((starRingEnd ℂ) y * x).im < 0
  · rw [if_pos c1]
    apply hfin
    obtain ⟨i1, i2, i3⟩ := c1
    have a1 := arg_nonneg_iff.mpr i1.le
    have a2 := arg_neg_iff.mpr i2
    have a3 := arg_neg_iff.mpr i3
    have a1' : arg x ≠ 0 := fun h => by have := (arg_eq_zero_iff.mp h).2; linarith
    have a1'' : 0 < arg x := lt_of_le_of_ne a1 (Ne.symm a1')
    apply hval <;> push_cast <;> nlinarith
  · rw [if_neg c1]
    by_cases c2 : x.im < 0 ∧ 0 < y.im ∧ 0 < ((starRingEnd ℂ) y * x).im
    · rw [if_pos c2]
      apply hfin
      obtain ⟨i1, i2, i3⟩ := c2
      have a1 := arg_neg_iff.mpr i1
      have a2 := arg_nonneg_iff.mpr i2.le
      have a3 := arg_nonneg_iff.mpr i3.le
      have a2' : arg y ≠ 0 := fun h => by have := (arg_eq_zero_iff.mp h).2; linarith
      have a2'' : 0 < arg y := lt_of_le_of_ne a2 (Ne.symm a2')
      have a3' : arg ((starRingEnd ℂ) y * x) ≠ 0 := fun h => by have := (arg_eq_zero_iff.mp h).2; linarith
      have a3'' : 0 < arg ((starRingEnd ℂ) y * x) := lt_of_le_of_ne a3 (Ne.symm a3')
      apply hval <;> push_cast <;> nlinarith
    · rw [if_neg c2]
      apply hfin
      apply hval
      · push_cast
        -- lower bound
        by_cases j1 : 0 ≤ x.im
        · by_cases j2 : 0 ≤ y.im
          · have := arg_nonneg_iff.mpr j1
            have := arg_nonneg_iff.mpr j2
            nlinarith
          · have k1 := arg_nonneg_iff.mpr j1
            have k2 := arg_neg_iff.mpr (not_le.mp j2)
            nlinarith
        · have k1 := arg_neg_iff.mpr (not_le.mp j1)
          by_cases j2 : 0 < y.im
          · have k2 := arg_nonneg_iff.mpr j2.le
            have k3 : ((starRingEnd ℂ) y * x).im ≤ 0 := by
              by_contra h; exact c2 ⟨not_le.mp j1, j2, not_le.mp h⟩
            have k4 : arg ((starRingEnd ℂ) y * x) ≤ 0 := by
              rcases k3.lt_or_eq with k3 | k3
              · exact (arg_neg_iff.mpr k3).le
              · have := (mem_slitPlane_iff.mp hxy).resolve_right (fun h => h k3)
                exact (arg_eq_zero_iff.mpr ⟨this.le, k3⟩).le
            nlinarith
          · have k2 : arg y ≤ 0 := by
              rcases (not_lt.mp j2).lt_or_eq with k3 | k3
              · exact (arg_neg_iff.mpr k3).le
              · have := (mem_slitPlane_iff.mp hy).resolve_right (fun h => h k3)
                exact (arg_eq_zero_iff.mpr ⟨this.le, k3⟩).le
            nlinarith
      · push_cast
        by_cases j1 : x.im ≤ 0
        · have k1 : arg x ≤ 0 := by
            rcases j1.lt_or_eq with k3 | k3
            · exact (arg_neg_iff.mpr k3).le
            · have := (mem_slitPlane_iff.mp hx).resolve_right (fun h => h k3)
              exact (arg_eq_zero_iff.mpr ⟨this.le, k3⟩).le
          by_cases j2 : y.im ≤ 0
          · have k2 : arg y ≤ 0 := by
              rcases j2.lt_or_eq with k3 | k3
              · exact (arg_neg_iff.mpr k3).le
              · have := (mem_slitPlane_iff.mp hy).resolve_right (fun h => h k3)
                exact (arg_eq_zero_iff.mpr ⟨this.le, k3⟩).le
            nlinarith
          · have k2 := arg_nonneg_iff.mpr (not_le.mp j2).le
            nlinarith
        · have k1 := arg_nonneg_iff.mpr (not_le.mp j1).le
          by_cases j2 : y.im < 0
          · have k2 := arg_neg_iff.mpr j2
            have k3 : 0 ≤ ((starRingEnd ℂ) y * x).im := by
              by_contra h; exact c1 ⟨not_le.mp j1, j2, not_le.mp h⟩
            have k4 := arg_nonneg_iff.mpr k3
            nlinarith
          · have k2 := arg_nonneg_iff.mpr (not_lt.mp j2)
            nlinarith

/-- the position of `s` as seen from `q` along the ray, as a complex number -/
noncomputable def alongRay (q u s : Pt 2) : ℂ := (toC q - toC s) * (starRingEnd ℂ) (toC u)

theorem alongRay_im (q u s : Pt 2) : (alongRay q u s).im = -side s q u := by
  simp [alongRay, toC, side]; ring

theorem alongRay_slit {q u s : Pt 2} (hu : u ≠ 0) (h : ¬ OnRay s q u) : alongRay q u s ∈ slitPlane := by
  rw [mem_slitPlane_iff]
  by_contra hcon
  push Not at hcon
  obtain ⟨h1, h2⟩ := hcon
  rw [alongRay_im] at h2
  have h2 : side s q u = 0 := by linarith
  have h1' : (q 0 - s 0) * u 0 + (q 1 - s 1) * u 1 ≤ 0 := by
    have : (alongRay q u s).re = (q 0 - s 0) * u 0 + (q 1 - s 1) * u 1 := by simp [alongRay, toC]
    rw [← this]; exact h1
  have hL : 0 < u 0 ^ 2 + u 1 ^ 2 := by
    by_contra hn
    apply hu
    have z0 : u 0 = 0 := by nlinarith [sq_nonneg (u 0), sq_nonneg (u 1)]
    have z1 : u 1 = 0 := by nlinarith [sq_nonneg (u 0), sq_nonneg (u 1)]
    funext i
    match i with
    | 0 => exact z0
    | 1 => exact z1
  apply h
  unfold side at h2
  refine ⟨((s 0 - q 0) * u 0 + (s 1 - q 1) * u 1) / (u 0 ^ 2 + u 1 ^ 2), div_nonneg (by linarith) hL.le, fun i => ?_⟩
  match i with
  | 0 => field_simp; linear_combination (-u 1) * h2
  | 1 => field_simp; linear_combination (u 0) * h2

theorem alongRay_prod {q u : Pt 2} (hu : u ≠ 0) (s d : Pt 2) :
    arg ((starRingEnd ℂ) (alongRay q u d) * alongRay q u s) = arg ((starRingEnd ℂ) (toC q - toC d) * (toC q - toC s)) ∧
      ∃ c : ℝ, 0 < c ∧ ((starRingEnd ℂ) (alongRay q u d) * alongRay q u s).im = c * (-orient q s d) ∧
        ((starRingEnd ℂ) (toC q - toC d) * (toC q - toC s) ∈ slitPlane →
          (starRingEnd ℂ) (alongRay q u d) * alongRay q u s ∈ slitPlane) := by
  have hu0 : toC u ≠ 0 := fun h => hu (toC_inj (by rw [h]; apply Complex.ext <;> simp [toC]))
  have e1 : (starRingEnd ℂ) (alongRay q u d) * alongRay q u s =
      ((Complex.normSq (toC u) : ℝ) : ℂ) * ((starRingEnd ℂ) (toC q - toC d) * (toC q - toC s)) := by
    unfold alongRay
    rw [Complex.normSq_eq_conj_mul_self]
    simp only [map_mul, Complex.conj_conj]
    ring
  have hp := Complex.normSq_pos.mpr hu0
  refine ⟨by rw [e1, Complex.arg_real_mul _ hp], _, hp, ?_, fun h => ?_⟩
  · rw [e1, Complex.im_ofReal_mul, (wnAngle_args q s d).1]
  · rw [e1, mem_slitPlane_iff, Complex.im_ofReal_mul, Complex.re_ofReal_mul]
    rcases mem_slitPlane_iff.mp h with h | h
    · exact Or.inl (mul_pos hp h)
    · exact Or.inr (mul_ne_zero hp.ne' h)

/-- an edge with its ends strictly on the two sides of the line meets the ray exactly if it passes the query on the right side -/
theorem crosses_iff {q u s d : Pt 2} (hq : ¬ OnSegment q s d) (hlr : side s q u < 0 ∧ 0 < side d q u ∨ 0 < side s q u ∧ side d q u < 0) :
    (∃ x, OnSegment x s d ∧ OnRay x q u) ↔ 0 < orient q s d * (side d q u - side s q u) := by
  have hne : side d q u - side s q u ≠ 0 := by rcases hlr with h | h <;> intro h0 <;> linarith [h.1, h.2]
  constructor
  · rintro ⟨x, ⟨τ, τ0, τ1, hx⟩, ⟨t, t0, ht⟩⟩
    have e0 := (hx 0).symm.trans (ht 0)
    have e1 := (hx 1).symm.trans (ht 1)
    have f1 : t * side d q u = (1 - τ) * orient q s d := by
      unfold side orient; linear_combination (d 1 - q 1) * (-e0) + (d 0 - q 0) * e1
    have f2 : t * side s q u = -(τ * orient q s d) := by
      unfold side orient; linear_combination (s 1 - q 1) * (-e0) + (s 0 - q 0) * e1
    have tpos : 0 < t := by
      rcases t0.lt_or_eq with h | h
      · exact h
      · exfalso
        apply hq
        refine ⟨τ, τ0, τ1, fun i => ?_⟩
        have := ht i
        rw [← h, zero_mul, add_zero] at this
        rw [← this]; exact hx i
    have f3 : t * (orient q s d * (side d q u - side s q u)) = orient q s d ^ 2 := by
      linear_combination orient q s d * (f1 - f2)
    have ho : orient q s d ≠ 0 := by
      intro h0
      rw [h0, mul_zero] at f1
      rw [h0, mul_zero, neg_zero] at f2
      have g1 := (mul_eq_zero.mp f1).resolve_left tpos.ne'
      have g2 := (mul_eq_zero.mp f2).resolve_left tpos.ne'
      rw [g1, g2] at hne; exact hne (sub_self _)
    have : 0 < orient q s d ^ 2 := by positivity
    rw [← f3] at this
    exact (mul_pos_iff_of_pos_left tpos).mp this
  · intro h
    set D := side d q u - side s q u with hD
    have hval : ∀ i, (1 - (-side s q u / D)) * s i + (-side s q u / D) * d i = q i + (orient q s d / D) * u i := by
      intro i
      match i with
      | 0 => field_simp; rw [hD]; unfold side orient; ring
      | 1 => field_simp; rw [hD]; unfold side orient; ring
    refine ⟨fun i => q i + (orient q s d / D) * u i, ⟨-side s q u / D, ?_, ?_, fun i => (hval i).symm⟩, ⟨orient q s d / D, ?_, fun i => rfl⟩⟩
    · rcases hlr with hl | hl
      · exact div_nonneg (by linarith [hl.1]) (by rw [hD]; linarith [hl.1, hl.2])
      · exact div_nonneg_of_nonpos (by linarith [hl.1]) (by rw [hD]; linarith [hl.1, hl.2])
    · rcases hlr with hl | hl
      · rw [div_le_one (by rw [hD]; linarith [hl.1, hl.2])]; rw [hD]; linarith [hl.2]
      · rw [div_le_one_of_neg (by rw [hD]; linarith [hl.1, hl.2])]; rw [hD]; linarith [hl.2]
    · rw [div_eq_mul_inv]
      have : orient q s d * D⁻¹ = (orient q s d * D) * (D⁻¹) ^ 2 := by field_simp
      rw [this]
      positivity

theorem wnAngle_crossing {q u s d : Pt 2} (hu : u ≠ 0) (hq : ¬ OnSegment q s d) (hs : ¬ OnRay s q u) (hd : ¬ OnRay d q u) :
    wnAngle q s d = arg (alongRay q u d) - arg (alongRay q u s) + 2 * Real.pi * (crossing q u s d : ℝ) := by
  obtain ⟨p1, c, hc, p2, p3⟩ := alongRay_prod hu (q := q) s d
  have h := arg_diff (alongRay_slit hu hs) (alongRay_slit hu hd) (p3 (wn_slit hq))
  rw [wnAngle_eq, ← p1, h]
  congr 3
  rw [alongRay_im, alongRay_im, p2]
  unfold crossing
  have hco : ∀ x : ℝ, (c * x < 0 ↔ x < 0) ∧ (0 < c * x ↔ 0 < x) := fun x =>
    ⟨by rw [← not_le, ← not_le, not_iff_not]; exact mul_nonneg_iff_of_pos_left hc, mul_pos_iff_of_pos_left hc⟩
  by_cases h1 : side s q u < 0 ∧ 0 < side d q u
  · have hiff := crosses_iff hq (Or.inl h1)
    have hpos : 0 < side d q u - side s q u := by linarith [h1.1, h1.2]
    rw [mul_pos_iff_of_pos_right hpos] at hiff
    by_cases ho : 0 < orient q s d
    · rw [if_pos ⟨by linarith [h1.1], by linarith [h1.2], (hco _).1.mpr (by linarith)⟩, if_pos (hiff.mpr ho), if_pos h1]
    · rw [if_neg (fun hh => ho (by have := (hco _).1.mp hh.2.2; linarith)), if_neg (fun hh => by linarith [hh.1, h1.1]),
        if_neg (fun hh => ho (hiff.mp hh))]
  · by_cases h2 : 0 < side s q u ∧ side d q u < 0
    · have hiff := crosses_iff hq (Or.inr h2)
      have hneg : side d q u - side s q u < 0 := by linarith [h2.1, h2.2]
      have hflip : 0 < orient q s d * (side d q u - side s q u) ↔ orient q s d < 0 := by
        constructor
        · intro h; by_contra hh; nlinarith
        · intro h; nlinarith
      rw [hflip] at hiff
      by_cases ho : orient q s d < 0
      · rw [if_neg (fun hh => by linarith [hh.1, h2.1]), if_pos ⟨by linarith [h2.1], by linarith [h2.2], (hco _).2.mpr (by linarith)⟩,
          if_pos (hiff.mpr ho), if_neg h1, if_pos h2]
      · rw [if_neg (fun hh => by linarith [hh.1, h2.1]), if_neg (fun hh => ho (by have := (hco _).2.mp hh.2.2; linarith)),
          if_neg (fun hh => ho (hiff.mp hh))]
    · rw [if_neg (fun hh => h1 ⟨by linarith [hh.1], by linarith [hh.2.1]⟩), if_neg (fun hh => h2 ⟨by linarith [hh.1], by linarith [hh.2.1]⟩),
        if_neg h1, if_neg h2]
      split <;> rfl

/-- **C45 (crossings).** For every union of closed polylines, every query off the curve and every direction for which no vertex lies on the ray
    from the query, the winding number is the number of edges that cross the ray from right to left minus the number of edges that cross
    it from left to right. -/
theorem C45_crossings {V : List (Pt 2)} {E : List (ℕ × ℕ)} {P : List (Pt 2 × Pt 2)} (h : curveEdges V E P) (hc : ClosedCurve E)
    {q u : Pt 2} (hu : u ≠ 0) (hq : ∀ p ∈ P, ¬ OnSegment q p.1 p.2) (hv : ∀ p ∈ P, ¬ OnRay p.1 q u ∧ ¬ OnRay p.2 q u) :
    windingNumber2 q V (edgeRows E) = some (((P.map (fun p => crossing q u p.1 p.2)).sum : ℤ) : ℝ) := by
  rw [windingNumber2_eq h]
  have hsum : (P.map (fun e => wnAngle q e.1 e.2)).sum = ((P.map Prod.snd).map (fun x => arg (alongRay q u x))).sum -
      ((P.map Prod.fst).map (fun x => arg (alongRay q u x))).sum + 2 * Real.pi * (((P.map (fun p => crossing q u p.1 p.2)).sum : ℤ) : ℝ) := by
    clear h
    induction P with
    | nil => simp
    | cons p P ih =>
      obtain ⟨h1, h2⟩ := hv p List.mem_cons_self
      have h3 := hq p List.mem_cons_self
      simp only [List.map_cons, List.sum_cons, ih (fun p hp => hq p (List.mem_cons_of_mem _ hp)) (fun p hp => hv p (List.mem_cons_of_mem _ hp)),
        wnAngle_crossing hu h3 h1 h2, Int.cast_add]
      ring
  rw [hsum, ((closed_perm h hc).map _).sum_eq, sub_self, zero_add]
  congr 1
  have := Real.pi_pos
  field_simp

end Gpy
