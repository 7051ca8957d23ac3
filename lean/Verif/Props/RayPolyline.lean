import Verif.Model.RayPolyline
import Verif.Props.Winding

/-! C60: `ray_polyline_intersect`. -/

set_option autoImplicit false
namespace Gpy

/-- the ray from `o` in direction `u` meets the open segment from `a` to `b` in `x`, at parameter `t` -/
def RayHits (o u a b : Pt 2) (t : ℝ) (x : Pt 2) : Prop :=
  0 < t ∧ (∀ i, x i = o i + t * u i) ∧ ∃ s : ℝ, 0 < s ∧ s < 1 ∧ ∀ i, x i = (1 - s) * a i + s * b i

/-- the edge is not (numerically) parallel to the direction: the area they span is at least `1e-8` -/
def Transversal (u a b : Pt 2) : Prop := 1e-8 ≤ |u 0 * (b 1 - a 1) - u 1 * (b 0 - a 0)|

/-- `n` is a unit vector perpendicular to the edge, on its left -/
def LeftUnitNormal (a b n : Pt 2) : Prop :=
  n 0 * (b 0 - a 0) + n 1 * (b 1 - a 1) = 0 ∧ n 0 ^ 2 + n 1 ^ 2 = 1 ∧ 0 < (b 0 - a 0) * n 1 - (b 1 - a 1) * n 0

/-- what one transversal edge does -/
theorem rpStep_transversal (o u a b : Pt 2) (st : RpState) (i : ℕ) (h : Transversal u a b) :
    (∃ t x, RayHits o u a b t x ∧ t < st.dist ∧ rpStep o u st i a b = ⟨some x, rpNormal a b, (i : Int), t⟩) ∨
    (rpStep o u st i a b = st ∧ ∀ t x, RayHits o u a b t x → st.dist ≤ t) := by
  have hdet : u 0 * (b 1 - a 1) - u 1 * (b 0 - a 0) ≠ 0 := by
    intro h0
    unfold Transversal at h
    rw [h0, abs_zero] at h
    norm_num at h
  set det := u 0 * (b 1 - a 1) - u 1 * (b 0 - a 0) with hd
  set t0 := ((b - o) 0 * (b 1 - a 1) - (b 0 - a 0) * (b - o) 1) / det with ht0
  set t1 := (u 0 * (b - o) 1 - u 1 * (b - o) 0) / det with ht1
  have m0 : t0 * det = (b 0 - o 0) * (b 1 - a 1) - (b 0 - a 0) * (b 1 - o 1) := by
    rw [ht0, div_mul_cancel₀ _ hdet]; rfl
  have m1 : t1 * det = u 0 * (b 1 - o 1) - u 1 * (b 0 - o 0) := by
    rw [ht1, div_mul_cancel₀ _ hdet]; rfl
  have step : rpStep o u st i a b = if 0 < t1 ∧ t1 < 1 ∧ 0 < t0 ∧ t0 < st.dist then ⟨some (o + t0 • u), rpNormal a b, (i : Int), t0⟩ else st := by
    unfold rpStep
    dsimp only
    rw [if_neg (not_lt.mpr h)]
  have hx : ∀ j, o j + t0 * u j = (1 - (1 - t1)) * a j + (1 - t1) * b j := by
    intro j
    apply mul_right_cancel₀ hdet
    fin_cases j
    · show (o 0 + t0 * u 0) * det = ((1 - (1 - t1)) * a 0 + (1 - t1) * b 0) * det
      linear_combination u 0 * m0 + (b 0 - a 0) * m1 + (o 0 - b 0) * hd
    · show (o 1 + t0 * u 1) * det = ((1 - (1 - t1)) * a 1 + (1 - t1) * b 1) * det
      linear_combination u 1 * m0 + (b 1 - a 1) * m1 + (o 1 - b 1) * hd
  have huniq : ∀ t x, RayHits o u a b t x → t = t0 ∧ 0 < t1 ∧ t1 < 1 := by
    rintro t x ⟨-, hx1, s, s0, s1, hx2⟩
    have e0 : o 0 + t * u 0 = (1 - s) * a 0 + s * b 0 := by rw [← hx1, ← hx2]
    have e1 : o 1 + t * u 1 = (1 - s) * a 1 + s * b 1 := by rw [← hx1, ← hx2]
    have ht : t = t0 := by
      apply mul_right_cancel₀ hdet
      linear_combination (b 1 - a 1) * e0 - (b 0 - a 0) * e1 - m0 + t * hd
    have hs : t1 = 1 - s := by
      apply mul_right_cancel₀ hdet
      linear_combination m1 + u 1 * e0 - u 0 * e1 - (1 - s) * hd
    exact ⟨ht, by linarith, by linarith⟩
  by_cases hc : 0 < t1 ∧ t1 < 1 ∧ 0 < t0 ∧ t0 < st.dist
  · left
    refine ⟨t0, o + t0 • u, ⟨hc.2.2.1, fun j => rfl, 1 - t1, by linarith [hc.2.1], by linarith [hc.1], hx⟩, hc.2.2.2, ?_⟩
    rw [step, if_pos hc]
  · right
    refine ⟨by rw [step, if_neg hc], ?_⟩
    intro t x ht
    obtain ⟨rfl, h1, h2⟩ := huniq t x ht
    by_contra hlt
    exact hc ⟨h1, h2, ht.1, not_le.mp hlt⟩

theorem rpLoop_spec (o u : Pt 2) (es : List (Pt 2 × Pt 2)) (i0 : ℕ) (st : RpState) (h : ∀ e ∈ es, Transversal u e.1 e.2) :
    (rpLoop o u es i0 st).dist ≤ st.dist ∧
    (∀ e ∈ es, ∀ t x, RayHits o u e.1 e.2 t x → (rpLoop o u es i0 st).dist ≤ t) ∧
    (rpLoop o u es i0 st = st ∨ ∃ (k : ℕ) (e : Pt 2 × Pt 2) (t : ℝ) (x : Pt 2), es[k]? = some e ∧ RayHits o u e.1 e.2 t x ∧ t < st.dist ∧
      rpLoop o u es i0 st = ⟨some x, rpNormal e.1 e.2, ((i0 + k : ℕ) : Int), t⟩ ∧
      ∀ k' < k, ∀ e' t' x', es[k']? = some e' → RayHits o u e'.1 e'.2 t' x' → t < t') := by
  induction es generalizing i0 st with
  | nil => simp [rpLoop]
  | cons e es ih =>
    obtain ⟨h1, h2, h3⟩ := ih (i0 + 1) (rpStep o u st i0 e.1 e.2) (fun f hf => h f (by simp [hf]))
    rw [rpLoop]
    rcases rpStep_transversal o u e.1 e.2 st i0 (h e (by simp)) with ⟨t, x, hx, hlt, hs⟩ | ⟨hs, hno⟩
    · have huniq : ∀ t' x', RayHits o u e.1 e.2 t' x' → t ≤ t' := by
        intro t' x' hx'
        -- run the step from a state whose distance is large
        rcases rpStep_transversal o u e.1 e.2 st i0 (h e (by simp)) with ⟨t2, x2, hx2, hlt2, hs2⟩ | ⟨hs2, hno2⟩
        · rcases rpStep_transversal o u e.1 e.2 ⟨none, ![0, 0], -1, t⟩ i0 (h e (by simp)) with ⟨t3, x3, hx3, hlt3, hs3⟩ | ⟨hs3, hno3⟩
          · -- then the step from `st` would have given a smaller parameter
            exfalso
            have hd := hlt3
            dsimp only at hd
            have ha : rpStep o u st i0 e.1 e.2 = ⟨some x3, rpNormal e.1 e.2, (i0 : Int), t3⟩ := by
              unfold rpStep at hs3 ⊢
              dsimp only at hs3 ⊢
              have hT := h e (by simp)
              unfold Transversal at hT
              rw [if_neg (not_lt.mpr hT)] at hs3 ⊢
              split_ifs at hs3 with hc
              · rw [if_pos ⟨hc.1, hc.2.1, hc.2.2.1, hc.2.2.2.trans hlt⟩]; exact hs3
              · simp at hs3
            rw [hs] at ha
            simp at ha
            linarith [ha.2]
          · exact hno3 t' x' hx'
        · exact absurd hlt (not_lt.mpr (hno2 t x hx))
      rw [hs] at h1 h3 ⊢
      rw [hs] at h2
      dsimp only at h1 h3
      refine ⟨h1.trans hlt.le, ?_, Or.inr ?_⟩
      · intro f hf t' x' hx'
        rcases List.mem_cons.mp hf with rfl | hf
        · exact h1.trans (huniq t' x' hx')
        · exact h2 f hf t' x' hx'
      · rcases h3 with h3 | ⟨k, f, t', x', hk, hx', hlt', hl, hmin⟩
        · exact ⟨0, e, t, x, rfl, hx, hlt, by rw [h3]; simp, by simp⟩
        · refine ⟨k + 1, f, t', x', by simpa using hk, hx', hlt'.trans hlt, by rw [hl]; simp; ring, ?_⟩
          intro k' hk' e' t'' x'' he' hx''
          cases k' with
          | zero =>
            simp at he'
            subst he'
            exact hlt'.trans_le (huniq t'' x'' hx'')
          | succ k' => exact hmin k' (by omega) e' t'' x'' (by simpa using he') hx''
    · rw [hs] at h1 h3 h2 ⊢
      refine ⟨h1, ?_, ?_⟩
      · intro f hf t' x' hx'
        rcases List.mem_cons.mp hf with rfl | hf
        · exact h1.trans (hno t' x' hx')
        · exact h2 f hf t' x' hx'
      · rcases h3 with h3 | ⟨k, f, t', x', hk, hx', hlt', hl, hmin⟩
        · exact Or.inl h3
        · refine Or.inr ⟨k + 1, f, t', x', by simpa using hk, hx', hlt', by rw [hl]; simp; ring, ?_⟩
          intro k' hk' e' t'' x'' he' hx''
          cases k' with
          | zero =>
            simp at he'
            subst he'
            exact hlt'.trans_le (hno t'' x'' hx'')
          | succ k' => exact hmin k' (by omega) e' t'' x'' (by simpa using he') hx''

theorem rpNormal_spec {u a b : Pt 2} (h : Transversal u a b) : LeftUnitNormal a b (rpNormal a b) := by
  have hne : (b 0 - a 0) ^ 2 + (b 1 - a 1) ^ 2 ≠ 0 := by
    intro h0
    have h1 : b 0 - a 0 = 0 := by nlinarith [sq_nonneg (b 0 - a 0), sq_nonneg (b 1 - a 1)]
    have h2 : b 1 - a 1 = 0 := by nlinarith [sq_nonneg (b 0 - a 0), sq_nonneg (b 1 - a 1)]
    unfold Transversal at h
    rw [h1, h2] at h
    norm_num at h
  have hpos : 0 < (b 0 - a 0) ^ 2 + (b 1 - a 1) ^ 2 := lt_of_le_of_ne (by positivity) (Ne.symm hne)
  have hn : psq (![-(b 1 - a 1), b 0 - a 0] : Pt 2) = (b 0 - a 0) ^ 2 + (b 1 - a 1) ^ 2 := by
    simp [psq, Fin.sum_univ_two]; ring
  have hs : pnorm (![-(b 1 - a 1), b 0 - a 0] : Pt 2) ^ 2 = (b 0 - a 0) ^ 2 + (b 1 - a 1) ^ 2 := by
    rw [pnorm, Real.sq_sqrt (by rw [hn]; exact hpos.le), hn]
  have hr : 0 < pnorm (![-(b 1 - a 1), b 0 - a 0] : Pt 2) := by
    rw [pnorm, hn]; exact Real.sqrt_pos.mpr hpos
  unfold LeftUnitNormal rpNormal
  set r := pnorm (![-(b 1 - a 1), b 0 - a 0] : Pt 2)
  simp only [Pi.smul_apply, smul_eq_mul, Matrix.cons_val_zero, Matrix.cons_val_one]
  refine ⟨by ring, ?_, ?_⟩
  · have : (1 / r * -(b 1 - a 1)) ^ 2 + (1 / r * (b 0 - a 0)) ^ 2 = ((b 0 - a 0) ^ 2 + (b 1 - a 1) ^ 2) / r ^ 2 := by
      field_simp; ring
    rw [this, hs, div_self hne]
  · have : (b 0 - a 0) * (1 / r * (b 0 - a 0)) - (b 1 - a 1) * (1 / r * -(b 1 - a 1)) = ((b 0 - a 0) ^ 2 + (b 1 - a 1) ^ 2) / r := by
      field_simp; ring
    rw [this]; exact div_pos hpos hr

/-- C60 (partial: edges parallel to the ray excluded, see `C60_collinear_violated`).  If no edge is numerically parallel to the direction, then
either the ray meets no edge in an interior point at a parameter below `max_distance`, and the result is `[inf,inf]`, `[0,0]`, `-1`; or the
result is the first point in which the ray meets the interior of an edge, with the index of the edge (the lowest one among those hit there)
and its left unit normal, and its parameter is below `max_distance`. -/
theorem C60_ray_polyline_partial (o u : Pt 2) (V : List (Pt 2)) (md : ℝ) (E : List (ℕ × ℕ)) (P : List (Pt 2 × Pt 2)) (hE : curveEdges V E P)
    (hT : ∀ e ∈ P, Transversal u e.1 e.2) :
    ∃ x n ind, rayPolylineIntersect o u V md (some (edgeRows E)) = some (x, n, ind) ∧
      ((x = none ∧ n = ![0, 0] ∧ ind = -1 ∧ ∀ e ∈ P, ∀ t y, RayHits o u e.1 e.2 t y → md ≤ t) ∨
       ∃ (k : ℕ) (e : Pt 2 × Pt 2) (t : ℝ) (y : Pt 2), P[k]? = some e ∧ ind = k ∧ x = some y ∧ LeftUnitNormal e.1 e.2 n ∧
        RayHits o u e.1 e.2 t y ∧ t < md ∧ (∀ e' ∈ P, ∀ t' y', RayHits o u e'.1 e'.2 t' y' → t ≤ t') ∧
        ∀ k' < k, ∀ e' t' y', P[k']? = some e' → RayHits o u e'.1 e'.2 t' y' → t < t') := by
  obtain ⟨h1, h2, h3⟩ := rpLoop_spec o u P 0 ⟨none, ![0, 0], -1, md⟩ hT
  refine ⟨_, _, _, by
    unfold rayPolylineIntersect
    simp only [Option.getD_some]
    rw [(wnEnds_rows V E P).mpr hE]
    rfl, ?_⟩
  rcases h3 with h3 | ⟨k, e, t, x, hk, hx, hlt, hl, hmin⟩
  · left
    rw [h3] at h2 ⊢
    exact ⟨rfl, rfl, rfl, h2⟩
  · right
    rw [hl] at h2 ⊢
    refine ⟨k, e, t, x, hk, by simp, rfl, rpNormal_spec (hT e (List.mem_of_getElem? hk)), hx, hlt, h2, hmin⟩

/-- C60, the default edges: a closed polyline through the vertices in order. -/
theorem C60_default_edges (o u : Pt 2) (V : List (Pt 2)) (md : ℝ) (hV : V ≠ []) :
    rayPolylineIntersect o u V md none =
      rayPolylineIntersect o u V md (some (edgeRows ((List.range V.length).map (fun i => (i, (i + 1) % V.length))))) := by
  obtain ⟨E, h1, -, h3⟩ := C45_edge_indices_closed V.length
  rw [← h3 (List.length_pos_iff.mpr hV), ← h1]
  rfl

/-- the hypotheses are met and a hit is returned -/
example : Transversal ![1, 0] ![2, -1] ![2, 1] ∧ RayHits ![0, 0] ![1, 0] ![2, -1] ![2, 1] 2 ![2, 0] := by
  refine ⟨by unfold Transversal; norm_num, by norm_num, ?_, 1/2, by norm_num, by norm_num, ?_⟩
  · intro i; fin_cases i <;> norm_num
  · intro i; fin_cases i <;> norm_num

/-- C60 is false for an edge on the line of the ray: with the query inside the edge from `(-5,0)` to `(1,0)` and direction `(1,0)`, the
returned point `(5,0)` is not on the polyline. -/
theorem C60_collinear_violated : ∃ n, rayPolylineIntersect ![0, 0] ![1, 0] [![-5, 0], ![1, 0]] 100 (some [[0, 1]]) = some (some ![5, 0], n, 0) ∧
    ¬ OnSegment ![5, 0] ![-5, 0] ![1, 0] := by
  refine ⟨rpNormal ![-5, 0] ![1, 0], ?_, ?_⟩
  · have hp : pnorm (![-5, 0] - ![0, 0] : Pt 2) = 5 := by
      rw [pnorm, psq, Fin.sum_univ_two, show ((![-5, 0] - ![0, 0] : Pt 2) 0 ^ 2 + (![-5, 0] - ![0, 0] : Pt 2) 1 ^ 2) = 5 ^ 2 by norm_num]
      exact Real.sqrt_sq (by norm_num)
    have hq : pnorm (![1, 0] : Pt 2) = 1 := by
      rw [pnorm, psq, Fin.sum_univ_two]
      norm_num
    have : rpStep ![0, 0] ![1, 0] ⟨none, ![0, 0], -1, 100⟩ 0 ![-5, 0] ![1, 0] = ⟨some ![5, 0], rpNormal ![-5, 0] ![1, 0], 0, 5⟩ := by
      unfold rpStep
      dsimp only
      rw [hp, hq, if_pos (by norm_num), if_pos (by norm_num)]
      norm_num [pdot, Fin.sum_univ_two]
    simp only [rayPolylineIntersect, Option.getD_some, List.mapM_cons, List.mapM_nil, wnEnds, Option.bind_eq_bind, Option.pure_def]
    simp [rpLoop, this]
  · rintro ⟨t, t0, t1, ht⟩
    have := ht 0
    simp at this
    linarith

end Gpy
