import Verif.Model.SignedDistancePolygon
import Verif.Props.Winding
import Mathlib.Algebra.Ring.Int.Parity

/-! C59: `signed_distance_polygon`. -/

set_option autoImplicit false
namespace Gpy

/-- the edges of the closed polygon through the rows of `V` -/
def polygonEdges (V : List (Pt 2)) : List (Pt 2 × Pt 2) :=
  (List.range V.length).map (fun i => (V.getD i 0, V.getD ((i + 1) % V.length) 0))

theorem polygonEdges_curve (V : List (Pt 2)) (hV : V ≠ []) :
    curveEdges V ((List.range V.length).map (fun i => (i, (i + 1) % V.length))) (polygonEdges V) := by
  unfold curveEdges polygonEdges
  rw [List.forall₂_map_left_iff, List.forall₂_map_right_iff]
  have hn : 0 < V.length := List.length_pos_iff.mpr hV
  rw [List.forall₂_same]
  intro i hi
  rw [List.mem_range] at hi
  have h2 := Nat.mod_lt (i + 1) hn
  simp [List.getD_eq_getElem?_getD, List.getElem?_eq_getElem hi, List.getElem?_eq_getElem h2]

/-- the loop visits the edges of the polygon, backwards -/
theorem sdpPairs_perm (V : List (Pt 2)) : ((sdpPairs V).map Prod.swap).Perm (polygonEdges V) := by
  unfold sdpPairs polygonEdges
  rcases Nat.eq_zero_or_pos V.length with h | h
  · rw [h]; simp
  obtain ⟨m, hm⟩ : ∃ m, V.length = m + 1 := ⟨V.length - 1, by omega⟩
  rw [hm, List.map_map]
  conv_lhs => rw [List.range_succ_eq_map]
  conv_rhs => rw [List.range_succ]
  rw [List.map_cons, List.map_append, List.map_map, List.map_cons, List.map_nil]
  refine List.Perm.trans (List.Perm.of_eq ?_) (List.perm_append_comm (l₁ := [(V.getD m 0, V.getD ((m + 1) % (m + 1)) 0)]))
  rw [List.singleton_append]
  congr 1
  · simp
  · apply List.map_congr_left
    intro i hi
    rw [List.mem_range] at hi
    simp [Nat.mod_eq_of_lt (show i + 1 < m + 1 by omega)]

theorem psq2 (x : Pt 2) : psq x = x 0 * x 0 + x 1 * x 1 := by
  simp [psq, Fin.sum_univ_two, sq]

/-- the clipped parameter gives the closest point of the segment -/
theorem clip_closest (p vi vj : Pt 2) (he : (vj - vi) 0 * (vj - vi) 0 + (vj - vi) 1 * (vj - vi) 1 ≠ 0) :
    let t := clip01 (((p - vi) 0 * (vj - vi) 0 + (p - vi) 1 * (vj - vi) 1) / ((vj - vi) 0 ^ 2 + (vj - vi) 1 ^ 2))
    0 ≤ t ∧ t ≤ 1 ∧ ∀ s : ℝ, 0 ≤ s → s ≤ 1 → psq (p - vi - t • (vj - vi)) ≤ psq (p - vi - s • (vj - vi)) := by
  intro t
  have hpos : 0 < (vj - vi) 0 ^ 2 + (vj - vi) 1 ^ 2 := by
    rcases lt_or_eq_of_le (show (0:ℝ) ≤ (vj - vi) 0 ^ 2 + (vj - vi) 1 ^ 2 by positivity) with h | h
    · exact h
    · exact absurd (by nlinarith) he
  have ht0 : 0 ≤ t := le_min (le_max_right _ _) zero_le_one
  have ht1 : t ≤ 1 := min_le_right _ _
  refine ⟨ht0, ht1, ?_⟩
  intro s hs0 hs1
  set r := ((p - vi) 0 * (vj - vi) 0 + (p - vi) 1 * (vj - vi) 1) / ((vj - vi) 0 ^ 2 + (vj - vi) 1 ^ 2) with hr
  have hrw : (p - vi) 0 * (vj - vi) 0 + (p - vi) 1 * (vj - vi) 1 = r * ((vj - vi) 0 ^ 2 + (vj - vi) 1 ^ 2) := by
    rw [hr]; field_simp
  have key : psq (p - vi - s • (vj - vi)) - psq (p - vi - t • (vj - vi)) = ((s - r) ^ 2 - (t - r) ^ 2) * ((vj - vi) 0 ^ 2 + (vj - vi) 1 ^ 2) := by
    rw [psq2, psq2]
    simp only [Pi.sub_apply, Pi.smul_apply, smul_eq_mul] at hrw ⊢
    linear_combination (2 * t - 2 * s) * hrw
  have hsq : (t - r) ^ 2 ≤ (s - r) ^ 2 := by
    have : t = clip01 r := rfl
    unfold clip01 at this
    rcases le_total r 0 with h | h
    · rw [max_eq_right h, min_eq_left zero_le_one] at this
      nlinarith
    · rw [max_eq_left h] at this
      rcases le_total r 1 with h' | h'
      · rw [min_eq_left h'] at this
        rw [this]; nlinarith [sq_nonneg (s - r)]
      · rw [min_eq_right h'] at this
        nlinarith
  nlinarith

/-- distance part of the loop -/
theorem sdp_dist (p : Pt 2) (L : List (Pt 2 × Pt 2)) (st : ℝ × ℝ) :
    let d := (L.foldl (sdpStep p) st).1
    d ≤ st.1 ∧ (∀ e ∈ L, e.1 ≠ e.2 → ∀ x, OnSegment x e.2 e.1 → d ≤ psq (x - p)) ∧
      (d = st.1 ∨ ∃ e ∈ L, ∃ x, OnSegment x e.2 e.1 ∧ d = psq (x - p)) := by
  induction L generalizing st with
  | nil => simp
  | cons e L ih =>
    obtain ⟨h1, h2, h3⟩ := ih (sdpStep p st e)
    simp only [List.foldl_cons]
    set D := (L.foldl (sdpStep p) (sdpStep p st e)).1
    by_cases he : (e.2 - e.1) 0 * (e.2 - e.1) 0 + (e.2 - e.1) 1 * (e.2 - e.1) 1 = 0
    · have hst : sdpStep p st e = st := by unfold sdpStep; simp only [he, if_true]
      rw [hst] at h1 h3
      refine ⟨h1, ?_, ?_⟩
      · intro f hf hne x hx
        rcases List.mem_cons.mp hf with rfl | hf
        · exfalso
          apply hne
          funext i
          simp only [Pi.sub_apply] at he
          have a0 : f.2 0 - f.1 0 = 0 := by nlinarith [sq_nonneg (f.2 0 - f.1 0), sq_nonneg (f.2 1 - f.1 1)]
          have a1 : f.2 1 - f.1 1 = 0 := by nlinarith [sq_nonneg (f.2 0 - f.1 0), sq_nonneg (f.2 1 - f.1 1)]
          fin_cases i
          · exact (sub_eq_zero.mp a0).symm
          · exact (sub_eq_zero.mp a1).symm
        · exact h2 f hf hne x hx
      · rcases h3 with h3 | ⟨f, hf, x, hx⟩
        · exact Or.inl h3
        · exact Or.inr ⟨f, by simp [hf], x, hx⟩
    · obtain ⟨t0, t1, tmin⟩ := clip_closest p e.1 e.2 he
      set t := clip01 (((p - e.1) 0 * (e.2 - e.1) 0 + (p - e.1) 1 * (e.2 - e.1) 1) / ((e.2 - e.1) 0 ^ 2 + (e.2 - e.1) 1 ^ 2)) with ht
      have hst : (sdpStep p st e).1 = min st.1 (psq (p - e.1 - t • (e.2 - e.1))) := by
        unfold sdpStep
        simp only [he, if_false]
        rw [psq2]
      have hx : OnSegment (e.1 + t • (e.2 - e.1)) e.2 e.1 := by
        refine ⟨1 - t, by linarith, by linarith, fun i => ?_⟩
        simp only [Pi.add_apply, Pi.smul_apply, Pi.sub_apply, smul_eq_mul]; ring
      have hxd : psq (e.1 + t • (e.2 - e.1) - p) = psq (p - e.1 - t • (e.2 - e.1)) := by
        rw [psq2, psq2]; simp only [Pi.add_apply, Pi.smul_apply, Pi.sub_apply, smul_eq_mul]; ring
      rw [hst] at h1 h3
      refine ⟨h1.trans (min_le_left _ _), ?_, ?_⟩
      · intro f hf hne x hx'
        rcases List.mem_cons.mp hf with rfl | hf
        · obtain ⟨s, s0, s1, hs⟩ := hx'
          refine (h1.trans (min_le_right _ _)).trans ((tmin (1 - s) (by linarith) (by linarith)).trans (le_of_eq ?_))
          rw [psq2, psq2]
          simp only [Pi.smul_apply, Pi.sub_apply, smul_eq_mul, hs]
          ring
        · exact h2 f hf hne x hx'
      · rcases h3 with h3 | ⟨f, hf, x, hx'⟩
        · rcases min_choice st.1 (psq (p - e.1 - t • (e.2 - e.1))) with h | h
          · exact Or.inl (h3.trans h)
          · exact Or.inr ⟨e, by simp, _, hx, by rw [h3, h, hxd]⟩
        · exact Or.inr ⟨f, by simp [hf], x, hx'⟩

/-- the sign is a sign -/
theorem sdp_sign (p : Pt 2) (L : List (Pt 2 × Pt 2)) (st : ℝ × ℝ) (h : st.2 = 1 ∨ st.2 = -1) :
    (L.foldl (sdpStep p) st).2 = 1 ∨ (L.foldl (sdpStep p) st).2 = -1 := by
  induction L generalizing st with
  | nil => exact h
  | cons e L ih =>
    apply ih
    unfold sdpStep
    dsimp only
    split_ifs
    · exact h
    · rcases h with h | h <;> simp [h]
    · rcases h with h | h <;> simp [h]

/-- `δ` is the distance from `p` to the closed polygon through the rows of `V` -/
def DistToPolygon (p : Pt 2) (V : List (Pt 2)) (δ : ℝ) : Prop :=
  0 ≤ δ ∧ (∃ e ∈ polygonEdges V, ∃ x, OnSegment x e.1 e.2 ∧ δ = pnorm (x - p)) ∧ ∀ e ∈ polygonEdges V, ∀ x, OnSegment x e.1 e.2 → δ ≤ pnorm (x - p)

theorem mem_polygonEdges (V : List (Pt 2)) (e : Pt 2 × Pt 2) : e ∈ polygonEdges V ↔ e.swap ∈ sdpPairs V := by
  rw [← (sdpPairs_perm V).mem_iff, List.mem_map]
  constructor
  · rintro ⟨f, hf, rfl⟩; rwa [Prod.swap_swap]
  · intro h; exact ⟨_, h, Prod.swap_swap e⟩

/-- the polygon is nonempty: the returned number is the distance up to sign -/
theorem sdp_value (p : Pt 2) (V : List (Pt 2)) (hV : V ≠ []) :
    ∃ d s : ℝ, signedDistancePolygon p V = some (s * Real.sqrt d) ∧ (s = 1 ∨ s = -1) ∧ DistToPolygon p V (Real.sqrt d) ∧
      ∃ d0, s = ((sdpPairs V).foldl (sdpStep p) (d0, 1)).2 := by
  obtain ⟨v0, V', rfl⟩ := List.exists_cons_of_ne_nil hV
  refine ⟨_, _, rfl, sdp_sign p _ _ (Or.inl rfl), ?_, _, rfl⟩
  set V := v0 :: V' with hVdef
  set d0 := (p 0 - v0 0) * (p 0 - v0 0) + (p 1 - v0 1) * (p 1 - v0 1) with hd0
  have hd0' : d0 = psq (v0 - p) := by rw [psq2, hd0]; simp only [Pi.sub_apply]; ring
  obtain ⟨h1, h2, h3⟩ := sdp_dist p (sdpPairs V) (d0, 1)
  -- the first vertex is an end of the first edge
  have hedge0 : (v0, V.getD (1 % V.length) 0) ∈ polygonEdges V := by
    unfold polygonEdges
    rw [List.mem_map]
    exact ⟨0, by simp [hVdef], by simp [hVdef]⟩
  refine ⟨Real.sqrt_nonneg _, ?_, ?_⟩
  · rcases h3 with h3 | ⟨e, he, x, hx, hxd⟩
    · refine ⟨_, hedge0, v0, ⟨0, le_rfl, zero_le_one, fun i => by ring⟩, ?_⟩
      rw [h3, pnorm, hd0']
    · refine ⟨e.swap, (mem_polygonEdges V _).mpr (by rwa [Prod.swap_swap]), x, hx, ?_⟩
      rw [hxd, pnorm]
  · intro e he x hx
    rw [pnorm]
    apply Real.sqrt_le_sqrt
    by_cases hne : e.1 = e.2
    · -- a degenerate edge: its point is an end of another edge, or the polygon is a single point
      have hxe : x = e.1 := by
        obtain ⟨t, -, -, ht⟩ := hx
        funext i; rw [ht i, ← hne]; ring
      by_cases hall : ∀ f ∈ polygonEdges V, f.1 = f.2
      · -- all vertices equal v0
        have hcon : ∀ i, i < V.length → V.getD i 0 = v0 := by
          intro i
          induction i with
          | zero => intro _; simp [hVdef]
          | succ i ih =>
            intro hi
            have hm : (V.getD i 0, V.getD ((i + 1) % V.length) 0) ∈ polygonEdges V :=
              List.mem_map.mpr ⟨i, List.mem_range.mpr (by omega), rfl⟩
            have := hall _ hm
            dsimp only at this
            rw [Nat.mod_eq_of_lt hi] at this
            rw [← this]; exact ih (by omega)
        obtain ⟨i, hi, rfl⟩ := List.mem_map.mp he
        dsimp only at hxe
        rw [hcon i (List.mem_range.mp hi)] at hxe
        rw [hxe, ← hd0']; exact h1
      · push Not at hall
        -- walk from the degenerate edge to the first nondegenerate one
        have hwalk : ∀ i, i < V.length → ((sdpPairs V).foldl (sdpStep p) (d0, 1)).1 ≤ psq (V.getD i 0 - p) := by
          intro i
          induction i with
          | zero => intro _; rw [show V.getD 0 0 = v0 by simp [hVdef], ← hd0']; exact h1
          | succ i ih =>
            intro hi
            have hm : (V.getD i 0, V.getD ((i + 1) % V.length) 0) ∈ polygonEdges V :=
              List.mem_map.mpr ⟨i, List.mem_range.mpr (by omega), rfl⟩
            rw [Nat.mod_eq_of_lt hi] at hm
            by_cases hd : V.getD i 0 = V.getD (i + 1) 0
            · rw [← hd]; exact ih (by omega)
            · exact h2 _ ((mem_polygonEdges V _).mp hm) (fun h => hd h.symm) _ ⟨1, zero_le_one, le_rfl, fun i => by
                simp only [Prod.swap]; ring⟩
        obtain ⟨i, hi, rfl⟩ := List.mem_map.mp he
        dsimp only at hxe
        rw [hxe]; exact hwalk i (List.mem_range.mp hi)
    · exact h2 e.swap ((mem_polygonEdges V _).mp he) (fun h => hne h.symm) x hx

/-- C59, magnitude: whenever the polygon has a vertex, the returned number is plus or minus the distance to the closed polygon (degenerate
edges and repeated vertices included). -/
theorem C59_magnitude (p : Pt 2) (V : List (Pt 2)) (hV : V ≠ []) :
    ∃ r δ : ℝ, signedDistancePolygon p V = some r ∧ DistToPolygon p V δ ∧ |r| = δ := by
  obtain ⟨d, s, h1, h2, h3, -⟩ := sdp_value p V hV
  refine ⟨_, _, h1, h3, ?_⟩
  rw [abs_mul, abs_of_nonneg (Real.sqrt_nonneg d)]
  rcases h2 with h | h <;> simp [h]


theorem side_e1 (x q : Pt 2) : side x q ![1, 0] = x 1 - q 1 := by
  simp [side]

/-- an edge that passes the height of `p` meets the ray to the right exactly if `p` is to the left of it -/
theorem hits_ray (p s d : Pt 2) (hb : (s 1 < p 1 ∧ p 1 < d 1) ∨ (d 1 < p 1 ∧ p 1 < s 1)) :
    (∃ x, OnSegment x s d ∧ OnRay x p ![1, 0]) ↔ 0 ≤ ((s 0 - p 0) * (d 1 - p 1) - (d 0 - p 0) * (s 1 - p 1)) / (d 1 - s 1) := by
  have hds : d 1 - s 1 ≠ 0 := by rcases hb with h | h <;> intro h0 <;> linarith
  constructor
  · rintro ⟨x, ⟨t, t0, t1, ht⟩, r, hr0, hr⟩
    have e0 := ht 0
    have e1 := ht 1
    have f0 := hr 0
    have f1 := hr 1
    simp at f0 f1
    have : ((s 0 - p 0) * (d 1 - p 1) - (d 0 - p 0) * (s 1 - p 1)) / (d 1 - s 1) = r := by
      rw [div_eq_iff hds]
      have a1 : (1 - t) * s 1 + t * d 1 = p 1 := by rw [← e1, f1]
      have a0 : (1 - t) * s 0 + t * d 0 = p 0 + r := by rw [← e0, f0]
      linear_combination (d 1 - s 1) * a0 + (s 0 - d 0) * a1
    rw [this]; exact hr0
  · intro h
    set r := ((s 0 - p 0) * (d 1 - p 1) - (d 0 - p 0) * (s 1 - p 1)) / (d 1 - s 1) with hr
    set t := (p 1 - s 1) / (d 1 - s 1) with ht
    have ht1 : t * (d 1 - s 1) = p 1 - s 1 := by rw [ht]; field_simp
    have hr1 : r * (d 1 - s 1) = (s 0 - p 0) * (d 1 - p 1) - (d 0 - p 0) * (s 1 - p 1) := by rw [hr]; field_simp
    refine ⟨![p 0 + r, p 1], ⟨t, ?_, ?_, ?_⟩, r, h, ?_⟩
    · rcases hb with ⟨h1, h2⟩ | ⟨h1, h2⟩
      · exact div_nonneg (by linarith) (by linarith)
      · exact div_nonneg_of_nonpos (by linarith) (by linarith)
    · rcases hb with ⟨h1, h2⟩ | ⟨h1, h2⟩
      · rw [ht, div_le_one (by linarith)]; linarith
      · rw [ht, div_le_one_of_neg (by linarith)]; linarith
    · intro i
      fin_cases i
      · simp
        apply mul_right_cancel₀ hds
        linear_combination hr1 + (s 0 - d 0) * ht1
      · simp
        linear_combination -ht1
    · intro i
      fin_cases i <;> simp

open Classical in
/-- the sign factor of one edge is the parity of its crossing -/
theorem sdp_step_sign (p vi vj : Pt 2) (st : ℝ × ℝ) (hi : p 1 ≠ vi 1) (hj : p 1 ≠ vj 1) (hoff : ¬ OnSegment p vj vi) :
    (sdpStep p st (vi, vj)).2 = (if Odd (crossing p ![1, 0] vj vi) then -1 else 1) * st.2 := by
  have odd1 : Odd (1 : ℤ) := odd_one
  have oddm1 : Odd (-1 : ℤ) := by decide
  have odd0 : ¬ Odd (0 : ℤ) := by decide
  unfold sdpStep
  dsimp only
  by_cases he : (vj - vi) 0 * (vj - vi) 0 + (vj - vi) 1 * (vj - vi) 1 = 0
  · rw [if_pos he]
    have a1 : vj 1 = vi 1 := by
      simp only [Pi.sub_apply] at he
      nlinarith [sq_nonneg (vj 0 - vi 0), sq_nonneg (vj 1 - vi 1)]
    have hc : crossing p ![1, 0] vj vi = 0 := by
      unfold crossing
      rw [side_e1, side_e1, a1]
      split_ifs with h1 h2 h3
      · linarith [h2.1, h2.2]
      · linarith [h3.1, h3.2]
      · rfl
      · rfl
    rw [hc, if_neg odd0, one_mul]
  · rw [if_neg he]
    dsimp only
    congr 1
    simp only [Pi.sub_apply]
    have hdet : ∀ (_ : (vj 1 < p 1 ∧ p 1 < vi 1) ∨ (vi 1 < p 1 ∧ p 1 < vj 1)),
        ((vj 0 - p 0) * (vi 1 - p 1) - (vi 0 - p 0) * (vj 1 - p 1)) ≠ 0 := by
      intro hb h0
      apply hoff
      have hds : vi 1 - vj 1 ≠ 0 := by rcases hb with h | h <;> intro h0 <;> linarith
      have := (hits_ray p vj vi hb).mpr (by rw [h0, zero_div])
      obtain ⟨x, hx, r, hr0, hr⟩ := this
      have hxp : x = p := by
        obtain ⟨t, t0, t1, ht⟩ := hx
        have e0 := ht 0
        have e1 := ht 1
        have f0 := hr 0
        have f1 := hr 1
        simp at f0 f1
        have a1 : (1 - t) * vj 1 + t * vi 1 = p 1 := by rw [← e1, f1]
        have a0 : (1 - t) * vj 0 + t * vi 0 = p 0 + r := by rw [← e0, f0]
        have hr : r * (vi 1 - vj 1) = 0 := by
          linear_combination h0 - (vi 1 - vj 1) * a0 - (vj 0 - vi 0) * a1
        have hr' : r = 0 := (mul_eq_zero.mp hr).resolve_right hds
        funext i
        fin_cases i
        · show x 0 = p 0; rw [f0, hr', add_zero]
        · exact f1
      rwa [hxp] at hx
    -- cases by heights
    rcases lt_or_gt_of_ne hi with hi' | hi' <;> rcases lt_or_gt_of_ne hj with hj' | hj'
    · -- both above
      have hc : crossing p ![1, 0] vj vi = 0 := by
        unfold crossing
        rw [side_e1, side_e1]
        split_ifs with h1 h2 h3
        · linarith [h2.1, h2.2]
        · linarith [h3.1, h3.2]
        · rfl
        · rfl
      rw [hc, if_neg odd0, if_neg]
      rintro (⟨h1, -, -⟩ | ⟨-, h2, -⟩) <;> linarith
    · -- vj below, vi above
      have hb : (vj 1 < p 1 ∧ p 1 < vi 1) ∨ (vi 1 < p 1 ∧ p 1 < vj 1) := Or.inl ⟨hj', hi'⟩
      have hd := hdet hb
      by_cases hray : ∃ x, OnSegment x vj vi ∧ OnRay x p ![1, 0]
      · have hc : crossing p ![1, 0] vj vi = 1 := by
          unfold crossing
          rw [if_pos hray, side_e1, side_e1, if_pos ⟨by linarith, by linarith⟩]
        have hs := (hits_ray p vj vi hb).mp hray
        rw [hc, if_pos odd1, if_pos]
        right
        refine ⟨by linarith, by linarith, ?_⟩
        rw [le_div_iff₀ (by linarith)] at hs
        nlinarith
      · have hc : crossing p ![1, 0] vj vi = 0 := by
          unfold crossing
          rw [if_neg hray]
        rw [hits_ray p vj vi hb, not_le, div_lt_iff₀ (by linarith)] at hray
        rw [hc, if_neg odd0, if_neg]
        rintro (⟨h1, -, -⟩ | ⟨-, -, h3⟩)
        · linarith
        · apply h3; nlinarith
    · -- vi below, vj above
      have hb : (vj 1 < p 1 ∧ p 1 < vi 1) ∨ (vi 1 < p 1 ∧ p 1 < vj 1) := Or.inr ⟨hi', hj'⟩
      have hd := hdet hb
      by_cases hray : ∃ x, OnSegment x vj vi ∧ OnRay x p ![1, 0]
      · have hc : crossing p ![1, 0] vj vi = -1 := by
          unfold crossing
          rw [if_pos hray, side_e1, side_e1, if_neg (fun h => by linarith [h.1]), if_pos ⟨by linarith, by linarith⟩]
        have hs := (hits_ray p vj vi hb).mp hray
        rw [hc, if_pos oddm1, if_pos]
        left
        refine ⟨by linarith, by linarith, ?_⟩
        rw [le_div_iff_of_neg (by linarith)] at hs
        rcases lt_or_gt_of_ne hd with h | h <;> nlinarith
      · have hc : crossing p ![1, 0] vj vi = 0 := by
          unfold crossing
          rw [if_neg hray]
        rw [hits_ray p vj vi hb, not_le, div_lt_iff_of_neg (by linarith)] at hray
        rw [hc, if_neg odd0, if_neg]
        rintro (⟨-, -, h3⟩ | ⟨h1, -, -⟩)
        · nlinarith
        · exact h1 (by linarith)
    · -- both below
      have hc : crossing p ![1, 0] vj vi = 0 := by
        unfold crossing
        rw [side_e1, side_e1]
        split_ifs with h1 h2 h3
        · linarith [h2.1, h2.2]
        · linarith [h3.1, h3.2]
        · rfl
        · rfl
      rw [hc, if_neg odd0, if_neg]
      rintro (⟨-, h1, -⟩ | ⟨h2, -, -⟩)
      · linarith
      · exact h2 (by linarith)

open Classical in
theorem sdp_sign_parity (p : Pt 2) (L : List (Pt 2 × Pt 2)) (st : ℝ × ℝ)
    (hL : ∀ e ∈ L, p 1 ≠ e.1 1 ∧ p 1 ≠ e.2 1 ∧ ¬ OnSegment p e.2 e.1) :
    (L.foldl (sdpStep p) st).2 = (if Odd ((L.map (fun e => crossing p ![1, 0] e.2 e.1)).sum) then -1 else 1) * st.2 := by
  induction L generalizing st with
  | nil => simp
  | cons e L ih =>
    rw [List.foldl_cons, ih _ (fun f hf => hL f (by simp [hf])), List.map_cons, List.sum_cons]
    obtain ⟨h1, h2, h3⟩ := hL e (by simp)
    rw [sdp_step_sign p e.1 e.2 st h1 h2 h3]
    generalize crossing p ![1, 0] e.2 e.1 = a
    generalize (L.map (fun e => crossing p ![1, 0] e.2 e.1)).sum = b
    by_cases ha : Odd a <;> by_cases hb : Odd b
    · rw [if_pos ha, if_pos hb, if_neg (by rw [Int.not_odd_iff_even]; exact ha.add_odd hb)]; ring
    · rw [if_pos ha, if_neg hb, if_pos (ha.add_even (Int.not_odd_iff_even.mp hb))]; ring
    · rw [if_neg ha, if_pos hb, if_pos ((Int.not_odd_iff_even.mp ha).add_odd hb)]; ring
    · rw [if_neg ha, if_neg hb, if_neg (by
        rw [Int.not_odd_iff_even]; exact (Int.not_odd_iff_even.mp ha).add (Int.not_odd_iff_even.mp hb))]; ring

/-- C59, sign (partial: the statement without the condition on the heights is false, see `C59_sign_violated`).  If no vertex of the polygon
is at the height of `p` and `p` is not on the polygon, the result is minus the distance exactly where the winding number of the polygon is
odd: negative inside, positive outside of every simple polygon of either orientation. -/
theorem C59_sign_partial (p : Pt 2) (V : List (Pt 2)) (hV : V ≠ []) (hh : ∀ v ∈ V, p 1 ≠ v 1) (hoff : ∀ e ∈ polygonEdges V, ¬ OnSegment p e.1 e.2) :
    ∃ (w : ℤ) (δ : ℝ), windingNumber2 p V (edgeIndices V.length true) = some (w : ℝ) ∧ DistToPolygon p V δ ∧ 0 < δ ∧
      (Odd w → signedDistancePolygon p V = some (-δ)) ∧ (¬ Odd w → signedDistancePolygon p V = some δ) := by
  obtain ⟨d, s, h1, h2, h3, d0, hs⟩ := sdp_value p V hV
  have hn : 0 < V.length := List.length_pos_iff.mpr hV
  have hvert : ∀ e ∈ polygonEdges V, e.1 ∈ V ∧ e.2 ∈ V := by
    intro e he
    obtain ⟨i, hi, rfl⟩ := List.mem_map.mp he
    rw [List.mem_range] at hi
    have h2 := Nat.mod_lt (i + 1) hn
    constructor
    · simp [List.getD_eq_getElem?_getD, List.getElem?_eq_getElem hi]
    · simp [List.getD_eq_getElem?_getD, List.getElem?_eq_getElem h2]
  obtain ⟨E, hE1, hE2, hE3⟩ := C45_edge_indices_closed V.length
  have hcurve : curveEdges V E (polygonEdges V) := by rw [hE3 hn]; exact polygonEdges_curve V hV
  have hu : (![1, 0] : Pt 2) ≠ 0 := fun h => by have := congrFun h 0; simp at this
  have hw := C45_crossings hcurve (hE2 hn) (q := p) hu hoff (fun e he => by
    obtain ⟨m1, m2⟩ := hvert e he
    constructor
    · rintro ⟨t, -, ht⟩
      have := ht 1
      simp at this
      exact hh _ m1 this.symm
    · rintro ⟨t, -, ht⟩
      have := ht 1
      simp at this
      exact hh _ m2 this.symm)
  rw [hE1]
  have hsum : ((sdpPairs V).map (fun e => crossing p ![1, 0] e.2 e.1)).sum = ((polygonEdges V).map (fun e => crossing p ![1, 0] e.1 e.2)).sum := by
    rw [← ((sdpPairs_perm V).map _).sum_eq, List.map_map]
    rfl
  rw [sdp_sign_parity p _ _ (fun e he => by
    have hm := (mem_polygonEdges V e.swap).mpr (by rwa [Prod.swap_swap])
    obtain ⟨m1, m2⟩ := hvert _ hm
    exact ⟨hh _ m2, hh _ m1, hoff _ hm⟩), hsum, mul_one] at hs
  refine ⟨_, Real.sqrt d, hw, h3, ?_, ?_, ?_⟩
  · rcases lt_or_eq_of_le h3.1 with h | h
    · exact h
    · exfalso
      obtain ⟨-, ⟨e, he, x, hx, hd⟩, -⟩ := h3
      rw [← h] at hd
      have hx0 : psq (x - p) = 0 := by
        have := Real.sqrt_eq_zero (show 0 ≤ psq (x - p) by rw [psq2]; nlinarith [mul_self_nonneg ((x - p) 0), mul_self_nonneg ((x - p) 1)])
        exact this.mp hd.symm
      rw [psq2] at hx0
      have hxp : x = p := by
        funext i
        simp only [Pi.sub_apply] at hx0
        fin_cases i
        · have : x 0 - p 0 = 0 := by nlinarith [mul_self_nonneg (x 0 - p 0), mul_self_nonneg (x 1 - p 1)]
          exact sub_eq_zero.mp this
        · have : x 1 - p 1 = 0 := by nlinarith [mul_self_nonneg (x 0 - p 0), mul_self_nonneg (x 1 - p 1)]
          exact sub_eq_zero.mp this
      rw [hxp] at hx
      exact hoff e he hx
  · intro ho
    rw [h1, hs, if_pos ho, neg_one_mul]
  · intro ho
    rw [h1, hs, if_neg ho, one_mul]

/-- the hypotheses are met: a point inside a triangle -/
example : (∀ v ∈ ([![0, 0], ![4, 0], ![0, 4]] : List (Pt 2)), (![1, 1] : Pt 2) 1 ≠ v 1) := by
  intro v hv
  simp at hv
  rcases hv with rfl | rfl | rfl <;> norm_num

/-- C59 is false without the condition: the centre of the diamond with vertices `(0,-1),(1,0),(0,1),(-1,0)` has winding number 1, yet the
returned signed distance is positive, because both of the edges of a chain that passes the height of the query at a vertex are counted, or
neither. -/
theorem C59_sign_violated :
    ∃ r : ℝ, 0 < r ∧ signedDistancePolygon ![0, 0] [![0, -1], ![1, 0], ![0, 1], ![-1, 0]] = some r ∧
      windingNumber2 ![0, 0] [![0, -1], ![1, 0], ![0, 1], ![-1, 0]] (edgeIndices 4 true) = some 1 := by
  refine ⟨Real.sqrt (1/2), by positivity, ?_, ?_⟩
  · simp only [signedDistancePolygon, sdpPairs, Option.bind_eq_bind, List.getElem?_cons_zero, Option.bind_some, List.length_cons, List.length_nil]
    norm_num [List.range_succ, sdpStep, clip01, List.getD]
  · have e : edgeIndices 4 true = edgeRows [(0, 1), (1, 2), (2, 3), (3, 0)] := rfl
    rw [e, windingNumber2_eq (P := [(![0, -1], ![1, 0]), (![1, 0], ![0, 1]), (![0, 1], ![-1, 0]), (![-1, 0], ![0, -1])])
      (.cons ⟨rfl, rfl⟩ (.cons ⟨rfl, rfl⟩ (.cons ⟨rfl, rfl⟩ (.cons ⟨rfl, rfl⟩ .nil))))]
    have hI : (⟨0, -1⟩ : ℂ) = -Complex.I := by apply Complex.ext <;> simp
    have e1 : wnAngle ![0, 0] ![1, 0] ![0, 1] = Real.pi / 2 := by simp [wnAngle, npArctan2, hI]
    have e2 : wnAngle ![0, 0] ![0, 1] ![-1, 0] = Real.pi / 2 := by simp [wnAngle, npArctan2, hI]
    have e3 : wnAngle ![0, 0] ![0, -1] ![1, 0] = Real.pi / 2 := by simp [wnAngle, npArctan2, hI]
    have e4 : wnAngle ![0, 0] ![-1, 0] ![0, -1] = Real.pi / 2 := by simp [wnAngle, npArctan2, hI]
    simp only [List.map_cons, List.map_nil, List.sum_cons, List.sum_nil, e1, e2, e3, e4]
    congr 1
    have := Real.pi_pos
    field_simp
    ring

end Gpy
