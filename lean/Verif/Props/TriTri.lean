import Verif.Proofs.TriClosest
import Verif.Props.EdgeEdge
import Mathlib.Data.Fin.VecNotation
import Mathlib.LinearAlgebra.Matrix.Notation

/-! C52: `triangle_triangle_distance`. -/

set_option autoImplicit false
namespace Gpy

theorem vec0 (a b c : ℝ) : (![a, b, c] : Pt 3) 0 = a := rfl
theorem vec1 (a b c : ℝ) : (![a, b, c] : Pt 3) 1 = b := rfl
theorem vec2 (a b c : ℝ) : (![a, b, c] : Pt 3) 2 = c := rfl

theorem inTri_comb (s0 s1 s2 x : Pt 3) : InTri (s0, s1, s2) x ↔ ∃ w, IsWeights w 3 ∧ x = comb w [s0, s1, s2] := by
  constructor
  · rintro ⟨w, h0, h1, rfl⟩
    refine ⟨[w 0, w 1, w 2], ⟨rfl, ?_, ?_⟩, ?_⟩
    · simp only [List.mem_cons, List.not_mem_nil, or_false]
      rintro x (rfl | rfl | rfl) <;> exact h0 _
    · simp only [List.sum_cons, List.sum_nil]; linarith
    · funext i
      simp [comb, corner]
      ring
  · rintro ⟨w, ⟨hl, h0, h1⟩, rfl⟩
    match w, hl with
    | [a, b, c], _ =>
      refine ⟨![a, b, c], ?_, ?_, ?_⟩
      · rw [forall3]
        exact ⟨h0 a (by simp), h0 b (by simp), h0 c (by simp)⟩
      · simp only [List.sum_cons, List.sum_nil] at h1
        simp
        linarith
      · funext i
        simp [comb, corner]
        ring

theorem ttPairs_complete (ij : Fin 3 × Fin 3) : ij ∈ ttPairs := by revert ij; decide

theorem triTri_exact (S T : Pt 3 × Pt 3 × Pt 3) (hS : 1e-15 < pdot (nrm S) (nrm S)) (hT : 1e-15 < pdot (nrm T) (nrm T)) :
    TtExact S T (triangleTriangleDistance S T) := by
  obtain ⟨X, Y, hc⟩ := exists_closest S T
  have hopt : TtExact S T (Real.sqrt (psq (Y - X))) :=
    ⟨⟨X, Y, hc.inS, hc.inT, rfl⟩, fun x y hx hy => Real.sqrt_le_sqrt (hc.isMin x y hx hy)⟩
  have hg : ∀ ij, psq (Y - X) ≤ psq (eeQ S T ij - eeP S T ij) := by
    intro ij
    obtain ⟨h1, h2, -⟩ := ee_facts S T ij
    exact hc.isMin _ _ h1.inTri h2.inTri
  have hm0 : psq (Y - X) ≤ psq (corner S 0 - corner T 0) + 10 := by
    have := hc.isMin _ _ (inTri_corner S 0) (inTri_corner T 0)
    rw [psq_neg_sub (corner T 0)] at this
    linarith
  unfold triangleTriangleDistance
  rcases loop_spec S T _ hg ttPairs (psq (corner S 0 - corner T 0) + 10) false hm0 with ⟨r, h1, h2⟩ | ⟨m, sh, h1, h2, h3⟩
  · rw [h1]; exact h2
  · rw [h1]
    dsimp only
    -- no closest pair on edges
    have hne : NoEdgePair S T X Y := by
      intro e f x y hx hy hxy
      obtain ⟨g1, g2, g3, g4⟩ := ee_facts S T (e, f)
      have hle : psq (eeQ S T (e, f) - eeP S T (e, f)) ≤ psq (Y - X) := by
        rw [← hxy]
        exact slab_bound (g3 x hx) (g4 y hy)
      have heq := le_antisymm hle (hg (e, f))
      have hcl : Closest S T (eeP S T (e, f)) (eeQ S T (e, f)) :=
        ⟨g1.inTri, g2.inTri, fun x y hx hy => by rw [heq]; exact hc.isMin x y hx hy⟩
      exact h2 (e, f) (ttPairs_complete _) heq ⟨hcl.dot_le (inTri_corner S _), hcl.le_dot (inTri_corner T _)⟩
    by_cases hV : psq (Y - X) = 0
    · -- the triangles meet
      have hXY : X = Y := by
        have hz : pdot (Y - X) (Y - X) = 0 := by rw [pdot_self]; exact hV
        have := pdot_zero_of_self hz
        exact (sub_eq_zero.mp this).symm
      have hmeet : ¬ ∀ x y, InTri S x → InTri T y → x ≠ y := fun h => h X Y hc.inS hc.inT hXY
      have hsh : sh = false := by
        cases sh with
        | false => rfl
        | true =>
          rcases h3 rfl with h | h
          · exact absurd h (by simp)
          · exact absurd h hmeet
      cases hf1 : ttFace S T with
      | inl r => exact face_exact hf1
      | inr b1 =>
        cases b1 with
        | true => exact absurd (face_true hf1) hmeet
        | false =>
          dsimp only
          cases hf2 : ttFace T S with
          | inl r => exact (face_exact hf2).symm
          | inr b2 =>
            cases b2 with
            | true => exact absurd (fun x y hx hy e => face_true hf2 y x hy hx e.symm) hmeet
            | false =>
              rw [hsh]
              have : Real.sqrt (psq (Y - X)) = 0 := by rw [hV, Real.sqrt_zero]
              rw [this] at hopt
              simpa using hopt
    · have hV' : 0 < psq (Y - X) := lt_of_le_of_ne (psq_nonneg _) (Ne.symm hV)
      cases hf1 : ttFace S T with
      | inl r => exact face_exact hf1
      | inr b1 =>
        dsimp only
        rcases face_complete hS hT hc hV' hne with ⟨r, h⟩ | ⟨r, h⟩
        · rw [h] at hf1; exact absurd hf1 (by simp)
        · rw [h]; exact (face_exact h).symm

/-- C52.  For two triangles in space whose normals `(s1-s0)×(s2-s1)`, `(t1-t0)×(t2-t1)` have a squared length above the threshold `1e-15` of the
code (in any relative position: crossing, touching, coplanar, parallel, one above the inside of the other), the value returned is the distance
between some point of the one and some point of the other triangle, and no two points are closer.  In particular it is zero exactly if the triangles
have a common point. -/
theorem C52_triangle_triangle (s0 s1 s2 t0 t1 t2 : Pt 3) (hS : 1e-15 < psq (pcross (s1 - s0) (s2 - s1)))
    (hT : 1e-15 < psq (pcross (t1 - t0) (t2 - t1))) :
    let r := triangleTriangleDistance (s0, s1, s2) (t0, t1, t2)
    (∃ w v, IsWeights w 3 ∧ IsWeights v 3 ∧ r = pnorm (comb w [s0, s1, s2] - comb v [t0, t1, t2])) ∧
    (∀ w v, IsWeights w 3 → IsWeights v 3 → r ≤ pnorm (comb w [s0, s1, s2] - comb v [t0, t1, t2])) ∧
    (r = 0 ↔ ∃ w v, IsWeights w 3 ∧ IsWeights v 3 ∧ comb w [s0, s1, s2] = comb v [t0, t1, t2]) := by
  obtain ⟨⟨x, y, hx, hy, hr⟩, hmin⟩ := triTri_exact (s0, s1, s2) (t0, t1, t2) (by rw [pdot_self]; exact hS) (by rw [pdot_self]; exact hT)
  obtain ⟨w, hw, rfl⟩ := (inTri_comb s0 s1 s2 x).mp hx
  obtain ⟨v, hv, rfl⟩ := (inTri_comb t0 t1 t2 y).mp hy
  dsimp only
  refine ⟨⟨w, v, hw, hv, by rw [hr, psq_neg_sub]; rfl⟩, ?_, ?_⟩
  · intro w v hw hv
    have := hmin _ _ ((inTri_comb s0 s1 s2 _).mpr ⟨w, hw, rfl⟩) ((inTri_comb t0 t1 t2 _).mpr ⟨v, hv, rfl⟩)
    rw [psq_neg_sub] at this
    exact this
  · constructor
    · intro h0
      refine ⟨w, v, hw, hv, ?_⟩
      rw [h0, eq_comm, Real.sqrt_eq_zero (psq_nonneg _), ← pdot_self] at hr
      exact (sub_eq_zero.mp (pdot_zero_of_self hr)).symm
    · rintro ⟨w', v', hw', hv', e⟩
      have := hmin _ _ ((inTri_comb s0 s1 s2 _).mpr ⟨w', hw', rfl⟩) ((inTri_comb t0 t1 t2 _).mpr ⟨v', hv', rfl⟩)
      rw [e, sub_self] at this
      have hz : psq (0 : Pt 3) = 0 := by simp [psq3]
      rw [hz, Real.sqrt_zero] at this
      apply le_antisymm this
      rw [hr]; exact Real.sqrt_nonneg _

/-- A small triangle at height one above the inside of a large one: the distance is one. -/
example : triangleTriangleDistance (![0, 0, 0], ![3, 0, 0], ![0, 3, 0]) (![1, 1, 1], ![5/4, 1, 2], ![1, 5/4, 2]) = 1 := by
  obtain ⟨⟨w, v, hw, hv, h1⟩, h2, -⟩ := C52_triangle_triangle ![0, 0, 0] ![3, 0, 0] ![0, 3, 0] ![1, 1, 1] ![5/4, 1, 2] ![1, 5/4, 2]
    (by (simp only [psq3, pcross, Pi.sub_apply, vec0, vec1, vec2]; norm_num)) (by (simp only [psq3, pcross, Pi.sub_apply, vec0, vec1, vec2]; norm_num))
  apply le_antisymm
  · refine (h2 [1/3, 1/3, 1/3] [1, 0, 0] ⟨rfl, by norm_num, by norm_num⟩ ⟨rfl, by norm_num, by norm_num⟩).trans ?_
    have : pnorm (comb [1/3, 1/3, 1/3] [![0, 0, 0], ![3, 0, 0], ![0, 3, 0]] - comb [1, 0, 0] [(![1, 1, 1] : Pt 3), ![5/4, 1, 2], ![1, 5/4, 2]]) = 1 := by
      unfold pnorm
      rw [psq3]
      (simp only [comb, Pi.sub_apply, List.zip_cons_cons, List.zip_nil_right, List.map_cons, List.map_nil, List.sum_cons, List.sum_nil, vec0, vec1, vec2]; norm_num)
    exact this.le
  · rw [h1]
    obtain ⟨hl, hp, hs⟩ := hv
    obtain ⟨hl', -, -⟩ := hw
    match v, hl with
    | [a, b, c], _ =>
      match w, hl' with
      | [p, q, r], _ =>
        have ha := hp a (by simp)
        have hb := hp b (by simp)
        have hc := hp c (by simp)
        simp only [List.sum_cons, List.sum_nil] at hs
        unfold pnorm
        rw [Real.one_le_sqrt, psq3]
        have e : (comb [p, q, r] [![0, 0, 0], ![3, 0, 0], ![0, 3, 0]] - comb [a, b, c] [(![1, 1, 1] : Pt 3), ![5/4, 1, 2], ![1, 5/4, 2]]) 2 = -(a + 2 * b + 2 * c) := by
          simp [comb]; ring
        rw [e]
        nlinarith [sq_nonneg ((comb [p, q, r] [![0, 0, 0], ![3, 0, 0], ![0, 3, 0]] - comb [a, b, c] [(![1, 1, 1] : Pt 3), ![5/4, 1, 2], ![1, 5/4, 2]]) 0),
          sq_nonneg ((comb [p, q, r] [![0, 0, 0], ![3, 0, 0], ![0, 3, 0]] - comb [a, b, c] [(![1, 1, 1] : Pt 3), ![5/4, 1, 2], ![1, 5/4, 2]]) 1)]

/-! ## Triangles below the threshold -/

theorem ttRound_value (S T : Pt 3 × Pt 3 × Pt 3) (m : ℝ) (sh : Bool) (ij : Fin 3 × Fin 3) :
    ttRound S T (.inr (m, sh)) ij = .inl (Real.sqrt (psq (eeQ S T ij - eeP S T ij))) ∨
    (∃ sh', ttRound S T (.inr (m, sh)) ij = .inr (m, sh')) ∨ ∃ sh', ttRound S T (.inr (m, sh)) ij = .inr (psq (eeQ S T ij - eeP S T ij), sh') := by
  rw [← pdot_self]
  have e : ttRound S T (.inr (m, sh)) ij = (
      if pdot (eeQ S T ij - eeP S T ij) (eeQ S T ij - eeP S T ij) ≤ m then
        if pdot (corner S (ij.1 + 2) - eeP S T ij) (eeQ S T ij - eeP S T ij) ≤ 0 ∧
            pdot (corner T (ij.2 + 2) - eeQ S T ij) (eeQ S T ij - eeP S T ij) ≥ 0 then
          .inl (Real.sqrt (pdot (eeQ S T ij - eeP S T ij) (eeQ S T ij - eeP S T ij)))
        else
          .inr (pdot (eeQ S T ij - eeP S T ij) (eeQ S T ij - eeP S T ij),
            if pdot (eeQ S T ij - eeP S T ij) (eeQ S T ij - eeP S T ij) -
                (if pdot (corner S (ij.1 + 2) - eeP S T ij) (eeQ S T ij - eeP S T ij) < 0 then 0
                  else pdot (corner S (ij.1 + 2) - eeP S T ij) (eeQ S T ij - eeP S T ij)) +
                (if pdot (corner T (ij.2 + 2) - eeQ S T ij) (eeQ S T ij - eeP S T ij) > 0 then 0
                  else pdot (corner T (ij.2 + 2) - eeQ S T ij) (eeQ S T ij - eeP S T ij)) > 0 then true else sh)
      else .inr (m, sh)) := rfl
  rw [e]
  by_cases h1 : pdot (eeQ S T ij - eeP S T ij) (eeQ S T ij - eeP S T ij) ≤ m
  · rw [if_pos h1]
    by_cases h2 : pdot (corner S (ij.1 + 2) - eeP S T ij) (eeQ S T ij - eeP S T ij) ≤ 0 ∧
            pdot (corner T (ij.2 + 2) - eeQ S T ij) (eeQ S T ij - eeP S T ij) ≥ 0
    · rw [if_pos h2]; exact Or.inl rfl
    · rw [if_neg h2]; exact Or.inr (Or.inr ⟨_, rfl⟩)
  · rw [if_neg h1]; exact Or.inr (Or.inl ⟨_, rfl⟩)

/-- every value of the double loop comes from an edge pair (or is the initial one) -/
theorem loop_value (S T : Pt 3 × Pt 3 × Pt 3) (p : ℝ → Prop) (hp : ∀ ij, p (psq (eeQ S T ij - eeP S T ij))) :
    ∀ (l : List (Fin 3 × Fin 3)) (m : ℝ) (sh : Bool), p m →
      (∃ r, p r ∧ l.foldl (ttRound S T) (.inr (m, sh)) = .inl (Real.sqrt r)) ∨ ∃ r sh', p r ∧ l.foldl (ttRound S T) (.inr (m, sh)) = .inr (r, sh')
  | [], m, sh, hm => Or.inr ⟨m, sh, hm, rfl⟩
  | ij :: l, m, sh, hm => by
    rw [List.foldl_cons]
    rcases ttRound_value S T m sh ij with h | ⟨sh', h⟩ | ⟨sh', h⟩
    · rw [h, foldl_inl]; exact Or.inl ⟨_, hp ij, rfl⟩
    · rw [h]; exact loop_value S T p hp l m sh' hm
    · rw [h]; exact loop_value S T p hp l _ sh' (hp ij)

theorem face_small {S T : Pt 3 × Pt 3 × Pt 3} (h : ¬ 1e-15 < pdot (nrm S) (nrm S)) : ttFace S T = .inr false := by
  unfold ttFace
  dsimp only
  have h' : ¬ pdot (pcross (sideVec S 0) (sideVec S 1)) (pcross (sideVec S 0) (sideVec S 1)) > 1e-15 := h
  rw [if_neg h']

/-- Without the threshold hypothesis C52 fails: two parallel triangles of size `1e-5` at distance one, the upper one above the inside of the lower one.
The face tests are skipped, and the value returned is not the distance (there are points at distance one, but no edges are that close). -/
theorem C52_small_violated : ∃ s0 s1 s2 t0 t1 t2 : Pt 3,
    (∃ w v, IsWeights w 3 ∧ IsWeights v 3 ∧ pnorm (comb w [s0, s1, s2] - comb v [t0, t1, t2]) = 1) ∧
    (∀ w v, IsWeights w 3 → IsWeights v 3 → 1 ≤ pnorm (comb w [s0, s1, s2] - comb v [t0, t1, t2])) ∧
    0 < psq (pcross (s1 - s0) (s2 - s1)) ∧ 0 < psq (pcross (t1 - t0) (t2 - t1)) ∧
    triangleTriangleDistance (s0, s1, s2) (t0, t1, t2) ≠ 1 := by
  refine ⟨![0, 0, 0], ![3e-5, 0, 0], ![0, 3e-5, 0], ![1e-5, 1e-5, 1], ![1.25e-5, 1e-5, 1], ![1e-5, 1.25e-5, 1], ?_, ?_, ?_, ?_, ?_⟩
  · refine ⟨[1/3, 1/3, 1/3], [1, 0, 0], ⟨rfl, by norm_num, by norm_num⟩, ⟨rfl, by norm_num, by norm_num⟩, ?_⟩
    unfold pnorm
    rw [psq3]
    (simp only [comb, Pi.sub_apply, List.zip_cons_cons, List.zip_nil_right, List.map_cons, List.map_nil, List.sum_cons, List.sum_nil, vec0, vec1, vec2]; norm_num)
  · intro w v hw hv
    obtain ⟨hl, hp, hs⟩ := hv
    obtain ⟨hl', -, -⟩ := hw
    match v, hl with
    | [a, b, c], _ =>
      match w, hl' with
      | [p, q, r], _ =>
        simp only [List.sum_cons, List.sum_nil] at hs
        unfold pnorm
        rw [Real.one_le_sqrt, psq3]
        have e : (comb [p, q, r] [![0, 0, 0], ![3e-5, 0, 0], ![0, 3e-5, 0]] - comb [a, b, c] [(![1e-5, 1e-5, 1] : Pt 3), ![1.25e-5, 1e-5, 1], ![1e-5, 1.25e-5, 1]]) 2 = -1 := by
          simp [comb, Matrix.cons_val]; linarith
        rw [e]
        have h0 := sq_nonneg ((comb [p, q, r] [![0, 0, 0], ![3e-5, 0, 0], ![0, 3e-5, 0]] - comb [a, b, c] [(![1e-5, 1e-5, 1] : Pt 3), ![1.25e-5, 1e-5, 1], ![1e-5, 1.25e-5, 1]]) 0)
        have h1 := sq_nonneg ((comb [p, q, r] [![0, 0, 0], ![3e-5, 0, 0], ![0, 3e-5, 0]] - comb [a, b, c] [(![1e-5, 1e-5, 1] : Pt 3), ![1.25e-5, 1e-5, 1], ![1e-5, 1.25e-5, 1]]) 1)
        linarith
  · (simp only [psq3, pcross, Pi.sub_apply, vec0, vec1, vec2]; norm_num)
  · (simp only [psq3, pcross, Pi.sub_apply, vec0, vec1, vec2]; norm_num)
  · intro hcon
    obtain ⟨S, hS⟩ : ∃ S : Pt 3 × Pt 3 × Pt 3, S = (![0, 0, 0], ![3e-5, 0, 0], ![0, 3e-5, 0]) := ⟨_, rfl⟩
    obtain ⟨T, hT⟩ : ∃ T : Pt 3 × Pt 3 × Pt 3, T = (![1e-5, 1e-5, 1], ![1.25e-5, 1e-5, 1], ![1e-5, 1.25e-5, 1]) := ⟨_, rfl⟩
    rw [← hS, ← hT] at hcon
    have hs : ¬ 1e-15 < pdot (nrm S) (nrm S) := by
      rw [hS, pdot_self, nrm, side0, side1]
      (simp only [psq3, pcross, Pi.sub_apply, vec0, vec1, vec2]; norm_num)
    have ht : ¬ 1e-15 < pdot (nrm T) (nrm T) := by
      rw [hT, pdot_self, nrm, side0, side1]
      (simp only [psq3, pcross, Pi.sub_apply, vec0, vec1, vec2]; norm_num)
    have hq : ∀ y, InTri T y → 1e-5 ≤ y 0 ∧ 1e-5 ≤ y 1 ∧ y 0 + y 1 ≤ 2.25e-5 ∧ y 2 = 1 := by
      rintro y ⟨w, h0, h1, rfl⟩
      have a0 := h0 0
      have a1 := h0 1
      have a2 := h0 2
      rw [hT]
      simp [corner, Matrix.cons_val]
      refine ⟨?_, ?_, ?_, ?_⟩ <;> linarith
    have hpp : ∀ e x, OnEdge S e x → x 2 = 0 ∧ (x 1 = 0 ∨ x 0 = 0 ∨ x 0 + x 1 = 3e-5) := by
      rintro e x ⟨t, -, -, rfl⟩
      rw [hS]
      fin_cases e
      · simp [side0, corner, Matrix.cons_val]
      · simp only [Fin.mk_one, Fin.isValue, side1, corner1]
        refine ⟨?_, Or.inr (Or.inr ?_)⟩
        · simp [Matrix.cons_val]
        · simp [Matrix.cons_val]
      · simp only [Fin.reduceFinMk, Fin.isValue, side2, corner2]
        simp [Matrix.cons_val]
    have hgt : ∀ ij, 1 < psq (eeQ S T ij - eeP S T ij) := by
      intro ij
      obtain ⟨h1, h2, -⟩ := ee_facts S T ij
      obtain ⟨a1, a2⟩ := hpp _ _ h1
      obtain ⟨b1, b2, b3, b4⟩ := hq _ h2.inTri
      rw [psq3]
      simp only [Pi.sub_apply, a1, b4]
      have s0 := sq_nonneg (eeQ S T ij 0 - eeP S T ij 0)
      have s1 := sq_nonneg (eeQ S T ij 1 - eeP S T ij 1)
      rcases a2 with a2 | a2 | a2
      · have : 0 < (eeQ S T ij 1 - eeP S T ij 1) ^ 2 := by
          apply pow_pos; rw [a2]; norm_num at b2 ⊢; linarith
        linarith
      · have : 0 < (eeQ S T ij 0 - eeP S T ij 0) ^ 2 := by
          apply pow_pos; rw [a2]; norm_num at b1 ⊢; linarith
        linarith
      · by_contra hle
        have z0 : (eeQ S T ij 0 - eeP S T ij 0) ^ 2 = 0 := by linarith
        have z1 : (eeQ S T ij 1 - eeP S T ij 1) ^ 2 = 0 := by linarith
        have z0' := pow_eq_zero_iff (two_ne_zero) |>.mp z0
        have z1' := pow_eq_zero_iff (two_ne_zero) |>.mp z1
        norm_num at a2 b3
        linarith
    have hm0 : 1 < psq (corner S 0 - corner T 0) + 10 := by
      have := psq_nonneg (corner S 0 - corner T 0)
      linarith
    have hsqrt : ∀ r : ℝ, 1 < r → Real.sqrt r ≠ 1 := by
      intro r hr h
      rw [Real.sqrt_eq_one] at h
      linarith
    unfold triangleTriangleDistance at hcon
    rcases loop_value S T (fun r => 1 < r) hgt ttPairs _ false hm0 with ⟨r, h1, h2⟩ | ⟨r, sh, h1, h2⟩
    · rw [h2] at hcon
      exact hsqrt r h1 hcon
    · rw [h2, face_small hs, face_small ht] at hcon
      dsimp only at hcon
      split_ifs at hcon
      · exact hsqrt r h1 hcon
      · exact zero_ne_one hcon

end Gpy
