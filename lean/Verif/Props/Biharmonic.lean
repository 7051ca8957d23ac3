import Verif.Model.Biharmonic
import Verif.Props.MassEntries

/-! C67: `biharmonic_energy`, mixed finite elements. -/

set_option autoImplicit false
namespace Gpy
open Np Finset

theorem get_eq_zero_of_not_mem (M : Csr ℝ) {i j : ℕ} (h : ∀ t ∈ M.trip, ¬ (t.1 = i ∧ t.2.1 = j)) : M.get i j = 0 := by
  unfold Csr.get
  apply List.sum_eq_zero
  intro x hx
  rw [List.mem_map] at hx
  obtain ⟨t, ht, rfl⟩ := hx
  rw [if_neg (h t ht)]

/-- `M.power(-1)` inverts the entries where this makes sense and leaves zeros elsewhere -/
theorem csrPowerNegOne_get {M N : Csr ℝ} (h : csrPowerNegOne M = some N) (i j : ℕ) : N.get i j = (M.get i j)⁻¹ := by
  classical
  unfold csrPowerNegOne at h
  split_ifs at h with hc
  cases h
  set P := (M.trip.map (fun t => (t.1, t.2.1))).dedup with hP
  have hnd : P.Nodup := List.nodup_dedup _
  by_cases hm : (i, j) ∈ P
  · unfold Csr.get
    rw [List.map_map]
    have : ∀ L : List (ℕ × ℕ), L.Nodup → (i, j) ∈ L →
        (L.map ((fun t : ℕ × ℕ × ℝ => if t.1 = i ∧ t.2.1 = j then t.2.2 else 0) ∘
          fun p => (p.1, p.2, 1 / M.get p.1 p.2))).sum = (M.get i j)⁻¹ := by
      intro L
      induction L with
      | nil => intro _ h; simp at h
      | cons p t ih =>
        intro hn hmem
        obtain ⟨h1, h2⟩ := List.nodup_cons.mp hn
        rw [List.map_cons, List.sum_cons]
        rcases List.mem_cons.mp hmem with rfl | hmem
        · rw [List.sum_eq_zero]
          · simp
          · intro x hx
            rw [List.mem_map] at hx
            obtain ⟨q, hq, rfl⟩ := hx
            simp only [Function.comp]
            rw [if_neg]
            rintro ⟨rfl, rfl⟩
            exact h1 hq
        · rw [ih h2 hmem]
          simp only [Function.comp]
          rw [if_neg, zero_add]
          rintro ⟨rfl, rfl⟩
          exact h1 hmem
    exact this P hnd hm
  · have h0 : M.get i j = 0 := by
      apply get_eq_zero_of_not_mem
      rintro t ht ⟨rfl, rfl⟩
      exact hm (List.mem_dedup.mpr (List.mem_map_of_mem ht))
    rw [h0, inv_zero]
    apply get_eq_zero_of_not_mem
    rintro t ht ⟨rfl, rfl⟩
    rw [List.mem_map] at ht
    obtain ⟨p, hp, rfl⟩ := ht
    exact hm hp

theorem mixedArea_pos {x y z A : ℝ} (hA : 0 < A) (hx : 0 < x) (hy : 0 < y) (hz : 0 < z)
    (h : 0 < 2 * x * y + 2 * y * z + 2 * z * x - x ^ 2 - y ^ 2 - z ^ 2) : 0 < mixedArea x y z A := by
  unfold mixedArea
  split_ifs with h1 h2
  · linarith
  · linarith
  · push Not at h1 h2
    obtain ⟨h2, h3⟩ := h2
    unfold cotOf
    have e : (y * ((x + z - y) / (4 * A)) + z * ((x + y - z) / (4 * A))) / 8 = (y * (x + z - y) + z * (x + y - z)) / (32 * A) := by
      field_simp; ring
    rw [e]
    apply div_pos _ (by linarith)
    rcases eq_or_lt_of_le h2 with h | h
    · have : 0 < x + y - z := by nlinarith
      nlinarith [mul_nonneg hy.le (by linarith : 0 ≤ x + z - y), mul_pos hz this]
    · nlinarith [mul_pos hy (by linarith : 0 < x + z - y), mul_nonneg hz.le (by linarith : 0 ≤ x + y - z)]

/-- `i` is a corner of some triangle -/
def IsReferenced (F : List Tri) (i : ℕ) : Prop := ∃ t ∈ F, i = t.a ∨ i = t.b ∨ i = t.c

theorem areaOf_pos {r : Row3 ℝ} (h : NonDeg r) : 0 < areaOf r := by
  unfold areaOf
  have := Real.sqrt_pos.mpr h.2.2.2
  linarith

theorem mixed_pos {r : Row3 ℝ} (h : NonDeg r) : 0 < mixedArea r.x0 r.x1 r.x2 (areaOf r) ∧
    0 < mixedArea r.x1 r.x0 r.x2 (areaOf r) ∧ 0 < mixedArea r.x2 r.x0 r.x1 (areaOf r) := by
  obtain ⟨p0, p1, p2⟩ := h.pos
  have hA := areaOf_pos h
  have hh := h.2.2.2
  unfold heron at hh
  refine ⟨mixedArea_pos hA p0 p1 p2 ?_, mixedArea_pos hA p1 p0 p2 ?_, mixedArea_pos hA p2 p0 p1 ?_⟩ <;> nlinarith

theorem voronoi_pos {lsq : List (Row3 ℝ)} {F : List Tri} {n : Option ℕ} {M : Csr ℝ} (hne : F ≠ []) (hn : SizeOk n F)
    (hl : LsqNonDeg lsq F) (hM : massmatrixIntrinsic lsq F n .voronoi = some M) (i : ℕ) :
    (IsReferenced F i → 0 < M.get i i) ∧ (¬ IsReferenced F i → M.get i i = 0) := by
  obtain ⟨_, M', _, h2, h3⟩ := C12_lumped_entries lsq F n hne hn hl
  rw [hM] at h2
  cases h2
  rw [(h3 i).2]
  have hnn : ∀ p ∈ F.zip lsq, NonDeg p.2 := fun p hp => hl.2 _ (List.of_mem_zip (a := p.1) (b := p.2) hp).2
  constructor
  · rintro ⟨t, ht, hi⟩
    obtain ⟨k, hk⟩ := List.mem_iff_getElem?.mp ht
    obtain ⟨hlt, hkt⟩ := List.getElem?_eq_some_iff.mp hk
    have hlt' : k < lsq.length := by rw [hl.1]; exact hlt
    have hz : (t, lsq[k]) ∈ F.zip lsq := by
      rw [List.mem_iff_getElem]
      exact ⟨k, by simp [hlt, hlt'], by simp [hkt]⟩
    set f : Tri × Row3 ℝ → ℝ := fun p =>
      (if p.1.a = i then mixedArea p.2.x0 p.2.x1 p.2.x2 (areaOf p.2) else 0) +
      (if p.1.b = i then mixedArea p.2.x1 p.2.x0 p.2.x2 (areaOf p.2) else 0) +
      (if p.1.c = i then mixedArea p.2.x2 p.2.x0 p.2.x1 (areaOf p.2) else 0) with hf
    have hfn : ∀ p ∈ F.zip lsq, 0 ≤ f p := by
      intro p hp
      obtain ⟨q0, q1, q2⟩ := mixed_pos (hnn p hp)
      simp only [hf]
      split_ifs <;> linarith
    have hfp : 0 < f (t, lsq[k]) := by
      obtain ⟨q0, q1, q2⟩ := mixed_pos (hnn _ hz)
      simp only [hf]
      simp only at q0 q1 q2
      rcases hi with rfl | rfl | rfl <;> simp only [if_true] <;> split_ifs <;> linarith
    have : f (t, lsq[k]) ≤ ((F.zip lsq).map f).sum := by
      apply List.single_le_sum
      · intro x hx
        rw [List.mem_map] at hx
        obtain ⟨p, hp, rfl⟩ := hx
        exact hfn p hp
      · exact List.mem_map_of_mem hz
    linarith
  · intro hi
    apply List.sum_eq_zero
    intro x hx
    rw [List.mem_map] at hx
    obtain ⟨p, hp, rfl⟩ := hx
    have hp1 := zip_mem_left hp
    have ha : ¬ p.1.a = i := fun h => hi ⟨p.1, hp1, Or.inl h.symm⟩
    have hb : ¬ p.1.b = i := fun h => hi ⟨p.1, hp1, Or.inr (Or.inl h.symm)⟩
    have hc : ¬ p.1.c = i := fun h => hi ⟨p.1, hp1, Or.inr (Or.inr h.symm)⟩
    rw [if_neg ha, if_neg hb, if_neg hc]; ring

theorem voronoi_shape {lsq : List (Row3 ℝ)} {F : List Tri} {k : ℕ} (hn : InRange F k)
    (hl : LsqNonDeg lsq F) : ∃ A, massmatrixIntrinsic lsq F (some k) .voronoi = some ⟨k, k, cornTrip F A⟩ := by
  have hpos : ∀ r ∈ lsq, 0 < dblArea r := fun r hr => (dblArea_sq (hl.2 r hr)).1
  refine ⟨lsq.map voronoiRow, ?_⟩
  unfold massmatrixIntrinsic nOr
  rw [dbl_some hl]
  simp only [Option.bind_eq_bind, Option.bind_some]
  rw [if_pos (by intro x hx; obtain ⟨r, hr, rfl⟩ := List.mem_map.mp hx; exact (hpos r hr).ne')]
  rw [← corn_csr (by simp [hl.1]) hn]

/-- C67.  For nondegenerate edge lengths, `biharmonic_energy_intrinsic` succeeds with an `n × n` matrix `Q`.  With `L` the
cotangent Laplacian (C09) and `M` the Voronoi mass matrix (C12, positive exactly at the referenced vertices),
`uᵀ Q u = ∑ over referenced vertices i of (L u)[i]² / M[i,i]`; `Q` is symmetric, positive semidefinite, annihilates constants,
and `uᵀ Q u = 0` exactly if `L u = 0`. -/
theorem C67_biharmonic_intrinsic (lsq : List (Row3 ℝ)) (F : List Tri) (n : Option ℕ) (hne : F ≠ []) (hn : SizeOk n F)
    (hl : LsqNonDeg lsq F) :
    ∃ L M Q, cotangentLaplacianIntrinsic lsq F n = some L ∧ massmatrixIntrinsic lsq F n .voronoi = some M ∧
      biharmonicMixed lsq F n = some Q ∧ Q.nrows = L.nrows ∧ Q.ncols = L.nrows ∧
      (∀ i, (IsReferenced F i → 0 < M.get i i) ∧ (¬ IsReferenced F i → M.get i i = 0)) ∧
      (∀ i j, Q.get i j = Q.get j i) ∧
      (∀ i, ∑ j ∈ range Q.ncols, Q.get i j = 0) ∧
      ∀ u : ℕ → ℝ,
        (open Classical in ∑ i ∈ range Q.nrows, ∑ j ∈ range Q.ncols, u i * Q.get i j * u j =
          ∑ i ∈ (range Q.nrows).filter (IsReferenced F), (L.mulVec u i) ^ 2 / M.get i i) ∧
        0 ≤ ∑ i ∈ range Q.nrows, ∑ j ∈ range Q.ncols, u i * Q.get i j * u j ∧
        (∑ i ∈ range Q.nrows, ∑ j ∈ range Q.ncols, u i * Q.get i j * u j = 0 ↔ ∀ i < Q.nrows, L.mulVec u i = 0) := by
  classical
  obtain ⟨k, h1, h2, h3⟩ := nOr_ok hne hn
  have hLn : cotangentLaplacianIntrinsic lsq F n = cotangentLaplacianIntrinsic lsq F (some k) := by
    unfold cotangentLaplacianIntrinsic; rw [h1]; rfl
  have hMn : massmatrixIntrinsic lsq F n .voronoi = massmatrixIntrinsic lsq F (some k) .voronoi := by
    unfold massmatrixIntrinsic; rw [h1]; rfl
  have hsk : SizeOk (some k) F := by intro j hj; cases hj; exact h2
  obtain ⟨L, l1, l2, l3, l4, l5, l6⟩ := C09_cotangent_laplacian lsq F (some k) hne hsk hl
  have lk : L.nrows = k := l3 k rfl
  have lc : L.ncols = k := by rw [← l2]; exact lk
  obtain ⟨A, hA⟩ := voronoi_shape h2 hl
  set M : Csr ℝ := ⟨k, k, cornTrip F A⟩ with hM
  have hvp := voronoi_pos hne hsk hl hA
  have hst : ∀ t ∈ M.trip, M.get t.1 t.2.1 ≠ 0 := by
    intro t ht
    have hd := corn_diag t ht
    rw [← hd]
    have hr : IsReferenced F t.1 := by
      simp only [hM, cornTrip, List.mem_append, List.mem_map] at ht
      rcases ht with (⟨p, hp, rfl⟩ | ⟨p, hp, rfl⟩) | ⟨p, hp, rfl⟩ <;>
        refine ⟨p.1, zip_mem_left hp, ?_⟩ <;> simp
    exact ((hvp t.1).1 hr).ne'
  obtain ⟨N, hN⟩ : ∃ N, csrPowerNegOne M = some N := by unfold csrPowerNegOne; rw [if_pos hst]; exact ⟨_, rfl⟩
  have hNg : ∀ i j, N.get i j = (M.get i j)⁻¹ := csrPowerNegOne_get hN
  have hoff : ∀ i j, i ≠ j → M.get i j = 0 := fun i j hij => get_offdiag M corn_diag hij
  have hQ : biharmonicMixed lsq F n = some ⟨k, k, fun i j => ∑ q ∈ range k, (∑ l ∈ range k, L.get l i * N.get l q) * L.get q j⟩ := by
    unfold biharmonicMixed
    rw [h1]
    simp only [Option.bind_eq_bind, Option.bind_some, l1, hA, hN]
  have hin : ∀ i q, q ∈ range k → ∑ l ∈ range k, L.get l i * N.get l q = L.get q i * (M.get q q)⁻¹ := by
    intro i q hq
    rw [Finset.sum_eq_single q]
    · rw [hNg]
    · intro b _ hb
      rw [hNg, hoff b q hb]; simp
    · intro h; exact absurd hq h
  have hget : ∀ i j, ∑ q ∈ range k, (∑ l ∈ range k, L.get l i * N.get l q) * L.get q j =
      ∑ q ∈ range k, L.get q i * (M.get q q)⁻¹ * L.get q j := by
    intro i j
    apply Finset.sum_congr rfl
    intro q hq
    rw [hin i q hq]
  have hmv : ∀ (u : ℕ → ℝ) q, L.mulVec u q = ∑ j ∈ range k, L.get q j * u j := by
    intro u q; unfold Csr.mulVec; rw [lc]
  have hform : ∀ u : ℕ → ℝ, ∑ i ∈ range k, ∑ j ∈ range k, u i * (∑ q ∈ range k, L.get q i * (M.get q q)⁻¹ * L.get q j) * u j =
      ∑ q ∈ range k, (L.mulVec u q) ^ 2 / M.get q q := by
    intro u
    have e1 : ∀ i j, u i * (∑ q ∈ range k, L.get q i * (M.get q q)⁻¹ * L.get q j) * u j =
        ∑ q ∈ range k, (L.get q i * u i) * (M.get q q)⁻¹ * (L.get q j * u j) := by
      intro i j
      rw [Finset.mul_sum, Finset.sum_mul]
      apply Finset.sum_congr rfl
      intro q _; ring
    simp only [e1]
    rw [Finset.sum_congr rfl (fun i _ => Finset.sum_comm), Finset.sum_comm]
    apply Finset.sum_congr rfl
    intro q _
    rw [hmv, sq, div_eq_mul_inv]
    simp only [← Finset.mul_sum, ← Finset.sum_mul]
    ring
  have hMnn : ∀ q, 0 ≤ M.get q q := by
    intro q
    by_cases h : IsReferenced F q
    · exact ((hvp q).1 h).le
    · exact ((hvp q).2 h).ge
  refine ⟨L, M, _, by rw [hLn]; exact l1, by rw [hMn]; exact hA, hQ, lk.symm, lk.symm, hvp, ?_, ?_, ?_⟩
  · intro i j
    simp only [hget]
    apply Finset.sum_congr rfl
    intro q _; ring
  · intro i
    simp only [hget]
    rw [Finset.sum_comm]
    apply Finset.sum_eq_zero
    intro q _
    rw [← Finset.mul_sum]
    have := l5 q
    rw [lc] at this
    rw [this, mul_zero]
  · intro u
    simp only [hget, hform]
    refine ⟨?_, ?_, ?_⟩
    · rw [Finset.sum_filter]
      apply Finset.sum_congr rfl
      intro q _
      split_ifs with h
      · rfl
      · rw [(hvp q).2 h, div_zero]
    · exact Finset.sum_nonneg (fun q _ => div_nonneg (sq_nonneg _) (hMnn q))
    · rw [Finset.sum_eq_zero_iff_of_nonneg (fun q _ => div_nonneg (sq_nonneg _) (hMnn q))]
      constructor
      · intro h i hi
        by_cases hr : IsReferenced F i
        · have := h i (Finset.mem_range.mpr hi)
          have hp := (hvp i).1 hr
          rw [div_eq_zero_iff] at this
          rcases this with h' | h'
          · exact pow_eq_zero_iff (two_ne_zero) |>.mp h'
          · exact absurd h' hp.ne'
        · rw [l6 u i]
          apply List.sum_eq_zero
          intro x hx
          rw [List.mem_map] at hx
          obtain ⟨p, hp, rfl⟩ := hx
          have hp1 := zip_mem_left hp
          have ha : ¬ p.1.a = i := fun h => hr ⟨p.1, hp1, Or.inl h.symm⟩
          have hb : ¬ p.1.b = i := fun h => hr ⟨p.1, hp1, Or.inr (Or.inl h.symm)⟩
          have hc : ¬ p.1.c = i := fun h => hr ⟨p.1, hp1, Or.inr (Or.inr h.symm)⟩
          simp [diffAt, Tri.side, ha, hb, hc]
      · intro h q hq
        rw [h q (Finset.mem_range.mp hq)]; simp

/-- C67 for a mesh in space (or in the plane, with `z = 0`): the extrinsic function passes the squared edge lengths on. -/
theorem C67_biharmonic_extrinsic (V : List (V3 ℝ)) (F : List Tri) (hne : F ≠ []) (hF : InRange F V.length)
    (hA : ∀ t ∈ F, PosArea V t) :
    ∃ L M Q, cotangentLaplacian V F = some L ∧
      massmatrixIntrinsic (F.map (fun t => lens (V.getD t.a 0) (V.getD t.b 0) (V.getD t.c 0))) F (some V.length) .voronoi = some M ∧
      biharmonicEnergy V F = some Q ∧ Q.nrows = V.length ∧ Q.ncols = V.length ∧ (∀ i j, Q.get i j = Q.get j i) ∧
      ∀ u : ℕ → ℝ,
        (open Classical in ∑ i ∈ range V.length, ∑ j ∈ range V.length, u i * Q.get i j * u j =
          ∑ i ∈ (range V.length).filter (IsReferenced F), (L.mulVec u i) ^ 2 / M.get i i) ∧
        0 ≤ ∑ i ∈ range V.length, ∑ j ∈ range V.length, u i * Q.get i j * u j := by
  have hl : LsqNonDeg (F.map (fun t => lens (V.getD t.a 0) (V.getD t.b 0) (V.getD t.c 0))) F := by
    refine ⟨by simp, ?_⟩
    intro r hr
    obtain ⟨t, ht, rfl⟩ := List.mem_map.mp hr
    exact nonDeg_lens (posArea_normSq (hA t ht))
  have hsk : SizeOk (some V.length) F := by intro j hj; cases hj; exact hF
  obtain ⟨L, M, Q, h1, h2, h3, h4, h5, _, h7, _, h9⟩ := C67_biharmonic_intrinsic _ F (some V.length) hne hsk hl
  obtain ⟨L', l1, _, l3, _⟩ := C09_cotangent_laplacian _ F (some V.length) hne hsk hl
  rw [h1] at l1
  cases l1
  have hk := l3 _ rfl
  rw [hk] at h4 h5
  refine ⟨L, M, Q, ?_, h2, ?_, h4, h5, h7, ?_⟩
  · unfold cotangentLaplacian; rw [hls_some hne hF]; exact h1
  · unfold biharmonicEnergy; rw [hls_some hne hF]; exact h3
  · intro u
    have := h9 u
    rw [h4, h5] at this
    exact ⟨this.1, this.2.1⟩

/-- the hypotheses are met by a pair of triangles with an unreferenced vertex -/
example : LsqNonDeg [⟨1, 1, 2⟩, ⟨3, 2, 2⟩] [⟨0, 1, 2⟩, ⟨2, 1, 3⟩] ∧ SizeOk (some 5) [⟨0, 1, 2⟩, ⟨2, 1, 3⟩] := by
  refine ⟨⟨rfl, ?_⟩, ?_⟩
  · intro r hr
    simp at hr
    rcases hr with rfl | rfl <;> (refine ⟨?_, ?_, ?_, ?_⟩ <;> norm_num [heron])
  · intro k hk
    cases hk
    simp [InRange]

end Gpy
