import Verif.Props.Laplacian

/-! Properties C12, C13: mass matrices and Hodge stars, over the real numbers. -/

namespace Gpy
open Np Finset

theorem total_eq (M : Csr ℝ) (hM : M.WF) :
    ∑ i ∈ range M.nrows, ∑ j ∈ range M.ncols, M.get i j = (M.trip.map (fun t => t.2.2)).sum := by
  unfold Csr.get
  simp only [list_sum_comm]
  congr 1
  apply List.map_congr_left
  intro t ht
  obtain ⟨h1, h2⟩ := hM t ht
  simp only [ite_and_eq]
  have e : ∀ i, ∑ j ∈ range M.ncols, t.2.2 * ind t.1 i * ind t.2.1 j = t.2.2 * ind t.1 i := by
    intro i
    have := sum_range_ind M.ncols t.2.1 h2 (fun _ => t.2.2 * ind t.1 i)
    exact this
  simp only [e]
  exact sum_range_ind M.nrows t.1 h1 (fun _ => t.2.2)

theorem get_nonneg (M : Csr ℝ) (h : ∀ t ∈ M.trip, 0 ≤ t.2.2) (i j : ℕ) : 0 ≤ M.get i j := by
  unfold Csr.get
  apply List.sum_nonneg
  intro x hx
  obtain ⟨t, ht, rfl⟩ := List.mem_map.mp hx
  split
  · exact h t ht
  · exact le_refl _

theorem get_offdiag (M : Csr ℝ) (h : ∀ t ∈ M.trip, t.1 = t.2.1) {i j : ℕ} (hij : i ≠ j) : M.get i j = 0 := by
  unfold Csr.get
  apply List.sum_eq_zero
  intro x hx
  obtain ⟨t, ht, rfl⟩ := List.mem_map.mp hx
  rw [if_neg]
  rintro ⟨h1, h2⟩
  exact hij (by rw [← h1, ← h2, h t ht])

/-- triplets of a matrix lumped at the corners -/
def cornTrip (F : List Tri) (A : List (Row3 ℝ)) : List (ℕ × ℕ × ℝ) :=
  (F.zip A).map (fun p => (p.1.a, p.1.a, p.2.x0)) ++ (F.zip A).map (fun p => (p.1.b, p.1.b, p.2.x1)) ++
    (F.zip A).map (fun p => (p.1.c, p.1.c, p.2.x2))

theorem corn_csr {F : List Tri} {A : List (Row3 ℝ)} {n : ℕ} (hl : A.length = F.length) (hF : InRange F n) :
    csrMatrix (A.map (·.x0) ++ A.map (·.x1) ++ A.map (·.x2)) (F.map (·.a) ++ F.map (·.b) ++ F.map (·.c))
      (F.map (·.a) ++ F.map (·.b) ++ F.map (·.c)) n n = some ⟨n, n, cornTrip F A⟩ := by
  have hb : ∀ (f : Tri → ℕ), (∀ t ∈ F, f t < n) → ∀ i ∈ F.map f, i < n := by
    intro f hf i hi
    obtain ⟨t, ht, rfl⟩ := List.mem_map.mp hi
    exact hf t ht
  have ha := hb (·.a) (fun t ht => (hF t ht).1)
  have hbb := hb (·.b) (fun t ht => (hF t ht).2.1)
  have hc := hb (·.c) (fun t ht => (hF t ht).2.2)
  have hall : ∀ i ∈ F.map (·.a) ++ F.map (·.b) ++ F.map (·.c), i < n := by
    intro i hi
    simp only [List.mem_append] at hi
    rcases hi with (h | h) | h
    · exact ha i h
    · exact hbb i h
    · exact hc i h
  rw [csrMatrix_some (by simp [hl]) (by simp [hl]) hall hall]
  congr 2
  unfold cornTrip
  repeat rw [zip3_append (by simp [hl]) (by simp [hl])]
  simp only [zip3_map2 F A hl]

theorem corn_wf {F : List Tri} {A : List (Row3 ℝ)} {n : ℕ} (hF : InRange F n) : (⟨n, n, cornTrip F A⟩ : Csr ℝ).WF := by
  intro t ht
  simp only [cornTrip, List.mem_append, List.mem_map] at ht
  rcases ht with (⟨p, hp, rfl⟩ | ⟨p, hp, rfl⟩) | ⟨p, hp, rfl⟩ <;> have := hF _ (zip_mem_left hp)
  · exact ⟨this.1, this.1⟩
  · exact ⟨this.2.1, this.2.1⟩
  · exact ⟨this.2.2, this.2.2⟩

theorem corn_total {F : List Tri} {A : List (Row3 ℝ)} (hl : A.length = F.length) :
    ((cornTrip F A).map (fun t => t.2.2)).sum = (A.map (fun r => r.x0 + r.x1 + r.x2)).sum := by
  unfold cornTrip
  simp only [List.map_append, List.sum_append, List.map_map, sum_map_add_list]
  congr 1
  apply List.ext_getElem
  · simp [hl]
  · intro i h1 h2; simp

theorem corn_diag {F : List Tri} {A : List (Row3 ℝ)} : ∀ t ∈ cornTrip F A, t.1 = t.2.1 := by
  intro t ht
  simp only [cornTrip, List.mem_append, List.mem_map] at ht
  rcases ht with (⟨p, hp, rfl⟩ | ⟨p, hp, rfl⟩) | ⟨p, hp, rfl⟩ <;> rfl

theorem corn_nonneg {F : List Tri} {A : List (Row3 ℝ)} (h : ∀ r ∈ A, 0 ≤ r.x0 ∧ 0 ≤ r.x1 ∧ 0 ≤ r.x2) :
    ∀ t ∈ cornTrip F A, 0 ≤ t.2.2 := by
  intro t ht
  simp only [cornTrip, List.mem_append, List.mem_map] at ht
  rcases ht with (⟨p, hp, rfl⟩ | ⟨p, hp, rfl⟩) | ⟨p, hp, rfl⟩ <;>
    have := h _ (List.of_mem_zip (a := p.1) (b := p.2) hp).2
  · exact this.1
  · exact this.2.1
  · exact this.2.2

/-- per-triangle facts about the hybrid Voronoi areas -/
theorem voronoiRow_spec {r : Row3 ℝ} (h : NonDeg r) :
    0 ≤ (voronoiRow r).x0 ∧ 0 ≤ (voronoiRow r).x1 ∧ 0 ≤ (voronoiRow r).x2 ∧
    (voronoiRow r).x0 + (voronoiRow r).x1 + (voronoiRow r).x2 = dblArea r / 2 := by
  have hD := (dblArea_sq h).1
  obtain ⟨p0, p1, p2⟩ := h.pos
  have s0 := Real.sqrt_pos.mpr p0
  have s1 := Real.sqrt_pos.mpr p1
  have s2 := Real.sqrt_pos.mpr p2
  unfold voronoiRow
  simp only
  have hneg : ∀ x y z : ℝ, 0 < y → 0 < z → (x / (2 * y * z) < 0 ↔ x < 0) := by
    intro x y z hy hz
    constructor
    · intro hx
      by_contra hc
      exact absurd hx (not_lt.mpr (div_nonneg (not_lt.mp hc) (by positivity)))
    · intro hx
      exact div_neg_of_neg_of_pos hx (by positivity)
  simp only [hneg _ _ _ s2 s1, hneg _ _ _ s0 s2, hneg _ _ _ s1 s0]
  have hq : (0.25 : ℝ) = 1 / 4 := by norm_num
  have he : (0.125 : ℝ) = 1 / 8 := by norm_num
  have hh : (0.5 : ℝ) = 1 / 2 := by norm_num
  rw [hq, he, hh]
  split_ifs with c2 c1 c0
  · exact ⟨by positivity, by positivity, by positivity, by simp only; ring⟩
  · exact ⟨by positivity, by positivity, by positivity, by simp only; ring⟩
  · exact ⟨by positivity, by positivity, by positivity, by simp only; ring⟩
  · -- non-obtuse
    have n0 := not_lt.mp c0
    have n1 := not_lt.mp c1
    have n2 := not_lt.mp c2
    set b0 := (r.x2 + r.x1 - r.x0) / (2 * Real.sqrt r.x2 * Real.sqrt r.x1) * Real.sqrt r.x0 with hb0
    set b1 := (r.x0 + r.x2 - r.x1) / (2 * Real.sqrt r.x0 * Real.sqrt r.x2) * Real.sqrt r.x1 with hb1
    set b2 := (r.x1 + r.x0 - r.x2) / (2 * Real.sqrt r.x1 * Real.sqrt r.x0) * Real.sqrt r.x2 with hb2
    have k0 : 0 ≤ b0 := by rw [hb0]; exact mul_nonneg (div_nonneg n0 (by positivity)) s0.le
    have k1 : 0 ≤ b1 := by rw [hb1]; exact mul_nonneg (div_nonneg n1 (by positivity)) s1.le
    have k2 : 0 ≤ b2 := by rw [hb2]; exact mul_nonneg (div_nonneg n2 (by positivity)) s2.le
    have hs : 0 < b0 + b1 + b2 := by
      -- if both b0 and b1 vanish then x2 = 0
      rcases n0.lt_or_eq with hlt | heq
      · have : 0 < b0 := by rw [hb0]; exact mul_pos (div_pos hlt (by positivity)) s0
        linarith
      · have hlt : 0 < r.x0 + r.x2 - r.x1 := by linarith
        have : 0 < b1 := by rw [hb1]; exact mul_pos (div_pos hlt (by positivity)) s1
        linarith
    refine ⟨by positivity, by positivity, by positivity, ?_⟩
    simp only
    field_simp
    ring

/-- C12.  For every mesh of nondegenerate triangles and each of the three types, the mass matrix exists, is square, has
nonnegative entries that sum to the total area (`sqrt(heron)/4` per triangle), and the `voronoi` and `barycentric` ones are
diagonal. -/
theorem C12_massmatrix (lsq : List (Row3 ℝ)) (F : List Tri) (n : Option ℕ) (type : MassType) (hne : F ≠ [])
    (hn : SizeOk n F) (hl : LsqNonDeg lsq F) :
    ∃ M, massmatrixIntrinsic lsq F n type = some M ∧ M.nrows = M.ncols ∧ (∀ k, n = some k → M.nrows = k) ∧
      (∀ i j, 0 ≤ M.get i j) ∧
      ∑ i ∈ range M.nrows, ∑ j ∈ range M.ncols, M.get i j = (lsq.map (fun r => Real.sqrt (heron r) / 4)).sum ∧
      (type ≠ .full → ∀ i j, i ≠ j → M.get i j = 0) := by
  obtain ⟨k, h1, h2, h3⟩ := nOr_ok hne hn
  have harea : (lsq.map (fun r => dblArea r / 2)).sum = (lsq.map (fun r => Real.sqrt (heron r) / 4)).sum := by
    congr 1
    apply List.map_congr_left
    intro r hr
    have hr := hl.2 r hr
    rw [dblArea_eq r ⟨hr.1, hr.2.1, hr.2.2.1⟩, max_eq_left hr.2.2.2.le]; ring
  have hpos : ∀ r ∈ lsq, 0 < dblArea r := fun r hr => (dblArea_sq (hl.2 r hr)).1
  have hlen : lsq.length = F.length := hl.1
  unfold massmatrixIntrinsic
  rw [h1, dbl_some hl]
  simp only [Option.bind_eq_bind, Option.bind_some]
  cases type with
  | voronoi =>
    simp only
    rw [if_pos (by intro x hx; obtain ⟨r, hr, rfl⟩ := List.mem_map.mp hx; exact (hpos r hr).ne')]
    have hlen' : (lsq.map voronoiRow).length = F.length := by simp [hlen]
    refine ⟨_, corn_csr hlen' h2, rfl, fun j hj => (h3 j hj).symm, ?_, ?_, ?_⟩
    · apply get_nonneg
      apply corn_nonneg
      intro r hr
      obtain ⟨r', hr', rfl⟩ := List.mem_map.mp hr
      have := voronoiRow_spec (hl.2 r' hr')
      exact ⟨this.1, this.2.1, this.2.2.1⟩
    · rw [total_eq _ (corn_wf h2)]
      simp only
      rw [corn_total hlen', ← harea, List.map_map]
      congr 1
      apply List.map_congr_left
      intro r hr
      exact (voronoiRow_spec (hl.2 r hr)).2.2.2
    · intro _ i j hij
      exact get_offdiag _ corn_diag hij
  | barycentric =>
    simp only
    have hlen' : (lsq.map (fun r => (⟨dblArea r / 6, dblArea r / 6, dblArea r / 6⟩ : Row3 ℝ))).length = F.length := by
      simp [hlen]
    have hd : (lsq.map dblArea ++ lsq.map dblArea ++ lsq.map dblArea).map (fun x => x / 6) =
        (lsq.map (fun r => (⟨dblArea r / 6, dblArea r / 6, dblArea r / 6⟩ : Row3 ℝ))).map (·.x0) ++
        (lsq.map (fun r => (⟨dblArea r / 6, dblArea r / 6, dblArea r / 6⟩ : Row3 ℝ))).map (·.x1) ++
        (lsq.map (fun r => (⟨dblArea r / 6, dblArea r / 6, dblArea r / 6⟩ : Row3 ℝ))).map (·.x2) := by
      simp [List.map_map, Function.comp_def]
    rw [hd]
    refine ⟨_, corn_csr hlen' h2, rfl, fun j hj => (h3 j hj).symm, ?_, ?_, ?_⟩
    · apply get_nonneg
      apply corn_nonneg
      intro r hr
      obtain ⟨r', hr', rfl⟩ := List.mem_map.mp hr
      have := hpos r' hr'
      refine ⟨?_, ?_, ?_⟩ <;> positivity
    · rw [total_eq _ (corn_wf h2)]
      simp only
      rw [corn_total hlen', ← harea, List.map_map]
      congr 1
      apply List.map_congr_left
      intro r _
      simp only [Function.comp]; ring
    · intro _ i j hij
      exact get_offdiag _ corn_diag hij
  | full =>
    simp only
    have hb : ∀ (f : Tri → ℕ), (∀ t ∈ F, f t < k) → ∀ i ∈ F.map f, i < k := by
      intro f hf i hi
      obtain ⟨t, ht, rfl⟩ := List.mem_map.mp hi
      exact hf t ht
    have ha := hb (·.a) (fun t ht => (h2 t ht).1)
    have hbb := hb (·.b) (fun t ht => (h2 t ht).2.1)
    have hc := hb (·.c) (fun t ht => (h2 t ht).2.2)
    have hM := csrMatrix_some (K := ℝ) (r := k) (c := k)
      (data := (lsq.map dblArea).map (fun x => x / 24) ++ (lsq.map dblArea).map (fun x => x / 24) ++
        (lsq.map dblArea).map (fun x => x / 24) ++ (lsq.map dblArea).map (fun x => x / 24) ++
        (lsq.map dblArea).map (fun x => x / 24) ++ (lsq.map dblArea).map (fun x => x / 24) ++
        (lsq.map dblArea).map (fun x => x / 12) ++ (lsq.map dblArea).map (fun x => x / 12) ++
        (lsq.map dblArea).map (fun x => x / 12))
      (rows := F.map (·.a) ++ F.map (·.b) ++ F.map (·.b) ++ F.map (·.c) ++ F.map (·.c) ++ F.map (·.a)
        ++ F.map (·.a) ++ F.map (·.b) ++ F.map (·.c))
      (cols := F.map (·.b) ++ F.map (·.a) ++ F.map (·.c) ++ F.map (·.b) ++ F.map (·.a) ++ F.map (·.c)
        ++ F.map (·.a) ++ F.map (·.b) ++ F.map (·.c)) (by simp [hlen]) (by simp [hlen])
      (by
        intro i hi
        simp only [List.mem_append] at hi
        rcases hi with (((((((h | h) | h) | h) | h) | h) | h) | h) | h
        all_goals first | exact ha i h | exact hbb i h | exact hc i h)
      (by
        intro i hi
        simp only [List.mem_append] at hi
        rcases hi with (((((((h | h) | h) | h) | h) | h) | h) | h) | h
        all_goals first | exact ha i h | exact hbb i h | exact hc i h)
    refine ⟨_, hM, rfl, fun j hj => (h3 j hj).symm, ?_, ?_, fun h => absurd rfl h⟩
    · apply get_nonneg
      intro t ht
      have hmem := (List.of_mem_zip (List.of_mem_zip (a := t.1) (b := t.2) ht).2).2
      simp only [List.mem_append, List.mem_map] at hmem
      have h24 : ∀ x, (∃ a, (∃ r ∈ lsq, dblArea r = a) ∧ a / 24 = x) → 0 ≤ x := by
        rintro x ⟨a, ⟨r, hr, rfl⟩, rfl⟩; have := hpos r hr; positivity
      have h12 : ∀ x, (∃ a, (∃ r ∈ lsq, dblArea r = a) ∧ a / 12 = x) → 0 ≤ x := by
        rintro x ⟨a, ⟨r, hr, rfl⟩, rfl⟩; have := hpos r hr; positivity
      rcases hmem with (((((((h | h) | h) | h) | h) | h) | h) | h) | h
      all_goals first | exact h24 _ h | exact h12 _ h
    · rw [total_eq _ (csrMatrix_wf hM).1]
      simp only
      have hz : ∀ (rows cols : List ℕ) (d : List ℝ), rows.length = d.length → cols.length = d.length →
          (zip3 rows cols d).map (fun t => t.2.2) = d := by
        intro rows cols d e1 e2
        unfold zip3
        apply List.ext_getElem
        · simp [e1, e2]
        · intro i _ _; simp
      rw [hz _ _ _ (by simp [hlen]) (by simp [hlen]), ← harea]
      simp only [List.map_map, List.sum_append, sum_map_add_list]
      congr 1
      apply List.map_congr_left
      intro r _
      simp only [Function.comp]; ring

/-- an acute, a right and an obtuse triangle -/
example : LsqNonDeg [⟨2, 2, 2⟩, ⟨2, 1, 1⟩, ⟨3, 1, 1⟩] [⟨0, 1, 2⟩, ⟨2, 1, 3⟩, ⟨0, 2, 4⟩] := by
  refine ⟨rfl, ?_⟩
  intro r hr
  simp at hr
  rcases hr with rfl | rfl | rfl <;> (refine ⟨?_, ?_, ?_, ?_⟩ <;> norm_num [heron])

/-! ## C13 -/

/-- C13 for `h1`: whenever `dec_h1inv_intrinsic` is defined (no zero entry), it is the inverse of `dec_h1_intrinsic`. -/
theorem C13_h1inv_h1 (lsq : List (Row3 ℝ)) (F : List Tri) (T : Option (List ((Int × Int) × (Int × Int)))) (H H' : Csr ℝ)
    (hH : decH1Intrinsic lsq F T = some H) (hH' : decH1InvIntrinsic lsq F T = some H') :
    H.nrows = H.ncols ∧ H'.nrows = H.nrows ∧ H'.ncols = H.nrows ∧
      ∀ i < H.nrows, ∀ k, H'.mulGet H i k = if i = k then 1 else 0 := by
  unfold decH1Intrinsic at hH
  unfold decH1InvIntrinsic at hH'
  cases hd : h1Diag lsq F T with
  | none => rw [hd] at hH; simp at hH
  | some d =>
    rw [hd] at hH hH'
    simp only [Option.bind_eq_bind, Option.bind_some, Option.some.injEq] at hH hH'
    split at hH'
    · next h0 =>
      cases hH; cases hH'
      refine ⟨rfl, by simp [Csr.diags], by simp [Csr.diags], ?_⟩
      intro i hi k
      exact diags_inv h0 i k hi
    · cases hH'

/-- C13 for `h1`, existence: on a manifold nondegenerate mesh `dec_h1` exists. -/
theorem C13_h1_exists (lsq : List (Row3 ℝ)) (F : List Tri) (hne : F ≠ []) (hF : OrientedManifold F)
    (hl : LsqNonDeg lsq F) : ∃ H, decH1Intrinsic lsq F none = some H := by
  unfold decH1Intrinsic; rw [h1Diag_eq hne hF (cot_some hl)]; exact ⟨_, rfl⟩

/-- C13 for `h2`. -/
theorem C13_h2inv_h2 (lsq : List (Row3 ℝ)) (F : List Tri) (hl : LsqNonDeg lsq F) :
    ∃ H H', decH2Intrinsic lsq F = some H ∧ decH2InvIntrinsic lsq F = some H' ∧ H.nrows = F.length ∧ H.ncols = F.length ∧
      H'.nrows = F.length ∧ H'.ncols = F.length ∧
      ∀ i < F.length, ∀ k, H'.mulGet H i k = if i = k then 1 else 0 := by
  have h0 : ∀ x ∈ (lsq.map dblArea).map (fun x => 0.5 * x), x ≠ 0 := by
    intro x hx
    simp only [List.map_map, List.mem_map] at hx
    obtain ⟨r, hr, rfl⟩ := hx
    have := (dblArea_sq (hl.2 r hr)).1
    simp only [Function.comp]; positivity
  unfold decH2Intrinsic decH2InvIntrinsic
  rw [dbl_some hl]
  simp only [Option.bind_eq_bind, Option.bind_some]
  rw [if_pos h0]
  refine ⟨_, _, rfl, rfl, by simp [Csr.diags, hl.1], by simp [Csr.diags, hl.1], by simp [Csr.diags, hl.1],
    by simp [Csr.diags, hl.1], ?_⟩
  intro i hi k
  exact diags_inv h0 i k (by simp [hl.1]; exact hi)

/-- rows for `dec_h0` -/
noncomputable def h0Row (r : Row3 ℝ) : Row3 ℝ := ⟨0.5 / 3 * dblArea r, 0.5 / 3 * dblArea r, 0.5 / 3 * dblArea r⟩
/-- rows for `dec_h0inv` -/
noncomputable def h0iRow (r : Row3 ℝ) : Row3 ℝ :=
  ⟨1 / (0.5 / 3 * dblArea r), 1 / (0.5 / 3 * dblArea r), 1 / (0.5 / 3 * dblArea r)⟩

theorem h0_eq {lsq : List (Row3 ℝ)} {F : List Tri} {n : Option ℕ} {k : ℕ} (hk : nOr n F = some k) (hF : InRange F k)
    (hl : LsqNonDeg lsq F) : decH0Intrinsic lsq F n = some ⟨k, k, cornTrip F (lsq.map h0Row)⟩ := by
  unfold decH0Intrinsic
  rw [hk, dbl_some hl]
  simp only [Option.bind_eq_bind, Option.bind_some]
  rw [← corn_csr (by simp [hl.1]) hF]
  simp [List.map_map, Function.comp_def, h0Row]

theorem h0inv_eq {lsq : List (Row3 ℝ)} {F : List Tri} {n : Option ℕ} {k : ℕ} (hk : nOr n F = some k) (hF : InRange F k)
    (hl : LsqNonDeg lsq F) : decH0InvIntrinsic lsq F n = some ⟨k, k, cornTrip F (lsq.map h0iRow)⟩ := by
  unfold decH0InvIntrinsic
  rw [hk, dbl_some hl]
  simp only [Option.bind_eq_bind, Option.bind_some]
  rw [if_pos]
  · rw [← corn_csr (by simp [hl.1]) hF]
    simp [List.map_map, Function.comp_def, h0iRow]
  · intro x hx
    simp only [List.map_map, List.mem_map] at hx
    obtain ⟨r, hr, rfl⟩ := hx
    have := (dblArea_sq (hl.2 r hr)).1
    simp only [Function.comp]; positivity

theorem corn_get (F : List Tri) (A : List (Row3 ℝ)) (k i : ℕ) :
    (⟨k, k, cornTrip F A⟩ : Csr ℝ).get i i =
      ((F.zip A).map (fun p => p.2.x0 * ind p.1.a i + p.2.x1 * ind p.1.b i + p.2.x2 * ind p.1.c i)).sum := by
  unfold Csr.get cornTrip
  simp only [List.map_append, List.sum_append, List.map_map, sum_map_add_list]
  congr 1
  apply List.map_congr_left
  intro p _
  simp only [Function.comp, ite_and_eq]
  have : ∀ a, ind a i * ind a i = ind a i := by intro a; unfold ind; split <;> simp
  simp only [mul_assoc, this]

theorem diag_mulGet {F : List Tri} {A B : List (Row3 ℝ)} {n : ℕ} (hF : InRange F n) (i k : ℕ) (hi : i < n) :
    (⟨n, n, cornTrip F A⟩ : Csr ℝ).mulGet ⟨n, n, cornTrip F B⟩ i k =
      if i = k then (⟨n, n, cornTrip F A⟩ : Csr ℝ).get i i * (⟨n, n, cornTrip F B⟩ : Csr ℝ).get i i else 0 := by
  unfold Csr.mulGet
  simp only
  rw [Finset.sum_eq_single i]
  · by_cases h : i = k
    · subst h; simp
    · rw [if_neg h, get_offdiag _ corn_diag h]; simp
  · intro j _ hj
    rw [get_offdiag ⟨n, n, cornTrip F A⟩ corn_diag (Ne.symm hj)]; simp
  · intro h; exact absurd (Finset.mem_range.mpr hi) h

/-- The full statement of C13 for `h0`. -/
def H0InvIsInverse (lsq : List (Row3 ℝ)) (F : List Tri) : Prop :=
  ∃ H H', decH0Intrinsic lsq F none = some H ∧ decH0InvIntrinsic lsq F none = some H' ∧
    ∀ i < H.nrows, ∀ k < H.nrows, H'.mulGet H i k = if i = k then 1 else 0

/-- C13 is false of the code for `h0`: `dec_h0inv_intrinsic` inverts every triangle's contribution and then sums, so on two
triangles sharing an edge (nondegenerate, manifold) the product has the diagonal entry 4 instead of 1. -/
theorem C13_h0inv_h0_violated :
    let F : List Tri := [⟨0, 1, 2⟩, ⟨2, 1, 3⟩]
    let lsq : List (Row3 ℝ) := [⟨2, 2, 2⟩, ⟨2, 2, 2⟩]
    OrientedManifold F ∧ LsqNonDeg lsq F ∧ ¬ H0InvIsInverse lsq F ∧
    ∃ H H', decH0Intrinsic lsq F none = some H ∧ decH0InvIntrinsic lsq F none = some H' ∧ H'.mulGet H 1 1 = 4 := by
  intro F lsq
  have hl : LsqNonDeg lsq F := by
    refine ⟨rfl, ?_⟩
    intro r hr
    simp [lsq] at hr
    subst hr
    refine ⟨?_, ?_, ?_, ?_⟩ <;> norm_num [heron]
  have hk : nOr none F = some 4 := by decide
  have hF : InRange F 4 := by decide
  have hpos : 0 < dblArea ⟨2, 2, 2⟩ := (dblArea_sq (hl.2 _ (by simp [lsq]))).1
  have h4 : (⟨4, 4, cornTrip F (lsq.map h0iRow)⟩ : Csr ℝ).mulGet ⟨4, 4, cornTrip F (lsq.map h0Row)⟩ 1 1 = 4 := by
    rw [diag_mulGet hF 1 1 (by omega), if_pos rfl, corn_get, corn_get]
    simp [F, lsq, ind, h0Row, h0iRow]
    have := hpos.ne'
    field_simp
    norm_num
  refine ⟨by decide, hl, ?_, _, _, h0_eq hk hF hl, h0inv_eq hk hF hl, h4⟩
  rintro ⟨H, H', e1, e2, h⟩
  rw [h0_eq hk hF hl] at e1
  rw [h0inv_eq hk hF hl] at e2
  cases e1; cases e2
  have := h 1 (by decide) 1 (by decide)
  rw [h4] at this
  norm_num at this

/-- C13 for `h0`, what holds: at every vertex that is a corner of exactly one triangle the product is right.  (Missing: all
other vertices, where it is false, see `C13_h0inv_h0_violated`.) -/
theorem C13_h0inv_h0_partial (lsq : List (Row3 ℝ)) (F : List Tri) (n : Option ℕ) (hne : F ≠ []) (hn : SizeOk n F)
    (hl : LsqNonDeg lsq F) :
    ∃ H H', decH0Intrinsic lsq F n = some H ∧ decH0InvIntrinsic lsq F n = some H' ∧
      ∀ i < H.nrows, cornerCount F i = 1 → ∀ k, H'.mulGet H i k = if i = k then 1 else 0 := by
  obtain ⟨m, h1, h2, _⟩ := nOr_ok hne hn
  refine ⟨_, _, h0_eq h1 h2 hl, h0inv_eq h1 h2 hl, ?_⟩
  intro i hi hc k
  rw [diag_mulGet h2 i k hi]
  by_cases hik : i = k
  swap
  · rw [if_neg hik, if_neg hik]
  rw [if_pos hik, if_pos hik, corn_get, corn_get, List.zip_map_right, List.zip_map_right, List.map_map, List.map_map]
  simp only [Function.comp_def, Prod.map, id]
  have hrow : ∀ (p : Tri × Row3 ℝ), (h0iRow p.2).x0 * ind p.1.a i + (h0iRow p.2).x1 * ind p.1.b i + (h0iRow p.2).x2 * ind p.1.c i =
      1 / (0.5 / 3 * dblArea p.2) * (ind p.1.a i + ind p.1.b i + ind p.1.c i) := by
    intro p; unfold h0iRow; simp only; ring
  have hrow2 : ∀ (p : Tri × Row3 ℝ), (h0Row p.2).x0 * ind p.1.a i + (h0Row p.2).x1 * ind p.1.b i + (h0Row p.2).x2 * ind p.1.c i =
      (0.5 / 3 * dblArea p.2) * (ind p.1.a i + ind p.1.b i + ind p.1.c i) := by
    intro p; unfold h0Row; simp only; ring
  simp only [hrow, hrow2]
  have hl2 := hl.2
  have hlen := hl.1
  clear hrow hrow2 h1 h2 hi hn hl hne
  unfold cornerCount at hc
  -- induction over the list of triangles
  have hcnt : ∀ t : Tri, ([t.a, t.b, t.c].count i : ℝ) = ind t.a i + ind t.b i + ind t.c i := by
    intro t
    unfold ind
    simp only [List.count_cons, List.count_nil, beq_iff_eq]
    push_cast
    split_ifs <;> norm_num
  have hzero : ∀ (F : List Tri) (lsq : List (Row3 ℝ)) (g : Row3 ℝ → ℝ), (F.flatMap (fun t => [t.a, t.b, t.c])).count i = 0 →
      ((F.zip lsq).map (fun p => g p.2 * (ind p.1.a i + ind p.1.b i + ind p.1.c i))).sum = 0 := by
    intro F lsq g h
    apply List.sum_eq_zero
    intro x hx
    obtain ⟨p, hp, rfl⟩ := List.mem_map.mp hx
    have : [p.1.a, p.1.b, p.1.c].count i = 0 := by
      rw [List.count_eq_zero] at h ⊢
      intro hm
      exact h (List.mem_flatMap.mpr ⟨p.1, zip_mem_left hp, hm⟩)
    have h2 := hcnt p.1
    rw [this] at h2
    rw [← h2]; simp
  induction F generalizing lsq with
  | nil => simp at hc
  | cons t F ih =>
    cases lsq with
    | nil => simp at hlen
    | cons r lsq =>
      simp only [List.zip_cons_cons, List.map_cons, List.sum_cons]
      rw [List.flatMap_cons, List.count_append] at hc
      rcases (by omega : [t.a, t.b, t.c].count i = 1 ∧ (F.flatMap (fun t => [t.a, t.b, t.c])).count i = 0 ∨
        [t.a, t.b, t.c].count i = 0 ∧ (F.flatMap (fun t => [t.a, t.b, t.c])).count i = 1) with ⟨c1, c2⟩ | ⟨c1, c2⟩
      · have e := hcnt t
        rw [c1] at e
        rw [hzero F lsq (fun r => 1 / (0.5 / 3 * dblArea r)) c2, hzero F lsq (fun r => 0.5 / 3 * dblArea r) c2, ← e]
        have := (dblArea_sq (hl2 r (by simp))).1.ne'
        push_cast
        field_simp
        norm_num
        ring
      · have e := hcnt t
        rw [c1] at e
        rw [← e]
        push_cast
        simp only [mul_zero, zero_add]
        exact ih lsq c2 (fun r hr => hl2 r (by simp [hr])) (by simpa using hlen)

/-- vertex 0 of the two-triangle mesh is a corner of one triangle only -/
example : cornerCount [⟨0, 1, 2⟩, ⟨2, 1, 3⟩] 0 = 1 := by decide

end Gpy
