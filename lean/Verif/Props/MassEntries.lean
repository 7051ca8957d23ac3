import Verif.Props.Mass

/-! C12, second part: what the entries of the three mass matrices are. -/

namespace Gpy
open Np Finset

/-- area from squared side lengths (Heron) -/
noncomputable def areaOf (r : Row3 ℝ) : ℝ := Real.sqrt (heron r) / 4

/-- cotangent of the angle opposite to the side with squared length `x` in a triangle with the other squared side lengths
`y`, `z` and area `A` -/
noncomputable def cotOf (x y z A : ℝ) : ℝ := (y + z - x) / (4 * A)

/-- The mixed Voronoi area of Meyer et al. at the corner opposite to the side of squared length `x`; the other corners are
opposite to `y` and `z`. -/
noncomputable def mixedArea (x y z A : ℝ) : ℝ :=
  if y + z < x then A / 2                                     -- obtuse at this corner
  else if x + z < y ∨ x + y < z then A / 4                    -- obtuse elsewhere
  else (y * cotOf y x z A + z * cotOf z x y A) / 8            -- Voronoi area

theorem voronoiRow_eq {r : Row3 ℝ} (h : NonDeg r) :
    (voronoiRow r).x0 = mixedArea r.x0 r.x1 r.x2 (areaOf r) ∧ (voronoiRow r).x1 = mixedArea r.x1 r.x0 r.x2 (areaOf r) ∧
    (voronoiRow r).x2 = mixedArea r.x2 r.x0 r.x1 (areaOf r) := by
  obtain ⟨hD, hD4⟩ := dblArea_sq h
  have hA : areaOf r = dblArea r / 2 := by
    unfold areaOf
    rw [dblArea_eq r ⟨h.1, h.2.1, h.2.2.1⟩, max_eq_left h.2.2.2.le]; ring
  obtain ⟨p0, p1, p2⟩ := h.pos
  have s0 := Real.sqrt_pos.mpr p0
  have s1 := Real.sqrt_pos.mpr p1
  have s2 := Real.sqrt_pos.mpr p2
  have q0 := Real.sq_sqrt p0.le
  have q1 := Real.sq_sqrt p1.le
  have q2 := Real.sq_sqrt p2.le
  have hneg : ∀ x y z : ℝ, 0 < y → 0 < z → (x / (2 * y * z) < 0 ↔ x < 0) := by
    intro x y z hy hz
    constructor
    · intro hx
      by_contra hc
      exact absurd hx (not_lt.mpr (div_nonneg (not_lt.mp hc) (by positivity)))
    · intro hx
      exact div_neg_of_neg_of_pos hx (by positivity)
  have hq : (0.25 : ℝ) = 1 / 4 := by norm_num
  have he : (0.125 : ℝ) = 1 / 8 := by norm_num
  have hh : (0.5 : ℝ) = 1 / 2 := by norm_num
  unfold voronoiRow mixedArea
  simp only [hneg _ _ _ s2 s1, hneg _ _ _ s0 s2, hneg _ _ _ s1 s0]
  rw [hA, hq, he, hh]
  split_ifs <;> first | (exfalso; linarith) | skip
  all_goals try (exfalso; simp only [not_or, not_lt] at *; grind)
  all_goals try (refine ⟨?_, ?_, ?_⟩ <;> simp only <;> ring1)
  -- acute or right triangle
  have hs : (r.x2 + r.x1 - r.x0) / (2 * √r.x2 * √r.x1) * √r.x0 + (r.x0 + r.x2 - r.x1) / (2 * √r.x0 * √r.x2) * √r.x1 +
      (r.x1 + r.x0 - r.x2) / (2 * √r.x1 * √r.x0) * √r.x2 = 4 * dblArea r ^ 2 / (2 * √r.x0 * √r.x1 * √r.x2) := by
    rw [hD4]
    field_simp
    rw [q0, q1, q2]
    unfold heron; ring
  rw [hs]
  unfold cotOf
  have hDne := hD.ne'
  refine ⟨?_, ?_, ?_⟩
  · field_simp
    rw [q1, q2]; ring
  · field_simp
    rw [q0, q2]; ring
  · field_simp
    rw [q0, q1]; ring

/-- C12: the diagonal entry at vertex `i` of the lumped mass matrices is the sum over the corners at `i` of a third of the
triangle area (`barycentric`), or of Meyer's mixed Voronoi area (`voronoi`). -/
theorem C12_lumped_entries (lsq : List (Row3 ℝ)) (F : List Tri) (n : Option ℕ) (hne : F ≠ [])
    (hn : SizeOk n F) (hl : LsqNonDeg lsq F) :
    ∃ B M, massmatrixIntrinsic lsq F n .barycentric = some B ∧ massmatrixIntrinsic lsq F n .voronoi = some M ∧ ∀ i,
      B.get i i = ((F.zip lsq).map (fun p => areaOf p.2 / 3 * (([p.1.a, p.1.b, p.1.c].count i : ℕ) : ℝ))).sum ∧
      M.get i i = ((F.zip lsq).map (fun p =>
        (if p.1.a = i then mixedArea p.2.x0 p.2.x1 p.2.x2 (areaOf p.2) else 0) +
        (if p.1.b = i then mixedArea p.2.x1 p.2.x0 p.2.x2 (areaOf p.2) else 0) +
        (if p.1.c = i then mixedArea p.2.x2 p.2.x0 p.2.x1 (areaOf p.2) else 0))).sum := by
  obtain ⟨k, h1, h2, h3⟩ := nOr_ok hne hn
  have hlen : lsq.length = F.length := hl.1
  have hpos : ∀ r ∈ lsq, 0 < dblArea r := fun r hr => (dblArea_sq (hl.2 r hr)).1
  have hB : massmatrixIntrinsic lsq F n .barycentric = some ⟨k, k, cornTrip F
      (lsq.map (fun r => (⟨dblArea r / 6, dblArea r / 6, dblArea r / 6⟩ : Row3 ℝ)))⟩ := by
    unfold massmatrixIntrinsic
    rw [h1, dbl_some hl]
    simp only [Option.bind_eq_bind, Option.bind_some]
    rw [← corn_csr (by simp [hlen]) h2]
    simp [List.map_map, Function.comp_def]
  have hM : massmatrixIntrinsic lsq F n .voronoi = some ⟨k, k, cornTrip F (lsq.map voronoiRow)⟩ := by
    unfold massmatrixIntrinsic
    rw [h1, dbl_some hl]
    simp only [Option.bind_eq_bind, Option.bind_some]
    rw [if_pos (by intro x hx; obtain ⟨r, hr, rfl⟩ := List.mem_map.mp hx; exact (hpos r hr).ne')]
    rw [← corn_csr (by simp [hlen]) h2]
  refine ⟨_, _, hB, hM, ?_⟩
  intro i
  rw [corn_get, corn_get, List.zip_map_right, List.map_map, List.zip_map_right, List.map_map]
  constructor
  · congr 1
    apply List.map_congr_left
    intro p hp
    have hr : NonDeg p.2 := hl.2 _ (List.of_mem_zip (a := p.1) (b := p.2) hp).2
    have hA : areaOf p.2 = dblArea p.2 / 2 := by
      unfold areaOf
      rw [dblArea_eq p.2 ⟨hr.1, hr.2.1, hr.2.2.1⟩, max_eq_left hr.2.2.2.le]; ring
    simp only [Function.comp, Prod.map, id, hA, ind, List.count_cons, List.count_nil, beq_iff_eq]
    push_cast
    split_ifs <;> ring
  · congr 1
    apply List.map_congr_left
    intro p hp
    have hr : NonDeg p.2 := hl.2 _ (List.of_mem_zip (a := p.1) (b := p.2) hp).2
    obtain ⟨e0, e1, e2⟩ := voronoiRow_eq hr
    simp only [Function.comp, Prod.map, id, ind, e0, e1, e2]
    simp only [mul_ite, mul_one, mul_zero]

/-- C12: `uᵀ M w` for the `full` mass matrix is the integral of the product of the piecewise linear functions, i.e. per
triangle `area/12 * (2 ua wa + 2 ub wb + 2 uc wc + ua wb + ub wa + ub wc + uc wb + uc wa + ua wc)`. -/
theorem C12_full_form (lsq : List (Row3 ℝ)) (F : List Tri) (n : Option ℕ) (hne : F ≠ [])
    (hn : SizeOk n F) (hl : LsqNonDeg lsq F) :
    ∃ M, massmatrixIntrinsic lsq F n .full = some M ∧ ∀ i j,
      M.get i j = ((F.zip lsq).map (fun p =>
        areaOf p.2 / 12 * (([p.1.a, p.1.b, p.1.c].count i : ℕ) : ℝ) * (([p.1.a, p.1.b, p.1.c].count j : ℕ) : ℝ) +
        areaOf p.2 / 12 * ((if p.1.a = i ∧ p.1.a = j then 1 else 0) + (if p.1.b = i ∧ p.1.b = j then 1 else 0) +
          (if p.1.c = i ∧ p.1.c = j then 1 else 0)))).sum := by
  obtain ⟨k, h1, h2, h3⟩ := nOr_ok hne hn
  have hlen : lsq.length = F.length := hl.1
  have hb : ∀ (f : Tri → ℕ), (∀ t ∈ F, f t < k) → ∀ i ∈ F.map f, i < k := by
    intro f hf i hi
    obtain ⟨t, ht, rfl⟩ := List.mem_map.mp hi
    exact hf t ht
  have ha := hb (·.a) (fun t ht => (h2 t ht).1)
  have hbb := hb (·.b) (fun t ht => (h2 t ht).2.1)
  have hc := hb (·.c) (fun t ht => (h2 t ht).2.2)
  unfold massmatrixIntrinsic
  rw [h1, dbl_some hl]
  simp only [Option.bind_eq_bind, Option.bind_some, List.map_map]
  rw [csrMatrix_some (by simp [hlen]) (by simp [hlen])
      (by
        intro i hi
        simp only [List.mem_append] at hi
        rcases hi with (((((((h | h) | h) | h) | h) | h) | h) | h) | h
        all_goals first | exact ha i h | exact hbb i h | exact hc i h)
      (by
        intro i hi
        simp only [List.mem_append] at hi
        rcases hi with (((((((h | h) | h) | h) | h) | h) | h) | h) | h
        all_goals first | exact ha i h | exact hbb i h | exact hc i h)]
  refine ⟨_, rfl, ?_⟩
  intro i j
  unfold Csr.get
  simp only
  repeat rw [zip3_append (by simp [hlen]) (by simp [hlen])]
  simp only [zip3_map2 F lsq hlen]
  simp only [List.map_append, List.sum_append, List.map_map, sum_map_add_list]
  congr 1
  apply List.map_congr_left
  intro p hp
  have hr : NonDeg p.2 := hl.2 _ (List.of_mem_zip (a := p.1) (b := p.2) hp).2
  have hA : areaOf p.2 = dblArea p.2 / 2 := by
    unfold areaOf
    rw [dblArea_eq p.2 ⟨hr.1, hr.2.1, hr.2.2.1⟩, max_eq_left hr.2.2.2.le]; ring
  have hcnt : ∀ x, (([p.1.a, p.1.b, p.1.c].count x : ℕ) : ℝ) = ind p.1.a x + ind p.1.b x + ind p.1.c x := by
    intro x
    unfold ind
    simp only [List.count_cons, List.count_nil, beq_iff_eq]
    push_cast
    ring
  simp only [Function.comp, hA, hcnt, ite_and_eq]
  ring

/-- an acute, a right and an obtuse triangle meet the hypotheses -/
example : LsqNonDeg [⟨2, 2, 2⟩, ⟨2, 1, 1⟩, ⟨3, 1, 1⟩] [⟨0, 1, 2⟩, ⟨2, 1, 3⟩, ⟨0, 2, 4⟩] := by
  refine ⟨rfl, ?_⟩
  intro r hr
  simp at hr
  rcases hr with rfl | rfl | rfl <;> (refine ⟨?_, ?_, ?_, ?_⟩ <;> norm_num [heron])

end Gpy
