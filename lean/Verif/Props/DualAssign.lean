import Verif.Props.DualFaces

/-!
# C126: every sample sphere acts on the cell that contains its closest point of the surface
-/

set_option autoImplicit false
namespace Gpy.Dual

noncomputable section
open Classical

variable {g : Grid}

/-- the vertices of the grid are at `lo + index * h` -/
def Regular (g : Grid) (lo h : Pt 3) : Prop :=
  g.GV.length = g.nx * g.ny * g.nz ∧ ∀ v, g.Vert v → g.pos v = ![lo 0 + v.1 * h 0, lo 1 + v.2.1 * h 1, lo 2 + v.2.2 * h 2]

/-- the index of a cell along an axis -/
def ax (c : Ijk) (a : Fin 3) : ℕ := match a with
  | 0 => c.1
  | 1 => c.2.1
  | 2 => c.2.2

/-- the number of vertices along an axis -/
def Grid.num (g : Grid) (a : Fin 3) : ℕ := match a with
  | 0 => g.nx
  | 1 => g.ny
  | 2 => g.nz

/-- a point of the closed cell -/
def InCell (lo h : Pt 3) (c : Ijk) (p : Pt 3) : Prop := ∀ a, lo a + ax c a * h a ≤ p a ∧ p a ≤ lo a + (ax c a + 1) * h a

/-! ### the cell of a point -/

/-- the clamped index of line 893-897 -/
def wIdx (g : Grid) (C : Pt 3) (a : Fin 3) : ℤ := max 0 (min ⌊(C a - minCoeff g a) / spacing g a⌋ ((g.num a : ℤ) - 2))

theorem cellOf_eq (C : Pt 3) : cellOf g C = cellIdx g.nx g.ny (wIdx g C 0) (wIdx g C 1) (wIdx g C 2) := rfl

theorem cellOf_cell (hx : 2 ≤ g.nx) (hy : 2 ≤ g.ny) (hz : 2 ≤ g.nz) (C : Pt 3) :
    g.Cell ((wIdx g C 0).toNat, (wIdx g C 1).toNat, (wIdx g C 2).toNat) ∧ cellOf g C = cellNo g ((wIdx g C 0).toNat, (wIdx g C 1).toNat, (wIdx g C 2).toNat) ∧
    ∀ a, wIdx g C a = (ax ((wIdx g C 0).toNat, (wIdx g C 1).toNat, (wIdx g C 2).toNat) a : ℤ) := by
  have h0 : ∀ a, 0 ≤ wIdx g C a := fun a => le_max_left _ _
  have h1 : ∀ a, 2 ≤ g.num a → wIdx g C a ≤ (g.num a : ℤ) - 2 := by
    intro a ha
    unfold wIdx
    omega
  have hc : g.Cell ((wIdx g C 0).toNat, (wIdx g C 1).toNat, (wIdx g C 2).toNat) := by
    have a0 := h1 0 hx
    have a1 := h1 1 hy
    have a2 := h1 2 hz
    have b0 := h0 0
    have b1 := h0 1
    have b2 := h0 2
    simp only [Grid.num] at a0 a1 a2
    refine ⟨?_, ?_, ?_⟩ <;> simp only <;> omega
  refine ⟨hc, ?_, ?_⟩
  · rw [← cellIdx_eq g _ hc, cellOf_eq]
    simp only [Int.toNat_of_nonneg (h0 _)]
  · intro a
    fin_cases a <;> exact (Int.toNat_of_nonneg (h0 _)).symm

theorem idx_lt (v : Ijk) (hv : g.Vert v) : g.idx v.1 v.2.1 v.2.2 < g.nx * g.ny * g.nz := by
  obtain ⟨h1, h2, h3⟩ := hv
  unfold Grid.idx
  have e1 : v.2.1 + g.ny * v.2.2 < g.ny * g.nz := by nlinarith
  nlinarith

theorem idx_surj (n : ℕ) (hn : n < g.nx * g.ny * g.nz) : ∃ v, g.Vert v ∧ g.idx v.1 v.2.1 v.2.2 = n := by
  have hx : 0 < g.nx := by rcases Nat.eq_zero_or_pos g.nx with h | h; · rw [h] at hn; simp at hn
                           · exact h
  have hy : 0 < g.ny := by rcases Nat.eq_zero_or_pos g.ny with h | h; · rw [h] at hn; simp at hn
                           · exact h
  refine ⟨(n % g.nx, n / g.nx % g.ny, n / g.nx / g.ny), ⟨Nat.mod_lt _ hx, Nat.mod_lt _ hy, ?_⟩, ?_⟩
  · simp only
    rw [Nat.div_div_eq_div_mul]
    exact Nat.div_lt_of_lt_mul hn
  · unfold Grid.idx
    simp only
    rw [Nat.mod_add_div, Nat.mod_add_div]

variable {lo h : Pt 3}

theorem coeffs (hx : 2 ≤ g.nx) (hy : 2 ≤ g.ny) (hz : 2 ≤ g.nz) (hr : Regular g lo h) (hh : ∀ a, 0 < h a) (a : Fin 3) :
    minCoeff g a = lo a ∧ maxCoeff g a = lo a + ((g.num a : ℝ) - 1) * h a := by
  have hval : ∀ v, g.Vert v → g.pos v a = lo a + ax v a * h a := by
    intro v hv
    rw [hr.2 v hv]
    fin_cases a <;> rfl
  have hmem : ∀ v, g.Vert v → lo a + ax v a * h a ∈ g.GV.map (fun x => x a) := by
    intro v hv
    rw [List.mem_map]
    have hl : g.idx v.1 v.2.1 v.2.2 < g.GV.length := by rw [hr.1]; exact idx_lt v hv
    refine ⟨g.GV[g.idx v.1 v.2.1 v.2.2], List.getElem_mem hl, ?_⟩
    rw [← hval v hv]
    unfold Grid.pos Grid.x
    rw [List.getD_eq_getElem?_getD, List.getElem?_eq_getElem hl]
    rfl
  have hall : ∀ y ∈ g.GV.map (fun x => x a), ∃ v, g.Vert v ∧ y = lo a + ax v a * h a := by
    intro y hy'
    rw [List.mem_map] at hy'
    obtain ⟨p, hp, rfl⟩ := hy'
    obtain ⟨n, hn, rfl⟩ := List.mem_iff_getElem.mp hp
    obtain ⟨v, hv, e⟩ := idx_surj n (by rw [← hr.1]; exact hn)
    refine ⟨v, hv, ?_⟩
    rw [← hval v hv]
    unfold Grid.pos Grid.x
    rw [e, List.getD_eq_getElem?_getD, List.getElem?_eq_getElem hn]
    rfl
  have hnum : ∀ v, g.Vert v → ax v a + 1 ≤ g.num a := by
    intro v hv
    obtain ⟨h1, h2, h3⟩ := hv
    fin_cases a
    · exact h1
    · exact h2
    · exact h3
  constructor
  · unfold minCoeff
    have : (g.GV.map (fun x => x a)).min? = some (lo a) := by
      rw [List.min?_eq_some_iff]
      constructor
      · have := hmem (0, 0, 0) ⟨by simp only; omega, by simp only; omega, by simp only; omega⟩
        rw [show ax (0, 0, 0) a = 0 by fin_cases a <;> rfl] at this
        simpa using this
      · intro b hb
        obtain ⟨v, hv, rfl⟩ := hall b hb
        have : 0 ≤ (ax v a : ℝ) * h a := mul_nonneg (Nat.cast_nonneg _) (hh a).le
        linarith
    rw [this]
    rfl
  · unfold maxCoeff
    have : (g.GV.map (fun x => x a)).max? = some (lo a + ((g.num a : ℝ) - 1) * h a) := by
      rw [List.max?_eq_some_iff]
      constructor
      · have := hmem (g.nx - 1, g.ny - 1, g.nz - 1) ⟨by simp only; omega, by simp only; omega, by simp only; omega⟩
        rw [show ax (g.nx - 1, g.ny - 1, g.nz - 1) a = g.num a - 1 by fin_cases a <;> rfl] at this
        rw [Nat.cast_sub (by fin_cases a <;> simp [Grid.num] <;> omega), Nat.cast_one] at this
        exact this
      · intro b hb
        obtain ⟨v, hv, rfl⟩ := hall b hb
        have h1 : (ax v a : ℝ) + 1 ≤ g.num a := by exact_mod_cast hnum v hv
        have := mul_le_mul_of_nonneg_right (show (ax v a : ℝ) ≤ (g.num a : ℝ) - 1 by linarith) (hh a).le
        linarith
    rw [this]
    rfl

theorem spacing_eq (hx : 2 ≤ g.nx) (hy : 2 ≤ g.ny) (hz : 2 ≤ g.nz) (hr : Regular g lo h) (hh : ∀ a, 0 < h a) (a : Fin 3) : spacing g a = h a := by
  have key : spacing g a = (maxCoeff g a - minCoeff g a) / ((g.num a : ℝ) - 1) := by fin_cases a <;> rfl
  obtain ⟨e1, e2⟩ := coeffs hx hy hz hr hh a
  have h2 : (2 : ℝ) ≤ g.num a := by fin_cases a <;> simp only [Grid.num] <;> exact_mod_cast (by assumption)
  rw [key, e1, e2, add_sub_cancel_left, mul_comm, mul_div_assoc, div_self (by linarith), mul_one]

/-- **C126** (the cell).  The cell a sphere is given to is always a cell of the grid; on a regular grid it is one that contains the closest point, if this is in the grid at all. -/
theorem C126_cell (hx : 2 ≤ g.nx) (hy : 2 ≤ g.ny) (hz : 2 ≤ g.nz) (C : Pt 3) : ∃ c, g.Cell c ∧ cellOf g C = cellNo g c ∧
    (Regular g lo h → (∀ a, 0 < h a) → (∀ a, lo a ≤ C a ∧ C a ≤ lo a + ((g.num a : ℝ) - 1) * h a) → InCell lo h c C) := by
  obtain ⟨c1, c2, c3⟩ := cellOf_cell hx hy hz C
  refine ⟨_, c1, c2, ?_⟩
  intro hr hh hC a
  obtain ⟨e1, -⟩ := coeffs hx hy hz hr hh a
  have es := spacing_eq hx hy hz hr hh a
  have hw := c3 a
  generalize ax ((wIdx g C 0).toNat, (wIdx g C 1).toNat, (wIdx g C 2).toNat) a = m at hw ⊢
  have hn2 : 2 ≤ g.num a := by fin_cases a <;> assumption
  obtain ⟨l1, l2⟩ := hC a
  have hha := hh a
  unfold wIdx at hw
  rw [e1, es] at hw
  have hf0 : 0 ≤ ⌊(C a - lo a) / h a⌋ := Int.floor_nonneg.mpr (div_nonneg (by linarith) hha.le)
  have hle := Int.floor_le ((C a - lo a) / h a)
  have hlt := Int.lt_floor_add_one ((C a - lo a) / h a)
  rw [le_div_iff₀ hha] at hle
  rw [div_lt_iff₀ hha] at hlt
  generalize ⌊(C a - lo a) / h a⌋ = f at hw hf0 hle hlt
  rcases le_or_gt f ((g.num a : ℤ) - 2) with hcase | hcase
  · have : f = (m : ℤ) := by omega
    rw [this] at hle hlt
    push_cast at hle hlt
    constructor <;> linarith
  · have hm : (m : ℤ) = (g.num a : ℤ) - 2 := by omega
    have hm' : (m : ℝ) = (g.num a : ℝ) - 2 := by exact_mod_cast hm
    have hf : (g.num a : ℝ) - 1 ≤ (f : ℝ) := by
      have : (g.num a : ℤ) - 1 ≤ f := by omega
      exact_mod_cast this
    have := mul_le_mul_of_nonneg_right hf hha.le
    rw [hm']
    constructor <;> nlinarith

/-! ### the triangles of the quads -/

/-- **C126** (triangles).  Closest points are searched on two triangles for every quad, on the two sides of the diagonal from its first to its third corner. -/
theorem C126_triangles (V : List (Pt 3)) (F : List Quad) :
    (∀ t ∈ triangulate V F, ∃ q ∈ F, t = (q.a, q.b, q.c) ∨ t = (q.a, q.c, q.b) ∨ t = (q.a, q.c, q.d) ∨ t = (q.a, q.d, q.c)) ∧
    ∀ q ∈ F, ((q.a, q.b, q.c) ∈ triangulate V F ∨ (q.a, q.c, q.b) ∈ triangulate V F) ∧ ((q.a, q.c, q.d) ∈ triangulate V F ∨ (q.a, q.d, q.c) ∈ triangulate V F) := by
  have ho : ∀ q t, orient V q t = t ∨ orient V q t = (t.1, t.2.2, t.2.1) := by
    intro q t
    unfold orient
    simp only
    split_ifs <;> simp
  constructor
  · intro t ht
    unfold triangulate at ht
    rw [List.mem_flatMap] at ht
    obtain ⟨q, hq, ht⟩ := ht
    simp only [List.mem_cons, List.not_mem_nil, or_false] at ht
    refine ⟨q, hq, ?_⟩
    rcases ht with rfl | rfl
    · rcases ho q (q.a, q.b, q.c) with e | e <;> rw [e] <;> simp
    · rcases ho q (q.a, q.c, q.d) with e | e <;> rw [e] <;> simp
  · intro q hq
    have h1 : orient V q (q.a, q.b, q.c) ∈ triangulate V F := List.mem_flatMap.mpr ⟨q, hq, by simp⟩
    have h2 : orient V q (q.a, q.c, q.d) ∈ triangulate V F := List.mem_flatMap.mpr ⟨q, hq, by simp⟩
    constructor
    · rcases ho q (q.a, q.b, q.c) with e | e <;> rw [e] at h1
      · exact Or.inl h1
      · exact Or.inr h1
    · rcases ho q (q.a, q.c, q.d) with e | e <;> rw [e] at h2
      · exact Or.inl h2
      · exact Or.inr h2

/-! ### which spheres a cell gets -/

/-- **C126** (batch).  The samples used in an outer iteration are different grid vertices; every sample closer than three cell diagonals is used, and in all at most the batch size if there are not more of these. -/
theorem C126_batch (shuffle : List ℕ → List ℕ) (hs : ∀ l, (shuffle l).Perm l) (size : ℕ) :
    (batch shuffle g size).Nodup ∧ (∀ v ∈ batch shuffle g size, v < g.GV.length) ∧
    (∀ v < g.GV.length, |g.S.getD v 0| < 3 * cellDiag g → v ∈ batch shuffle g size) ∧
    (batch shuffle g size).length ≤ max size ((List.range g.GV.length).filter (fun v => |g.S.getD v 0| < 3 * cellDiag g)).length ∧
    (g.GV.length ≤ size → ∀ v < g.GV.length, v ∈ batch shuffle g size) := by
  unfold batch
  simp only
  have hfar := hs ((List.range g.GV.length).filter (fun v => ¬ |g.S.getD v 0| < 3 * cellDiag g))
  have hfm : ∀ v, v ∈ shuffle ((List.range g.GV.length).filter (fun v => ¬ |g.S.getD v 0| < 3 * cellDiag g)) → v < g.GV.length ∧ ¬ |g.S.getD v 0| < 3 * cellDiag g := by
    intro v hv
    have := hfar.mem_iff.mp hv
    rw [List.mem_filter, List.mem_range] at this
    exact ⟨this.1, by simpa using this.2⟩
  have hlen : ((List.range g.GV.length).filter (fun v => |g.S.getD v 0| < 3 * cellDiag g)).length + ((List.range g.GV.length).filter (fun v => ¬ |g.S.getD v 0| < 3 * cellDiag g)).length = g.GV.length := by
    have := List.length_eq_length_filter_add (l := List.range g.GV.length) (fun v => decide (|g.S.getD v 0| < 3 * cellDiag g))
    rw [List.length_range] at this
    simp only [decide_not]
    exact this.symm
  refine ⟨?_, ?_, ?_, ?_, ?_⟩
  · rw [List.nodup_append]
    refine ⟨List.nodup_range.filter _, ((hfar.nodup_iff).mpr (List.nodup_range.filter _)).sublist (List.take_sublist _ _), ?_⟩
    intro v hv w hw e
    subst e
    rw [List.mem_filter] at hv
    exact (hfm v (List.mem_of_mem_take hw)).2 (by simpa using hv.2)
  · intro v hv
    rcases List.mem_append.mp hv with h | h
    · exact List.mem_range.mp (List.mem_filter.mp h).1
    · exact (hfm v (List.mem_of_mem_take h)).1
  · intro v hv hd
    exact List.mem_append_left _ (List.mem_filter.mpr ⟨List.mem_range.mpr hv, by simpa using hd⟩)
  · rw [List.length_append, List.length_take]
    omega
  · intro hsz v hv
    by_cases hd : |g.S.getD v 0| < 3 * cellDiag g
    · exact List.mem_append_left _ (List.mem_filter.mpr ⟨List.mem_range.mpr hv, by simpa using hd⟩)
    · refine List.mem_append_right _ ?_
      rw [List.take_of_length_le (by rw [hfar.length_eq]; omega)]
      exact hfar.mem_iff.mpr (List.mem_filter.mpr ⟨List.mem_range.mpr hv, by simpa using hd⟩)

/-- the sphere of a sample -/
def sampleSphere (g : Grid) (v : ℕ) : Sphere := ⟨|g.S.getD v 0|, if 0 ≤ g.S.getD v 0 then 1 else -1, g.GV.getD v 0⟩

/-- **C126** (spheres).  When spheres are given to the cells, a cell gets - besides those it has - exactly the spheres of the samples of the batch for which this is the cell of the closest point `C` of the
present surface, unless `C` is a cell diagonal or more outside of the sphere; each once. -/
theorem C126_spheres (shuffle : List ℕ → List ℕ) (sort : List Sphere → List Sphere) (hsort : ∀ l, (sort l).Perm l) (closest : List (Pt 3) → List (ℕ × ℕ × ℕ) → Pt 3 → ℝ × Pt 3) {V : List (Pt 3)} {F : List Quad}
    (hV : V ≠ []) (hF : F ≠ []) (size : ℕ) (cells : List Cell) (n : ℕ) (x y : Cell) (hx : cells[n]? = some x) (hy : (assignSpheres shuffle sort closest g V F size cells)[n]? = some y) :
    y.spheres.Perm (x.spheres ++ ((batch shuffle g size).filter (fun v => decide (Real.sqrt (closest V (triangulate V F) (g.GV.getD v 0)).1 - |g.S.getD v 0| < cellDiag g ∧
      cellOf g (closest V (triangulate V F) (g.GV.getD v 0)).2 = n))).map (sampleSphere g)) := by
  unfold assignSpheres at hy
  rw [if_neg (by simp [hV, hF])] at hy
  simp only [List.getElem?_map, List.getElem?_zipIdx, hx, Option.map_some, zero_add, Option.some.injEq] at hy
  rw [← hy]
  simp only
  refine (hsort _).trans (List.Perm.append_left _ ?_)
  refine List.Perm.of_eq ?_
  generalize batch shuffle g size = B
  induction B with
  | nil => rfl
  | cons v B ih =>
    by_cases hd : cellDiag g ≤ Real.sqrt (closest V (triangulate V F) (g.GV.getD v 0)).1 - |g.S.getD v 0|
    · have e : sphereOf g (closest V (triangulate V F)) v = none := by
        unfold sphereOf
        simp only
        rw [if_pos hd]
      rw [List.filterMap_cons_none e, List.filter_cons_of_neg (by simp only [decide_eq_true_eq]; rintro ⟨h1, -⟩; linarith)]
      exact ih
    · have e : sphereOf g (closest V (triangulate V F)) v = some (cellOf g (closest V (triangulate V F) (g.GV.getD v 0)).2, sampleSphere g v) := by
        unfold sphereOf
        simp only
        rw [if_neg hd]
        rfl
      rw [List.filterMap_cons_some e]
      by_cases hc : cellOf g (closest V (triangulate V F) (g.GV.getD v 0)).2 = n
      · rw [List.filter_cons_of_pos (by simpa using hc), List.filter_cons_of_pos (by simp only [decide_eq_true_eq]; exact ⟨by linarith, hc⟩), List.map_cons, List.map_cons, ih]
      · rw [List.filter_cons_of_neg (by simpa using hc), List.filter_cons_of_neg (by simp only [decide_eq_true_eq]; rintro ⟨-, h1⟩; exact hc h1)]
        exact ih

end

end Gpy.Dual
