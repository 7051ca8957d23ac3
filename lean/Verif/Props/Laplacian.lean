import Verif.Proofs.Heron
import Verif.Props.Dec

/-! Properties C09, C10, C11, C37: cotangent Laplacian and gradient, over the real numbers. -/

namespace Gpy
open Np Finset

/-- A mesh in which every vertex index is below `n`, or `n` is omitted (then `np.max(F)+1` is used). -/
def SizeOk (n : Option ℕ) (F : List Tri) : Prop := ∀ k, n = some k → InRange F k

theorem nOr_ok {n : Option ℕ} {F : List Tri} (hne : F ≠ []) (hn : SizeOk n F) :
    ∃ k, nOr n F = some k ∧ InRange F k ∧ ∀ j, n = some j → j = k := by
  cases n with
  | some k => exact ⟨k, rfl, hn k rfl, fun j hj => by cases hj; rfl⟩
  | none =>
    obtain ⟨k, h1, h2⟩ := npMaxSucc_spec hne
    exact ⟨k, h1, h2, fun j hj => by cases hj⟩

/-- the differences of `u` along the side `e`, seen from vertex `i` -/
def diffAt (u : ℕ → ℝ) (i : ℕ) (e : Edge) : ℝ :=
  (if e.s = i then u i - u e.t else 0) + (if e.t = i then u i - u e.s else 0)

/-- C09.  On nondegenerate edge lengths `cotangent_laplacian_intrinsic` succeeds with a square symmetric matrix with zero row
sums and `(L u)[i] = ∑ over triangle sides {i,j} of the side's cotangent weight times (u[i]-u[j])`, where the weight of side
`k` of a triangle with squared side lengths `r` is `(r_{k+1}+r_{k+2}-r_k)/(8 area)`, i.e. half the cotangent of the opposite
angle. -/
theorem C09_cotangent_laplacian (lsq : List (Row3 ℝ)) (F : List Tri) (n : Option ℕ) (hne : F ≠ []) (hn : SizeOk n F)
    (hl : LsqNonDeg lsq F) :
    ∃ L, cotangentLaplacianIntrinsic lsq F n = some L ∧ L.nrows = L.ncols ∧ (∀ k, n = some k → L.nrows = k) ∧
      (∀ i j, L.get i j = L.get j i) ∧
      (∀ i, ∑ j ∈ range L.ncols, L.get i j = 0) ∧
      (∀ u i, L.mulVec u i = ((F.zip lsq).map (fun p =>
        (p.2.x1 + p.2.x2 - p.2.x0) / (2 * Real.sqrt (heron p.2)) * diffAt u i (p.1.side 0) +
        (p.2.x2 + p.2.x0 - p.2.x1) / (2 * Real.sqrt (heron p.2)) * diffAt u i (p.1.side 1) +
        (p.2.x0 + p.2.x1 - p.2.x2) / (2 * Real.sqrt (heron p.2)) * diffAt u i (p.1.side 2))).sum) := by
  obtain ⟨k, h1, h2, h3⟩ := nOr_ok hne hn
  refine ⟨_, lap_eq h1 h2 (cot_some hl), rfl, fun j hj => (h3 j hj).symm, ?_, ?_, ?_⟩
  · intro i j
    rw [lap_get, lap_get]
    congr 1
    apply List.map_congr_left
    intro p _
    unfold lapFace; ring
  · intro i
    exact lap_row_sum F _ k h2 i
  · intro u i
    unfold Csr.mulVec
    simp only [lap_get]
    have e1 : ∀ j, ((F.zip (lsq.map cotRow)).map (lapFace i j)).sum * u j =
        ((F.zip (lsq.map cotRow)).map (fun p => u j * lapFace i j p)).sum := by
      intro j; rw [← mul_list_sum]; ring
    simp only [e1, list_sum_comm]
    rw [List.zip_map_right, List.map_map]
    congr 1
    apply List.map_congr_left
    intro p hp
    have ht := h2 _ (zip_mem_left hp)
    have hr : NonDeg p.2 := hl.2 _ (List.of_mem_zip (a := p.1) (b := p.2) hp).2
    have key : ∀ (c : ℝ) (e : Edge), e.s < k → e.t < k →
        ∑ j ∈ range k, u j * (c * inc i e * inc j e) = c * diffAt u i e := by
      intro c e hs ht
      have : ∀ j, u j * (c * inc i e * inc j e) = c * inc i e * (u j * inc j e) := by intro j; ring
      simp only [this]
      rw [← Finset.mul_sum, sum_range_inc k e hs ht u]
      unfold diffAt inc ind
      by_cases a1 : e.s = i <;> by_cases a2 : e.t = i <;> simp only [a1, a2, if_true, if_false] <;> ring
    have hw : ∀ x : ℝ, (0.25 : ℝ) * x / dblArea p.2 = x / (2 * Real.sqrt (heron p.2)) := by
      intro x
      rw [dblArea_eq _ ⟨hr.1, hr.2.1, hr.2.2.1⟩, max_eq_left hr.2.2.2.le, show (0.25 : ℝ) = 1 / 4 by norm_num]
      have := (Real.sqrt_pos.mpr hr.2.2.2).ne'
      field_simp; ring
    simp only [Function.comp, Prod.map, id, lapFace, mul_add, Finset.sum_add_distrib,
      key _ _ (tri_side_lt ht 0).1 (tri_side_lt ht 0).2, key _ _ (tri_side_lt ht 1).1 (tri_side_lt ht 1).2,
      key _ _ (tri_side_lt ht 2).1 (tri_side_lt ht 2).2]
    simp only [cotRow, hw]

/-- a right isosceles and an equilateral triangle -/
example : LsqNonDeg [⟨2, 1, 1⟩, ⟨2, 2, 2⟩] [⟨0, 1, 2⟩, ⟨2, 1, 3⟩] := by
  refine ⟨rfl, ?_⟩
  intro r hr
  simp at hr
  rcases hr with rfl | rfl <;> (refine ⟨?_, ?_, ?_, ?_⟩ <;> norm_num [heron])

/-- C10.  `dec_d0(F)^T @ dec_h1_intrinsic(l_sq,F) @ dec_d0(F) == cotangent_laplacian_intrinsic(l_sq,F)`, entry by entry. -/
theorem C10_dec_laplacian (lsq : List (Row3 ℝ)) (F : List Tri) (hne : F ≠ []) (hF : OrientedManifold F)
    (hl : LsqNonDeg lsq F) (n : Option ℕ) (hn : SizeOk n F) :
    ∃ D0 H1 L, decD0 ℝ F none n = some D0 ∧ decH1Intrinsic lsq F none = some H1 ∧
      cotangentLaplacianIntrinsic lsq F n = some L ∧ H1.nrows = D0.nrows ∧ H1.ncols = D0.nrows ∧ L.nrows = D0.ncols ∧
      L.ncols = D0.ncols ∧
      ∀ i j, ∑ e ∈ range D0.nrows, ∑ e' ∈ range D0.nrows, D0.get e i * H1.get e e' * D0.get e' j = L.get i j := by
  obtain ⟨k, h1, h2, _⟩ := nOr_ok hne hn
  have hC := cot_some hl
  have hb := EL_in_range h2
  have hd0 : decD0 ℝ F none n = some ⟨(EL F).length, k, (EL F).zipIdx.map (fun p => (p.2, p.1.s, (1 : ℝ))) ++
      (EL F).zipIdx.map (fun p => (p.2, p.1.t, (-1 : ℝ)))⟩ := by
    rw [← decD0_trip hb F]
    unfold decD0
    rw [halfedgeEdgeMap_eq hne hF]
    unfold nOr at h1
    cases n with
    | none => simp only [h1]; rfl
    | some n => cases h1; rfl
  refine ⟨_, _, _, hd0, by unfold decH1Intrinsic; rw [h1Diag_eq hne hF hC]; rfl, lap_eq h1 h2 hC, ?_, ?_, rfl, rfl, ?_⟩
  · simp [Csr.diags, EToHeL_length]
  · simp [Csr.diags, EToHeL_length]
  · intro i j
    rw [lap_get, ← sum_edges_inc hF (cot_length hC)]
    apply Finset.sum_congr rfl
    intro e he
    have he := Finset.mem_range.mp he
    simp only [d0_get hb]
    set d := (EToHeL F).map (fun p => cw (lsq.map cotRow) p.1 + if 0 ≤ p.2.1 then cw (lsq.map cotRow) p.2 else 0) with hd
    have hlen : d.length = (EL F).length := by simp [hd, EToHeL_length]
    have := diags_mul (d := d) (w := fun e' => (((EL F)[e']?).map (inc j)).getD 0) (e := e) (by rw [hlen]; exact he)
    rw [hlen] at this
    simp only [mul_assoc]
    rw [← Finset.mul_sum, this, hd, List.getElem?_map]
    cases (EToHeL F)[e]? with
    | none => simp
    | some p => simp; ring

/-- C11, intrinsic form: the Laplacian is positive semidefinite for every valid set of edge lengths. -/
theorem C11_laplacian_psd (lsq : List (Row3 ℝ)) (F : List Tri) (n : Option ℕ) (hne : F ≠ []) (hn : SizeOk n F)
    (hl : LsqNonDeg lsq F) :
    ∃ L, cotangentLaplacianIntrinsic lsq F n = some L ∧
      ∀ u : ℕ → ℝ, 0 ≤ ∑ i ∈ range L.nrows, ∑ j ∈ range L.ncols, u i * L.get i j * u j := by
  obtain ⟨k, h1, h2, h3⟩ := nOr_ok hne hn
  refine ⟨_, lap_eq h1 h2 (cot_some hl), ?_⟩
  intro u
  simp only
  rw [lap_form F _ k h2]
  apply List.sum_nonneg
  intro x hx
  obtain ⟨⟨t, c⟩, hp, rfl⟩ := List.mem_map.mp hx
  obtain ⟨r, hr, rfl⟩ := List.mem_map.mp (List.of_mem_zip hp).2
  exact cot_energy_nonneg (hl.2 r hr) (u t.a) (u t.b) (u t.c)

/-- The three corners of `t` are not collinear. -/
def PosArea (V : List (V3 ℝ)) (t : Tri) : Prop :=
  V3.cross (V.getD t.b 0 - V.getD t.a 0) (V.getD t.c 0 - V.getD t.a 0) ≠ 0

/-- Area of the triangle `t`: half the length of the cross product of two edges. -/
noncomputable def triArea (V : List (V3 ℝ)) (t : Tri) : ℝ :=
  Real.sqrt (V3.normSq (V3.cross (V.getD t.b 0 - V.getD t.a 0) (V.getD t.c 0 - V.getD t.a 0))) / 2

theorem posArea_normSq {V : List (V3 ℝ)} {t : Tri} (h : PosArea V t) :
    0 < V3.normSq (V3.cross (V.getD t.c 0 - V.getD t.b 0) (V.getD t.a 0 - V.getD t.c 0)) := by
  rw [cross_cyc]
  refine lt_of_le_of_ne (V3.normSq_nonneg _) ?_
  intro h0
  apply h
  obtain ⟨h1, h2, h3⟩ := V3.eq_zero_of_normSq h0.symm
  exact V3.ext h1 h2 h3

/-- C11, extrinsic form: `L = Gᵀ A G` entrywise, with `G = grad(V,F)`, `L = cotangent_laplacian(V,F)` and `A` the triangle
areas repeated for the three coordinates; and `uᵀ L u` is the Dirichlet energy, hence nonnegative. -/
theorem C11_laplacian_is_GtAG (V : List (V3 ℝ)) (F : List Tri) (hne : F ≠ []) (hF : InRange F V.length)
    (hA : ∀ t ∈ F, PosArea V t) :
    ∃ L G, cotangentLaplacian V F = some L ∧ grad V F = some G ∧ L.nrows = V.length ∧ L.ncols = V.length ∧
      G.nrows = 3 * F.length ∧ G.ncols = V.length ∧
      (∀ i j, L.get i j = ∑ k ∈ range 3, ∑ f ∈ range F.length,
        G.get (k * F.length + f) i * ((F[f]?).map (triArea V)).getD 0 * G.get (k * F.length + f) j) ∧
      (∀ u : ℕ → ℝ, ∑ i ∈ range V.length, ∑ j ∈ range V.length, u i * L.get i j * u j =
          ∑ f ∈ range F.length, ((F[f]?).map (triArea V)).getD 0 * ∑ k ∈ range 3, (G.mulVec u (k * F.length + f)) ^ 2) ∧
      (∀ u : ℕ → ℝ, 0 ≤ ∑ i ∈ range V.length, ∑ j ∈ range V.length, u i * L.get i j * u j) := by
  have hg2 : ∀ t ∈ F, (gT V t).2 ≠ 0 := by
    intro t ht
    exact (Real.sqrt_pos.mpr (posArea_normSq (hA t ht))).ne'
  set lsq := F.map (fun t => lens (V.getD t.a 0) (V.getD t.b 0) (V.getD t.c 0)) with hlsq
  have hl : LsqNonDeg lsq F := by
    refine ⟨by simp [hlsq], ?_⟩
    intro r hr
    obtain ⟨t, ht, rfl⟩ := List.mem_map.mp hr
    exact nonDeg_lens (posArea_normSq (hA t ht))
  have hzip : F.zip (lsq.map cotRow) = F.map (fun t => (t, cotRow (lens (V.getD t.a 0) (V.getD t.b 0) (V.getD t.c 0)))) := by
    rw [hlsq, List.map_map]
    apply List.ext_getElem
    · simp
    · intro i _ _; simp
  have harea : ∀ f (hf : f < F.length), ((F[f]?).map (triArea V)).getD 0 =
      1 / 2 * (V3.cross (V.getD F[f].c 0 - V.getD F[f].b 0) (V.getD F[f].a 0 - V.getD F[f].c 0)).norm := by
    intro f hf
    rw [List.getElem?_eq_getElem hf]
    simp only [Option.map_some, Option.getD_some, triArea, cross_cyc, V3.norm]; ring
  have hsum : ∀ g : Tri → ℝ, (F.map g).sum = ∑ f ∈ range F.length, ((F[f]?).map g).getD 0 := by
    intro g
    have := sum_map_zipIdx_eq_range F (fun t _ => g t)
    rw [← this]
    congr 1
    apply List.ext_getElem <;> simp
  have hB : ∀ u : ℕ → ℝ, ∑ i ∈ range V.length, ∑ j ∈ range V.length,
      u i * (⟨V.length, V.length, lapTrip F (lsq.map cotRow)⟩ : Csr ℝ).get i j * u j =
          ∑ f ∈ range F.length, ((F[f]?).map (triArea V)).getD 0 *
            ∑ k ∈ range 3, ((⟨3 * F.length, V.length, gradTrip V F⟩ : Csr ℝ).mulVec u (k * F.length + f)) ^ 2 := by
    intro u
    rw [lap_form F _ _ hF, hzip, List.map_map, hsum]
    apply Finset.sum_congr rfl
    intro f hf
    have hf := Finset.mem_range.mp hf
    rw [harea f hf, List.getElem?_eq_getElem hf]
    simp only [Option.map_some, Option.getD_some, Function.comp, Tri.side]
    rw [tri_energy (posArea_normSq (hA _ (List.getElem_mem hf)))]
    simp only [Finset.sum_range_succ, Finset.sum_range_zero, zero_add]
    rw [grad_mulVec hF u (by omega : 0 < 3) hf, grad_mulVec hF u (by omega : 1 < 3) hf, grad_mulVec hF u (by omega : 2 < 3) hf]
    simp only [V3.dot, V3.comp]; ring
  refine ⟨_, _, by unfold cotangentLaplacian; rw [hls_some hne hF]; exact lap_eq (n := some V.length) rfl hF (cot_some hl), grad_eq hF hg2,
    rfl, rfl, rfl, rfl, ?_, hB, ?_⟩
  · intro i j
    rw [lap_get, hzip, List.map_map, hsum, Finset.sum_comm]
    apply Finset.sum_congr rfl
    intro f hf
    have hf := Finset.mem_range.mp hf
    have hG : ∀ k i, (⟨3 * F.length, V.length, gradTrip V F⟩ : Csr ℝ).get k i =
        (⟨3 * F.length, V.length, gradTrip V F⟩ : Csr ℝ).mulVec (fun j => if j = i then 1 else 0) k :=
      fun k i => (mulVec_single _ k i (grad_wf hF)).symm
    simp only [hG]
    rw [harea f hf, List.getElem?_eq_getElem hf]
    simp only [Option.map_some, Option.getD_some, Function.comp]
    have te := tri_energy (posArea_normSq (hA _ (List.getElem_mem hf))) (ind F[f].a i) (ind F[f].b i) (ind F[f].c i)
      (ind F[f].a j) (ind F[f].b j) (ind F[f].c j)
    simp only [lapFace, inc, Tri.side]
    rw [te]
    simp only [Finset.sum_range_succ, Finset.sum_range_zero, zero_add]
    rw [grad_mulVec hF _ (by omega : 0 < 3) hf, grad_mulVec hF _ (by omega : 1 < 3) hf, grad_mulVec hF _ (by omega : 2 < 3) hf,
      grad_mulVec hF _ (by omega : 0 < 3) hf, grad_mulVec hF _ (by omega : 1 < 3) hf, grad_mulVec hF _ (by omega : 2 < 3) hf]
    simp only [V3.dot, V3.comp, ind]; ring
  · intro u
    have := hB u
    rw [this]
    apply Finset.sum_nonneg
    intro f hf
    apply mul_nonneg
    · rw [harea f (Finset.mem_range.mp hf)]
      have := V3.norm_nonneg (V3.cross (V.getD (F[f]'(Finset.mem_range.mp hf)).c 0 - V.getD (F[f]'(Finset.mem_range.mp hf)).b 0) (V.getD (F[f]'(Finset.mem_range.mp hf)).a 0 - V.getD (F[f]'(Finset.mem_range.mp hf)).c 0))
      linarith
    · exact Finset.sum_nonneg (fun k _ => sq_nonneg _)

/-- a tetrahedron-like pair of triangles in space meets the hypotheses -/
example : let V : List (V3 ℝ) := [⟨0, 0, 0⟩, ⟨1, 0, 0⟩, ⟨0, 1, 0⟩, ⟨0, 0, 1⟩]
    let F : List Tri := [⟨0, 1, 2⟩, ⟨2, 1, 3⟩]
    InRange F V.length ∧ ∀ t ∈ F, PosArea V t := by
  refine ⟨by simp [InRange], ?_⟩
  intro t ht
  simp at ht
  rcases ht with rfl | rfl <;> (intro h; have := congrArg V3.z h; simp [V3.cross] at this)

/-- C37.  `grad(V,F)` applied to the samples of an affine function `x ↦ ⟨a,x⟩ + c` is, on each triangle, the projection of
`a` to the plane of the triangle: the unique vector `g` orthogonal to the normal such that `a - g` is a multiple of it. -/
theorem C37_grad_affine (V : List (V3 ℝ)) (F : List Tri) (hF : InRange F V.length)
    (hA : ∀ t ∈ F, PosArea V t) (a : V3 ℝ) (c : ℝ) :
    ∃ G, grad V F = some G ∧ G.nrows = 3 * F.length ∧ G.ncols = V.length ∧
      ∀ f t, F[f]? = some t →
        let u : ℕ → ℝ := fun i => V3.dot a (V.getD i 0) + c
        let g : V3 ℝ := ⟨G.mulVec u f, G.mulVec u (F.length + f), G.mulVec u (2 * F.length + f)⟩
        let n := V3.cross (V.getD t.b 0 - V.getD t.a 0) (V.getD t.c 0 - V.getD t.a 0)
        V3.dot g n = 0 ∧ ∃ s : ℝ, a - g = s • n := by
  have hg2 : ∀ t ∈ F, (gT V t).2 ≠ 0 := by
    intro t ht
    exact (Real.sqrt_pos.mpr (posArea_normSq (hA t ht))).ne'
  refine ⟨_, grad_eq hF hg2, rfl, rfl, ?_⟩
  intro f t hf u
  obtain ⟨hlt, rfl⟩ := List.getElem?_eq_some_iff.mp hf
  have k0 := grad_mulVec hF u (by omega : 0 < 3) hlt
  have k1 := grad_mulVec hF u (by omega : 1 < 3) hlt
  have k2 := grad_mulVec hF u (by omega : 2 < 3) hlt
  rw [Nat.zero_mul, Nat.zero_add] at k0
  rw [Nat.one_mul] at k1
  intro g n
  have hn := posArea_normSq (hA _ (List.getElem_mem hlt))
  obtain ⟨_, _, _, g1, g2⟩ := gradTri_eq (V.getD F[f].a 0) (V.getD F[f].b 0) (V.getD F[f].c 0) (hg2 _ (List.getElem_mem hlt))
  rw [cross_cyc] at hn g1 g2
  change 0 < V3.normSq n at hn
  have hg : g = triGrad (V.getD F[f].a 0) (V.getD F[f].b 0) (V.getD F[f].c 0) (u F[f].a) (u F[f].b) (u F[f].c) := by
    apply V3.ext
    · exact k0
    · exact k1
    · exact k2
  rw [hg]
  unfold triGrad
  simp only [g1, g2]
  simp only [u]
  change V3.dot _ n = 0 ∧ _
  have hdef : n = V3.cross (V.getD F[f].b 0 - V.getD F[f].a 0) (V.getD F[f].c 0 - V.getD F[f].a 0) := rfl
  change 0 < V3.normSq n at hn
  rw [← hdef]
  clear_value n
  clear hg k0 k1 k2 g1 g2
  clear g
  generalize V.getD F[f].a 0 = A at *
  generalize V.getD F[f].b 0 = B at *
  generalize V.getD F[f].c 0 = C at *
  refine ⟨?_, V3.dot a n / V3.normSq n, ?_⟩
  · simp only [V3.dot, V3.cross, V3.add_x, V3.add_y, V3.add_z, V3.smul_x, V3.smul_y, V3.smul_z]; ring
  · have hne := hn.ne'
    have main : V3.normSq n • a = (V3.dot a n) • n + (V3.dot a (B - A)) • V3.cross n (A - C) +
        (V3.dot a (C - A)) • V3.cross n (B - A) := by
      apply V3.ext <;>
        simp only [hdef, V3.normSq, V3.dot, V3.cross, V3.add_x, V3.add_y, V3.add_z, V3.smul_x, V3.smul_y, V3.smul_z,
          V3.sub_x, V3.sub_y, V3.sub_z] <;> ring
    have lin1 : V3.dot a B + c - (V3.dot a A + c) = V3.dot a (B - A) := by
      simp only [V3.dot, V3.sub_x, V3.sub_y, V3.sub_z]; ring
    have lin2 : V3.dot a C + c - (V3.dot a A + c) = V3.dot a (C - A) := by
      simp only [V3.dot, V3.sub_x, V3.sub_y, V3.sub_z]; ring
    rw [lin1, lin2]
    change a - (V3.dot a (B - A) • (1 / V3.normSq n) • V3.cross n (A - C) +
      V3.dot a (C - A) • (1 / V3.normSq n) • V3.cross n (B - A)) = _
    generalize V3.dot a (B - A) = p at *
    generalize V3.dot a (C - A) = q at *
    generalize V3.dot a n = r at *
    generalize V3.normSq n = N at *
    have mx := congrArg V3.x main
    have my := congrArg V3.y main
    have mz := congrArg V3.z main
    simp only [V3.add_x, V3.add_y, V3.add_z, V3.smul_x, V3.smul_y, V3.smul_z] at mx my mz
    apply V3.ext
    · simp only [V3.add_x, V3.sub_x, V3.smul_x]; field_simp; linarith
    · simp only [V3.add_y, V3.sub_y, V3.smul_y]; field_simp; linarith
    · simp only [V3.add_z, V3.sub_z, V3.smul_z]; field_simp; linarith

end Gpy
