import Verif.Model.GradIntrinsic
import Verif.Proofs.Elasticity2

/-! C92: `grad_intrinsic`. -/

set_option autoImplicit false
namespace Gpy
open Np Finset

variable {lsq : List (Row3 ℝ)} {F : List Tri}

/-- Specification: the value of row `i` of the matrix times the vector `u`. -/
def Mat.app (G : Mat) (u : ℕ → ℝ) (i : ℕ) : ℝ := ∑ j ∈ range G.ncols, G.get i j * u j

/-- Specification: the corners `p`, `q`, `s` of a triangle in the plane have the squared distances `r` (opposite to the corners 0, 1, 2), are in counterclockwise order, and the edge from corner 1 to corner 2 starts in the origin and runs along the first axis. -/
structure IsLayout (r : Row3 ℝ) (p q s : Pt 2) : Prop where
  d0 : (s 0 - q 0) ^ 2 + (s 1 - q 1) ^ 2 = r.x0
  d1 : (p 0 - s 0) ^ 2 + (p 1 - s 1) ^ 2 = r.x1
  d2 : (q 0 - p 0) ^ 2 + (q 1 - p 1) ^ 2 = r.x2
  ccw : 0 < (q 0 - p 0) * (s 1 - p 1) - (q 1 - p 1) * (s 0 - p 0)
  q0 : q 0 = 0
  q1 : q 1 = 0
  s0 : 0 < s 0
  s1 : s 1 = 0

theorem heron_pos0 {r : Row3 ℝ} (h : NonDeg r) : 0 < r.x0 := by
  obtain ⟨h0, h1, h2, h3⟩ := h
  rcases h0.lt_or_eq with h0 | h0
  · exact h0
  · unfold heron at h3
    rw [← h0] at h3
    nlinarith [sq_nonneg (r.x1 - r.x2)]

theorem layoutTri_ok {r : Row3 ℝ} (h : NonDeg r) : ∃ x y l, layoutTri r = some (x, y, l) ∧ IsLayout r ![x, y] ![0, 0] ![l, 0] := by
  have hx := heron_pos0 h
  have hl : 0 < Real.sqrt r.x0 := Real.sqrt_pos.mpr hx
  have hs := Real.sq_sqrt hx.le
  set l := Real.sqrt r.x0 with hl'
  set gx := (r.x1 - r.x0 - r.x2) / (-2 * l) with hg
  have hgl : gx * l = (r.x0 + r.x2 - r.x1) / 2 := by rw [hg]; field_simp; ring
  have hpos : 0 < r.x2 - gx ^ 2 := by
    have h1 : (r.x2 - gx ^ 2) * r.x0 = heron r / 4 := by
      have : gx ^ 2 * r.x0 = ((r.x0 + r.x2 - r.x1) / 2) ^ 2 := by rw [← hgl, ← hs]; ring
      rw [sub_mul, this]; unfold heron; ring
    have h2 : 0 < (r.x2 - gx ^ 2) * r.x0 := by rw [h1]; linarith [h.2.2.2]
    exact pos_of_mul_pos_left h2 hx.le
  have hyy := Real.sq_sqrt hpos.le
  have hy := Real.sqrt_pos.mpr hpos
  refine ⟨gx, Real.sqrt (r.x2 - gx ^ 2), l, ?_, ?_⟩
  · unfold layoutTri
    simp only [← hl', ← hg]
    rw [if_neg (by push Not; exact ⟨hl.ne', hpos.le⟩)]
  · constructor <;> simp only [Matrix.cons_val_zero, Matrix.cons_val_one, Matrix.cons_val_fin_one]
    · rw [← hs]; ring
    · have : (gx - l) ^ 2 + (Real.sqrt (r.x2 - gx ^ 2) - 0) ^ 2 = gx ^ 2 - 2 * (gx * l) + l ^ 2 + Real.sqrt (r.x2 - gx ^ 2) ^ 2 := by ring
      rw [this, hyy, hgl, hs]; ring
    · have : (0 - gx) ^ 2 + (0 - Real.sqrt (r.x2 - gx ^ 2)) ^ 2 = gx ^ 2 + Real.sqrt (r.x2 - gx ^ 2) ^ 2 := by ring
      rw [this, hyy]; ring
    · have : (0 - gx) * (0 - Real.sqrt (r.x2 - gx ^ 2)) - (0 - Real.sqrt (r.x2 - gx ^ 2)) * (l - gx) = Real.sqrt (r.x2 - gx ^ 2) * l := by ring
      rw [this]; positivity
    · exact hl

theorem zip3_flat (F : List Tri) (m k : ℕ) :
    zip3 (ravelTri ((List.range' k F.length).map (fun f => (⟨f, m + f, 2 * m + f⟩ : Tri)))) (ravelTri F) (List.replicate (3 * F.length) (1 : ℝ)) =
      (F.zipIdx k).flatMap (fun p => [(p.2, p.1.a, 1), (m + p.2, p.1.b, 1), (2 * m + p.2, p.1.c, 1)]) := by
  induction F generalizing k with
  | nil => rfl
  | cons t F ih =>
    have := ih (k + 1)
    simp only [List.length_cons, List.range'_succ, List.map_cons, ravelTri, List.flatMap_cons, List.zipIdx_cons, Nat.mul_add, Nat.mul_one, List.replicate_add] at this ⊢
    rw [← this]
    rw [show List.replicate (3 * F.length) (1 : ℝ) ++ List.replicate 3 1 = [1, 1, 1] ++ List.replicate (3 * F.length) 1 by
      rw [← List.replicate_add, Nat.add_comm, List.replicate_add]; rfl]
    rfl

theorem layoutF_eq (m : ℕ) : layoutF m = (List.range' 0 m).map (fun f => (⟨f, m + f, 2 * m + f⟩ : Tri)) := by
  unfold layoutF; rw [List.range_eq_range']

theorem sum_flat (F : List Tri) (k : ℕ) (g h : Tri × ℕ → ℝ) (w : Tri × ℕ → ℝ) (φ : ℕ × ℕ × ℝ → ℝ) (a b c : Tri × ℕ → ℕ × ℕ × ℝ)
    (ha : ∀ p, φ (a p) = g p) (hb : ∀ p, φ (b p) = h p) (hc : ∀ p, φ (c p) = w p) :
    (((F.zipIdx k).flatMap (fun p => [a p, b p, c p])).map φ).sum = ((F.zipIdx k).map (fun p => g p + h p + w p)).sum := by
  generalize F.zipIdx k = L
  induction L with
  | nil => rfl
  | cons p L ih =>
    simp only [List.flatMap_cons, List.map_append, List.sum_append, List.map_cons, List.sum_cons, List.map_nil, List.sum_nil, ih, ha, hb, hc]
    ring

theorem sum_zipIdx_single (F : List Tri) (f : ℕ) (hf : f < F.length) (g : Tri → ℝ) : ((F.zipIdx).map (fun p => if p.2 = f then g p.1 else 0)).sum = g F[f] := by
  have key : ∀ (F : List Tri) (k f : ℕ) (hf : f < F.length), ((F.zipIdx k).map (fun p => if p.2 = k + f then g p.1 else 0)).sum = g F[f] := by
    intro F
    induction F with
    | nil => intro k f hf; simp at hf
    | cons t F ih =>
      intro k f hf
      simp only [List.zipIdx_cons, List.map_cons, List.sum_cons]
      cases f with
      | zero =>
        simp only [Nat.add_zero, if_true, List.getElem_cons_zero]
        have : ((F.zipIdx (k + 1)).map (fun p => if p.2 = k then g p.1 else 0)).sum = 0 := by
          apply List.sum_eq_zero
          intro x hx
          obtain ⟨p, hp, rfl⟩ := List.mem_map.mp hx
          have := List.le_snd_of_mem_zipIdx hp
          rw [if_neg (by omega)]
        rw [this, add_zero]
      | succ f =>
        rw [if_neg (by omega), zero_add, List.getElem_cons_succ, ← ih (k + 1) f (by simpa using hf)]
        congr 1
        apply List.map_congr_left
        intro p _
        rw [show k + 1 + f = k + (f + 1) by omega]
  have := key F 0 f hf
  simpa using this

/-- the selection matrix `P` -/
theorem selection_ok {n : ℕ} (hF : InRange F n) : ∃ P, csrMatrix (List.replicate (3 * F.length) (1 : ℝ)) (ravelTri (layoutF F.length)) (ravelTri F) (3 * F.length) n = some P ∧
    P.ncols = n ∧ ∀ (u : ℕ → ℝ) (f : ℕ) (hf : f < F.length), P.mulVec u f = u F[f].a ∧ P.mulVec u (F.length + f) = u F[f].b ∧ P.mulVec u (2 * F.length + f) = u F[f].c := by
  have hlen : ∀ G : List Tri, (ravelTri G).length = 3 * G.length := by
    intro G
    induction G with
    | nil => rfl
    | cons t G ih => simp only [ravelTri, List.flatMap_cons, List.length_append, List.length_cons] at ih ⊢; simp only [List.length_nil]; omega
  have hex : csrMatrix (List.replicate (3 * F.length) (1 : ℝ)) (ravelTri (layoutF F.length)) (ravelTri F) (3 * F.length) n =
      some ⟨3 * F.length, n, zip3 (ravelTri (layoutF F.length)) (ravelTri F) (List.replicate (3 * F.length) (1 : ℝ))⟩ := by
    unfold csrMatrix
    rw [if_pos]
    refine ⟨by rw [hlen]; simp [layoutF], by rw [hlen]; simp, ?_, ?_⟩
    · intro i hi
      simp only [ravelTri, layoutF, List.mem_flatMap, List.mem_map, List.mem_range] at hi
      obtain ⟨t, ⟨f, hf, rfl⟩, hi⟩ := hi
      simp only [List.mem_cons, List.not_mem_nil, or_false] at hi
      omega
    · intro j hj
      obtain ⟨t, ht, hj⟩ := List.mem_flatMap.mp hj
      have := hF t ht
      simp only [List.mem_cons, List.not_mem_nil, or_false] at hj
      rcases hj with rfl | rfl | rfl
      · exact this.1
      · exact this.2.1
      · exact this.2.2
  obtain ⟨w, r, c, ht⟩ := csrMatrix_wf hex
  refine ⟨_, hex, rfl, fun u f hf => ?_⟩
  have hzip : zip3 (ravelTri (layoutF F.length)) (ravelTri F) (List.replicate (3 * F.length) (1 : ℝ)) =
      (F.zipIdx 0).flatMap (fun p => [(p.2, p.1.a, 1), (F.length + p.2, p.1.b, 1), (2 * F.length + p.2, p.1.c, 1)]) := by
    rw [layoutF_eq, zip3_flat]
  have hmv : ∀ i, (⟨3 * F.length, n, zip3 (ravelTri (layoutF F.length)) (ravelTri F) (List.replicate (3 * F.length) (1 : ℝ))⟩ : Csr ℝ).mulVec u i =
      ((F.zipIdx 0).map (fun p => (if p.2 = i then u p.1.a else 0) + (if F.length + p.2 = i then u p.1.b else 0) + (if 2 * F.length + p.2 = i then u p.1.c else 0))).sum := by
    intro i
    rw [mulVec_eq _ w, hzip]
    exact sum_flat F 0 _ _ _ _ _ _ _ (fun p => by simp) (fun p => by simp) (fun p => by simp)
  have hlt : ∀ p ∈ F.zipIdx 0, p.2 < F.length := by
    intro p hp
    have := List.snd_lt_of_mem_zipIdx hp
    simpa using this
  refine ⟨?_, ?_, ?_⟩
  · rw [hmv, ← sum_zipIdx_single F f hf (fun t => u t.a)]
    congr 1
    refine List.map_congr_left (fun p hp => ?_)
    have := hlt p hp
    rw [if_neg (by omega : ¬ F.length + p.2 = f), if_neg (by omega : ¬ 2 * F.length + p.2 = f)]; simp
  · rw [hmv, ← sum_zipIdx_single F f hf (fun t => u t.b)]
    congr 1
    refine List.map_congr_left (fun p hp => ?_)
    have := hlt p hp
    rw [if_neg (by omega : ¬ p.2 = F.length + f), if_neg (by omega : ¬ 2 * F.length + p.2 = F.length + f)]; simp
  · rw [hmv, ← sum_zipIdx_single F f hf (fun t => u t.c)]
    congr 1
    refine List.map_congr_left (fun p hp => ?_)
    have := hlt p hp
    rw [if_neg (by omega : ¬ p.2 = 2 * F.length + f), if_neg (by omega : ¬ F.length + p.2 = 2 * F.length + f)]; simp

theorem layouts_ok (hl : ∀ r ∈ lsq, NonDeg r) : ∃ L, lsq.mapM layoutTri = some L ∧ L.length = lsq.length ∧
    ∀ (f : ℕ) (r : Row3 ℝ) (x : ℝ × ℝ × ℝ), lsq[f]? = some r → L[f]? = some x → IsLayout r ![x.1, x.2.1] ![0, 0] ![x.2.2, 0] := by
  induction lsq with
  | nil => exact ⟨[], rfl, rfl, fun f r x h => by simp at h⟩
  | cons r lsq ih =>
    obtain ⟨L, e, hlen, h⟩ := ih (fun r' hr => hl r' (List.mem_cons_of_mem _ hr))
    obtain ⟨x, y, l, e', h'⟩ := layoutTri_ok (hl r List.mem_cons_self)
    refine ⟨(x, y, l) :: L, by simp [e, e'], by simp [hlen], fun f r' z h1 h2 => ?_⟩
    cases f with
    | zero =>
      simp only [List.getElem?_cons_zero, Option.some.injEq] at h1 h2
      subst h1 h2
      exact h'
    | succ f => exact h f r' z (by simpa using h1) (by simpa using h2)

/-- **C92** `grad_intrinsic(l_sq,F,n)` works whenever every row of `l_sq` belongs to a triangle of positive area, and gives the gradient of the linear interpolation of `u` on each triangle after that triangle has been laid out in the plane:
the layout has the given edge lengths, is counterclockwise, and its edge from corner 1 to corner 2 runs along the first axis. -/
theorem C92_layout (hne : F ≠ []) (n : Option ℕ) (hn : SizeOk n F) (hl : LsqNonDeg lsq F) :
    ∃ G, gradIntrinsic lsq F n = some G ∧ G.nrows = 2 * F.length ∧ nOr n F = some G.ncols ∧
      ∀ (f : ℕ) (t : Tri) (r : Row3 ℝ), F[f]? = some t → lsq[f]? = some r → ∃ p q s, IsLayout r p q s ∧ ∀ u : ℕ → ℝ,
        u t.b - u t.a = G.app u f * (q 0 - p 0) + G.app u (F.length + f) * (q 1 - p 1) ∧
        u t.c - u t.a = G.app u f * (s 0 - p 0) + G.app u (F.length + f) * (s 1 - p 1) := by
  obtain ⟨k, hk, hin, _⟩ := nOr_ok hne hn
  obtain ⟨L, hL, hLlen, hlay⟩ := layouts_ok hl.2
  obtain ⟨P, hP, cP, hPv⟩ := selection_ok hin
  have hLm : L.length = F.length := by rw [hLlen, hl.1]
  have hVl : (layoutV L).length = 3 * F.length := by simp [layoutV, hLm]; omega
  have hin2 : InRange (layoutF F.length) (layoutV L).length := by
    intro t ht
    obtain ⟨f, hf, rfl⟩ := List.mem_map.mp ht
    have := List.mem_range.mp hf
    simp only [hVl]
    omega
  have hget : ∀ f < F.length, ∃ x, L[f]? = some x ∧ (layoutV L).getD f 0 = ![x.1, x.2.1] ∧ (layoutV L).getD (F.length + f) 0 = ![0, 0] ∧ (layoutV L).getD (2 * F.length + f) 0 = ![x.2.2, 0] := by
    intro f hf
    have hf' : f < L.length := by omega
    refine ⟨L[f], List.getElem?_eq_getElem hf', ?_, ?_, ?_⟩
    · unfold layoutV
      rw [List.getD_eq_getElem?_getD, List.append_assoc, List.getElem?_append_left (by simpa using hf'), List.getElem?_map, List.getElem?_eq_getElem hf']
      rfl
    · unfold layoutV
      rw [List.getD_eq_getElem?_getD, List.append_assoc, List.getElem?_append_right (by simp; omega), List.getElem?_append_left (by simp; omega), List.getElem?_map, List.length_map,
        show F.length + f - L.length = f by omega, List.getElem?_eq_getElem hf']
      rfl
    · unfold layoutV
      rw [List.getD_eq_getElem?_getD, List.getElem?_append_right (by simp; omega), List.getElem?_map, List.length_append, List.length_map, List.length_map,
        show 2 * F.length + f - (L.length + L.length) = f by omega, List.getElem?_eq_getElem hf']
      rfl
  have hlsq : ∀ f < F.length, ∃ r, lsq[f]? = some r := fun f hf => ⟨lsq[f]'(by rw [hl.1]; exact hf), List.getElem?_eq_getElem _⟩
  have hw : ∀ t ∈ layoutF F.length, wedge2 (layoutV L) t ≠ 0 := by
    intro t ht
    obtain ⟨f, hf, rfl⟩ := List.mem_map.mp ht
    have hf := List.mem_range.mp hf
    obtain ⟨x, hx, e1, e2, e3⟩ := hget f hf
    obtain ⟨r, hr⟩ := hlsq f hf
    have := (hlay f r x hr hx).ccw
    unfold wedge2
    simp only [e1, e2, e3]
    exact this.ne'
  obtain ⟨G3, eG, wG, rG, cG, hG⟩ := padGrad hin2 hw
  have hFl : (layoutF F.length).length = F.length := by simp [layoutF]
  rw [hFl] at rG hG
  obtain ⟨_, r2, c2, h2⟩ := csrRows_spec wG (a := 0) (b := 2 * F.length) (by omega)
  have hnn : ∀ r ∈ lsq, 0 ≤ r.x0 ∧ 0 ≤ r.x1 ∧ 0 ≤ r.x2 := fun r hr => ⟨(hl.2 r hr).1, (hl.2 r hr).2.1, (hl.2 r hr).2.2.1⟩
  refine ⟨⟨2 * F.length, k, mulE (csrRows G3 0 (2 * F.length)).ncols (csrRows G3 0 (2 * F.length)).get P.get⟩, ?_, rfl, hk, fun f t r hf hr => ?_⟩
  · unfold gradIntrinsic
    rw [if_pos ⟨hl.1, hnn⟩, hk, hL]
    simp only [Option.bind_eq_bind, Option.bind_some]
    unfold grad2d
    rw [eG, hP]
    simp only [Option.map_some, Option.bind_some, hFl, r2, cP]
    congr 1
  · obtain ⟨hlt, rfl⟩ := List.getElem?_eq_some_iff.mp hf
    obtain ⟨x, hx, e1, e2, e3⟩ := hget f hlt
    refine ⟨![x.1, x.2.1], ![0, 0], ![x.2.2, 0], hlay f r x hr hx, fun u => ?_⟩
    have happ : ∀ i, i < 2 * F.length → Mat.app ⟨2 * F.length, k, mulE (csrRows G3 0 (2 * F.length)).ncols (csrRows G3 0 (2 * F.length)).get P.get⟩ u i = G3.mulVec (fun l => P.mulVec u l) i := by
      intro i hi
      unfold Mat.app
      simp only
      rw [mulE_apply]
      have := h2 (fun l => P.mulVec u l) i (by omega)
      rw [Nat.zero_add] at this
      rw [← this]
      unfold Csr.mulVec
      rw [cP]
    rw [happ f (by omega), happ (F.length + f) (by omega)]
    have ht : (layoutF F.length)[f]? = some ⟨f, F.length + f, 2 * F.length + f⟩ := by
      simp [layoutF, List.getElem?_range hlt]
    obtain ⟨g0, g1⟩ := hG (fun l => P.mulVec u l) f _ ht
    rw [g0, g1]
    have hmem : (⟨f, F.length + f, 2 * F.length + f⟩ : Tri) ∈ layoutF F.length := List.mem_of_getElem? ht
    have := grad2_is (hw _ hmem) (fun l => P.mulVec u l)
    unfold IsTriGrad at this
    simp only [e1, e2, e3] at this
    obtain ⟨p1, p2, p3⟩ := hPv u f hlt
    rw [p1, p2, p3] at this
    exact this

/-- Specification: the inner product of the gradients of two functions in terms of the squared edge lengths and the differences of the values along the edges from corner 0. -/
noncomputable def gradInner (r : Row3 ℝ) (u1 u2 w1 w2 : ℝ) : ℝ := (u1 * w1 * r.x1 - (u1 * w2 + u2 * w1) * ((r.x1 + r.x2 - r.x0) / 2) + u2 * w2 * r.x2) * 4 / heron r

theorem layout_inner {r : Row3 ℝ} {p q s : Pt 2} (h : IsLayout r p q s) {g0 g1 k0 k1 u1 u2 w1 w2 : ℝ} (hu1 : u1 = g0 * (q 0 - p 0) + g1 * (q 1 - p 1)) (hu2 : u2 = g0 * (s 0 - p 0) + g1 * (s 1 - p 1))
    (hw1 : w1 = k0 * (q 0 - p 0) + k1 * (q 1 - p 1)) (hw2 : w2 = k0 * (s 0 - p 0) + k1 * (s 1 - p 1)) : g0 * k0 + g1 * k1 = gradInner r u1 u2 w1 w2 := by
  obtain ⟨d0, d1, d2, ccw, _, _, _, _⟩ := h
  have hh : heron r = 4 * ((q 0 - p 0) * (s 1 - p 1) - (q 1 - p 1) * (s 0 - p 0)) ^ 2 := by
    unfold heron; rw [← d0, ← d1, ← d2]; ring
  have hpos : 0 < heron r := by rw [hh]; positivity
  unfold gradInner
  rw [eq_div_iff hpos.ne', hh, hu1, hu2, hw1, hw2, ← d0, ← d1, ← d2]
  ring

theorem triGrad_inner {a b c : V3 ℝ} (h : (gradTri a b c).2 ≠ 0) (ua ub uc wa wb wc : ℝ) :
    V3.dot (triGrad a b c ua ub uc) (triGrad a b c wa wb wc) = gradInner (lens a b c) (ub - ua) (uc - ua) (wb - wa) (wc - wa) := by
  obtain ⟨hN, _, _, e1, e2⟩ := gradTri_eq a b c h
  set n := V3.cross (c - b) (a - c) with hn
  have hcross : ∀ x y : V3 ℝ, V3.dot n x = 0 → V3.dot (V3.cross n x) (V3.cross n y) = V3.normSq n * V3.dot x y := by
    intro x y hx
    have : V3.dot (V3.cross n x) (V3.cross n y) = V3.normSq n * V3.dot x y - V3.dot n x * V3.dot n y := by
      simp only [V3.dot, V3.cross, V3.normSq]; ring
    rw [this, hx]; ring
  have p1 : V3.dot n (a - c) = 0 := by simp only [hn, V3.dot, V3.cross, V3.sub_x, V3.sub_y, V3.sub_z]; ring
  have p2 : V3.dot n (b - a) = 0 := by simp only [hn, V3.dot, V3.cross, V3.sub_x, V3.sub_y, V3.sub_z]; ring
  have lin : ∀ (x y : V3 ℝ) (s t s' t' : ℝ), V3.dot (s • x + t • y) (s' • x + t' • y) = s * s' * V3.dot x x + s * t' * V3.dot x y + t * s' * V3.dot y x + t * t' * V3.dot y y := by
    intro x y s t s' t'
    simp only [V3.dot, V3.add_x, V3.add_y, V3.add_z, V3.smul_x, V3.smul_y, V3.smul_z]; ring
  have sm : ∀ (x y : V3 ℝ) (s : ℝ), V3.dot (s • x) (s • y) = s ^ 2 * V3.dot x y := by
    intro x y s
    simp only [V3.dot, V3.smul_x, V3.smul_y, V3.smul_z]; ring
  unfold triGrad
  simp only [e1, e2]
  rw [lin, sm, sm, sm, sm, hcross _ _ p1, hcross _ _ p1, hcross _ _ p2, hcross _ _ p2]
  have hh : heron (lens a b c) = 4 * V3.normSq n := heron_lens a b c
  unfold gradInner
  rw [hh]
  have q1 : (lens a b c).x1 = V3.dot (a - c) (a - c) := rfl
  have q2 : (lens a b c).x2 = V3.dot (b - a) (b - a) := rfl
  have q3 : ((lens a b c).x1 + (lens a b c).x2 - (lens a b c).x0) / 2 = - V3.dot (a - c) (b - a) := by
    simp only [lens, V3.normSq, V3.dot, V3.sub_x, V3.sub_y, V3.sub_z]; ring
  have q4 : V3.dot (b - a) (a - c) = V3.dot (a - c) (b - a) := by simp only [V3.dot]; ring
  rw [q3, q1, q2, q4]
  field_simp
  ring

/-- **C92** the intrinsic gradient is the gradient up to an isometry of each triangle: for the squared edge lengths of a mesh in space the inner product on each triangle of the intrinsic gradients of any two functions — hence their lengths,
angles, and every energy made of them — is the inner product of the gradients `grad(V,F)` gives. -/
theorem C92_isometry {V : List (V3 ℝ)} (hne : F ≠ []) (hF : InRange F V.length) (hA : ∀ t ∈ F, PosArea V t) :
    ∃ lsq G GI, halfedgeLengthsSquared V F = some lsq ∧ grad V F = some G ∧ gradIntrinsic lsq F (some V.length) = some GI ∧ GI.ncols = V.length ∧
      ∀ (u w : ℕ → ℝ) (f : ℕ), f < F.length →
        GI.app u f * GI.app w f + GI.app u (F.length + f) * GI.app w (F.length + f) =
          G.mulVec u f * G.mulVec w f + G.mulVec u (F.length + f) * G.mulVec w (F.length + f) + G.mulVec u (2 * F.length + f) * G.mulVec w (2 * F.length + f) := by
  have hl : LsqNonDeg (F.map (fun t => lens (V.getD t.a 0) (V.getD t.b 0) (V.getD t.c 0))) F := by
    refine ⟨by simp, ?_⟩
    intro r hr
    obtain ⟨t, ht, rfl⟩ := List.mem_map.mp hr
    exact nonDeg_lens (posArea_normSq (hA t ht))
  have hg2 : ∀ t ∈ F, (gT V t).2 ≠ 0 := fun t ht => (Real.sqrt_pos.mpr (posArea_normSq (hA t ht))).ne'
  obtain ⟨GI, e, _, hc, hG⟩ := C92_layout hne (some V.length) (fun k hk => by cases hk; exact hF) hl
  refine ⟨_, _, GI, hls_some hne hF, grad_eq hF hg2, e, by simpa [nOr] using hc.symm, fun u w f hf => ?_⟩
  have hr : (F.map (fun t => lens (V.getD t.a 0) (V.getD t.b 0) (V.getD t.c 0)))[f]? = some (lens (V.getD F[f].a 0) (V.getD F[f].b 0) (V.getD F[f].c 0)) := by
    rw [List.getElem?_map, List.getElem?_eq_getElem hf]; rfl
  obtain ⟨p, q, s, hlay, hgr⟩ := hG f F[f] _ (List.getElem?_eq_getElem hf) hr
  obtain ⟨hu1, hu2⟩ := hgr u
  obtain ⟨hw1, hw2⟩ := hgr w
  rw [layout_inner hlay hu1 hu2 hw1 hw2, ← triGrad_inner (hg2 _ (List.getElem_mem hf))]
  have k0 := fun u => grad_mulVec hF u (by omega : 0 < 3) hf
  have k1 := fun u => grad_mulVec hF u (by omega : 1 < 3) hf
  have k2 := fun u => grad_mulVec hF u (by omega : 2 < 3) hf
  simp only [Nat.zero_mul, Nat.zero_add, Nat.one_mul] at k0 k1
  rw [k0, k0, k1, k1, k2, k2]
  rfl

/-- **C92** constants have gradient zero. -/
theorem C92_constant (hne : F ≠ []) (n : Option ℕ) (hn : SizeOk n F) (hl : LsqNonDeg lsq F) (c : ℝ) :
    ∃ G, gradIntrinsic lsq F n = some G ∧ ∀ f < F.length, G.app (fun _ => c) f = 0 ∧ G.app (fun _ => c) (F.length + f) = 0 := by
  obtain ⟨G, e, _, _, hG⟩ := C92_layout hne n hn hl
  refine ⟨G, e, fun f hf => ?_⟩
  have hf' : f < lsq.length := by rw [hl.1]; exact hf
  obtain ⟨p, q, s, hlay, hgr⟩ := hG f _ _ (List.getElem?_eq_getElem hf) (List.getElem?_eq_getElem hf')
  obtain ⟨h1, h2⟩ := hgr (fun _ => c)
  have key := layout_inner hlay h1 h2 h1 h2
  have : gradInner lsq[f] (c - c) (c - c) (c - c) (c - c) = 0 := by unfold gradInner; ring
  rw [this] at key
  constructor <;> nlinarith [mul_self_nonneg (G.app (fun _ => c) f), mul_self_nonneg (G.app (fun _ => c) (F.length + f))]

/-- lengths of two triangles meet the hypotheses -/
example : LsqNonDeg [⟨1, 1, 1⟩, ⟨2, 1, 2⟩] [⟨0, 1, 2⟩, ⟨0, 2, 3⟩] ∧ SizeOk none [⟨0, 1, 2⟩, ⟨0, 2, 3⟩] := by
  refine ⟨⟨rfl, ?_⟩, fun k h => by cases h⟩
  intro r hr
  simp only [List.mem_cons, List.not_mem_nil, or_false] at hr
  rcases hr with rfl | rfl <;> norm_num [NonDeg, heron]

end Gpy
