import Verif.Model.Fd
import Verif.Proofs.Laplacian
import Verif.Proofs.CubeMesh
import Verif.Spec.Grid

set_option autoImplicit false
namespace Gpy
open Np Finset Gpy.Spec

variable {α : Type}

/-- one term of the interpolation: index and weight -/
structure Blk (α : Type) where
  J : α → ℤ
  w : α → ℝ

def blkTrip (P : List α) (dim : ℕ) (b : Blk α) : List (ℕ × ℕ × ℝ) :=
  (P.zipIdx.filter (fun q => decide (0 ≤ b.J q.1 ∧ b.J q.1 < (dim : ℤ)))).map (fun q => (q.2, (b.J q.1).toNat, b.w q.1))

theorem maskBy_append {β : Type} {J1 J2 : List ℤ} {dim : ℕ} {x1 x2 : List β} (h : J1.length = x1.length) :
    maskBy (J1 ++ J2) dim (x1 ++ x2) = maskBy J1 dim x1 ++ maskBy J2 dim x2 := by
  unfold maskBy; rw [List.zip_append h, List.filter_append, List.map_append]

theorem range_eq_zipIdx (P : List α) : List.range P.length = P.zipIdx.map (·.2) := by
  rw [List.zipIdx_map_snd]; simp [List.range_eq_range']

theorem map_eq_zipIdx {β : Type} (P : List α) (f : α → β) : P.map f = P.zipIdx.map (fun q => f q.1) := by
  have : P = P.zipIdx.map (·.1) := by rw [List.zipIdx_map_fst]
  conv_lhs => rw [this, List.map_map]
  rfl

theorem maskBy_map {β γ : Type} (l : List γ) (f : γ → ℤ) (g : γ → β) (dim : ℕ) :
    maskBy (l.map f) dim (l.map g) = (l.filter (fun q => decide (0 ≤ f q ∧ f q < (dim : ℤ)))).map g := by
  unfold maskBy
  rw [List.zip_map', List.filter_map, List.map_map]
  rfl

/-- the assembled matrix -/
theorem fdAssemble_eq (P : List α) (dim : ℕ) (bs : List (Blk α)) :
    fdAssemble P.length dim (bs.flatMap (fun _ => List.range P.length)) (bs.flatMap (fun b => P.map b.J)) (bs.flatMap (fun b => P.map b.w)) =
      some ⟨P.length, dim, bs.flatMap (blkTrip P dim)⟩ := by
  have key : ∀ bs : List (Blk α),
      maskBy (bs.flatMap (fun b => P.map b.J)) dim (bs.flatMap (fun _ => List.range P.length)) = (bs.flatMap (blkTrip P dim)).map (·.1) ∧
      (maskBy (bs.flatMap (fun b => P.map b.J)) dim (bs.flatMap (fun b => P.map b.J))).map Int.toNat = (bs.flatMap (blkTrip P dim)).map (·.2.1) ∧
      maskBy (bs.flatMap (fun b => P.map b.J)) dim (bs.flatMap (fun b => P.map b.w)) = (bs.flatMap (blkTrip P dim)).map (·.2.2) := by
    intro bs
    induction bs with
    | nil => exact ⟨rfl, rfl, rfl⟩
    | cons b t ih =>
      obtain ⟨i1, i2, i3⟩ := ih
      simp only [List.flatMap_cons]
      refine ⟨?_, ?_, ?_⟩
      · rw [maskBy_append (by simp), i1, List.map_append]
        congr 1
        rw [range_eq_zipIdx, map_eq_zipIdx P b.J, maskBy_map]
        unfold blkTrip; rw [List.map_map]; rfl
      · rw [maskBy_append (by simp), List.map_append, i2, List.map_append]
        congr 1
        rw [map_eq_zipIdx P b.J, maskBy_map, List.map_map]
        unfold blkTrip; rw [List.map_map]; rfl
      · rw [maskBy_append (by simp), i3, List.map_append]
        congr 1
        rw [map_eq_zipIdx P b.J, map_eq_zipIdx P b.w, maskBy_map]
        unfold blkTrip; rw [List.map_map]; rfl
  obtain ⟨k1, k2, k3⟩ := key bs
  unfold fdAssemble
  rw [k1, k2, k3]
  unfold csrMatrix
  rw [if_pos]
  · congr 2
    rw [zip3_map]; simp
  · refine ⟨by simp, by simp, ?_, ?_⟩
    · intro i hi
      rw [List.mem_map] at hi
      obtain ⟨t, ht, rfl⟩ := hi
      obtain ⟨b, _, ht⟩ := List.mem_flatMap.mp ht
      unfold blkTrip at ht
      obtain ⟨q, hq, rfl⟩ := List.mem_map.mp ht
      have hq := (List.mem_filter.mp hq).1
      rw [List.mem_zipIdx_iff_getElem?] at hq
      exact (List.getElem?_eq_some_iff.mp hq).1
    · intro i hi
      rw [List.mem_map] at hi
      obtain ⟨t, ht, rfl⟩ := hi
      obtain ⟨b, _, ht⟩ := List.mem_flatMap.mp ht
      unfold blkTrip at ht
      obtain ⟨q, hq, rfl⟩ := List.mem_map.mp ht
      have hq := of_decide_eq_true (List.mem_filter.mp hq).2
      simp only
      omega

theorem assembled_wf (P : List α) (dim : ℕ) (bs : List (Blk α)) : (⟨P.length, dim, bs.flatMap (blkTrip P dim)⟩ : Csr ℝ).WF := by
  have := fdAssemble_eq P dim bs
  unfold fdAssemble at this
  exact (csrMatrix_wf this).1

/-- a row of the assembled matrix -/
theorem assembled_mulVec (P : List α) (dim : ℕ) (bs : List (Blk α)) (u : ℕ → ℝ) {i : ℕ} {p : α} (hp : P[i]? = some p) :
    (⟨P.length, dim, bs.flatMap (blkTrip P dim)⟩ : Csr ℝ).mulVec u i =
      (bs.map (fun b => if 0 ≤ b.J p ∧ b.J p < (dim : ℤ) then b.w p * u (b.J p).toNat else 0)).sum := by
  rw [mulVec_eq _ (assembled_wf P dim bs)]
  simp only
  induction bs with
  | nil => rfl
  | cons b t ih =>
    rw [List.flatMap_cons, List.map_append, List.sum_append, ih, List.map_cons, List.sum_cons]
    congr 1
    have h := sum_zipIdx_single (K := ℝ) P (fun p => if 0 ≤ b.J p ∧ b.J p < (dim : ℤ) then b.w p * u (b.J p).toNat else 0) i 0
    rw [if_pos (Nat.zero_le _), Nat.sub_zero, hp] at h
    simp only [Option.map_some, Option.getD_some] at h
    rw [← h]
    unfold blkTrip
    rw [List.map_map]
    generalize P.zipIdx = Q
    induction Q with
    | nil => rfl
    | cons q Q ihQ =>
      rw [List.filter_cons]
      by_cases hq : 0 ≤ b.J q.1 ∧ b.J q.1 < (dim : ℤ)
      · rw [if_pos (by simpa using hq), List.map_cons, List.sum_cons, ihQ, List.map_cons, List.sum_cons]
        simp only [Function.comp_apply, if_pos hq]
      · rw [if_neg (by simpa using hq), ihQ, List.map_cons, List.sum_cons, if_neg hq]
        simp

/-! one axis -/

theorem axis_local {p h c : ℝ} {n : ℕ} (hh : 0 < h) (hp : InAxis p h c n) :
    ∃ i : ℕ, fdIndex p h c = (i : ℤ) ∧ i < n ∧ 0 ≤ fdLocal p h c ∧ fdLocal p h c < 1 ∧ p = c + ((i : ℝ) + fdLocal p h c) * h ∧
      (fdLocal p h c ≠ 0 → i + 1 < n) := by
  obtain ⟨h1, h2⟩ := hp
  set u := (p - c) / h with hu
  have hu0 : 0 ≤ u := div_nonneg (by linarith) hh.le
  have hpu : p = c + u * h := by rw [hu]; field_simp; ring
  have hn : u ≤ (n : ℝ) - 1 := by rw [hu, div_le_iff₀ hh]; linarith
  have hi : fdIndex p h c = (⌊u⌋₊ : ℤ) := by unfold fdIndex; rw [← hu, Int.natCast_floor_eq_floor hu0]
  have hl : fdLocal p h c = u - (⌊u⌋₊ : ℝ) := by
    unfold fdLocal; rw [hi]
    have : p - (c + (((⌊u⌋₊ : ℕ) : ℤ) : ℝ) * h) = (u - (⌊u⌋₊ : ℝ)) * h := by
      rw [Int.cast_natCast]
      linear_combination hpu
    rw [this, mul_div_assoc, div_self hh.ne', mul_one]
  have hf := Nat.floor_le hu0
  have hf2 := Nat.lt_floor_add_one u
  have hin : ⌊u⌋₊ < n := by
    have : ((⌊u⌋₊ : ℕ) : ℝ) < n := by linarith
    exact_mod_cast this
  refine ⟨⌊u⌋₊, hi, hin, by rw [hl]; linarith, by rw [hl]; linarith, by rw [hl]; rw [hpu]; ring, ?_⟩
  intro hne
  rw [hl] at hne
  have : (⌊u⌋₊ : ℝ) < u := lt_of_le_of_ne hf (fun h => hne (by linarith))
  have : ((⌊u⌋₊ : ℕ) : ℝ) + 1 < n := by linarith
  exact_mod_cast this

theorem blk_nat (dim : ℕ) (J : ℤ) (k : ℕ) (hJ : J = (k : ℤ)) (w : ℝ) (u : ℕ → ℝ) (hw : w ≠ 0 → k < dim) :
    (if 0 ≤ J ∧ J < (dim : ℤ) then w * u J.toNat else 0) = w * u k := by
  subst hJ
  by_cases h : w = 0
  · subst h; simp
  · have := hw h
    rw [if_pos ⟨by omega, by omega⟩]; simp

theorem idx_lt2 {n m x y : ℕ} (hx : x < n) (hy : y < m) : x + n * y < n * m := by
  calc x + n * y < n + n * y := by omega
    _ = n * (y + 1) := by ring
    _ ≤ n * m := Nat.mul_le_mul_left _ hy

theorem idx_lt3 {n m k x y z : ℕ} (hx : x < n) (hy : y < m) (hz : z < k) : x + n * (y + m * z) < n * m * k := by
  have := idx_lt2 hx (idx_lt2 hy hz)
  rwa [mul_assoc]

theorem hat_axis {a j : ℕ} {s : ℝ} (h0 : 0 ≤ s) (h1 : s < 1) :
    hat ((a : ℝ) + s - j) = (1 - s) * (if j = a then 1 else 0) + s * (if j = a + 1 then 1 else 0) := by
  unfold hat
  rcases Nat.lt_trichotomy j a with h | h | h
  · rw [if_neg (by omega), if_neg (by omega)]
    have : (j : ℝ) + 1 ≤ a := by exact_mod_cast h
    rw [abs_of_nonneg (by linarith), max_eq_left (by linarith)]; ring
  · subst h
    rw [if_pos rfl, if_neg (by omega), add_sub_cancel_left, abs_of_nonneg h0, max_eq_right (by linarith)]; ring
  · rw [if_neg (by omega)]
    have hj : (a : ℝ) + 1 ≤ j := by exact_mod_cast h
    rw [abs_of_nonpos (by linarith)]
    by_cases h' : j = a + 1
    · subst h'
      rw [if_pos rfl]; push_cast
      rw [max_eq_right (by linarith)]; ring
    · rw [if_neg h']
      have : a + 2 ≤ j := by omega
      have : (a : ℝ) + 2 ≤ j := by exact_mod_cast this
      rw [max_eq_left (by linarith)]; ring

/-- one row of `fd_interpolate` in 2D -/
theorem fdInterpolate2_row (P : List (ℝ × ℝ)) (gs : ℕ × ℕ) (h : ℝ × ℝ) (corner : Option (ℝ × ℝ)) (h1 : 0 < h.1) (h2 : 0 < h.2) :
    ∃ W, fdInterpolate2 P gs h corner = some W ∧ W.WF ∧ W.nrows = P.length ∧ W.ncols = gs.1 * gs.2 ∧
      ∀ i p, P[i]? = some p → InAxis p.1 h.1 (corner.getD (0, 0)).1 gs.1 → InAxis p.2 h.2 (corner.getD (0, 0)).2 gs.2 →
        ∃ (a b : ℕ) (s t : ℝ), a < gs.1 ∧ b < gs.2 ∧ 0 ≤ s ∧ s < 1 ∧ 0 ≤ t ∧ t < 1 ∧ (s ≠ 0 → a + 1 < gs.1) ∧ (t ≠ 0 → b + 1 < gs.2) ∧
          p.1 = (corner.getD (0, 0)).1 + ((a : ℝ) + s) * h.1 ∧ p.2 = (corner.getD (0, 0)).2 + ((b : ℝ) + t) * h.2 ∧
          ∀ u, W.mulVec u i = (1 - t) * (1 - s) * u (a + gs.1 * b) + (t * (1 - s) * u (a + gs.1 * (b + 1)) +
            ((1 - t) * s * u (a + 1 + gs.1 * b) + t * s * u (a + 1 + gs.1 * (b + 1)))) := by
  set c := corner.getD (0, 0) with hc
  let iv : ℝ × ℝ → ℤ := fun p => fdIndex p.1 h.1 c.1 + gs.1 * fdIndex p.2 h.2 c.2
  let v0 : ℝ × ℝ → ℝ := fun p => fdLocal p.1 h.1 c.1
  let v1 : ℝ × ℝ → ℝ := fun p => fdLocal p.2 h.2 c.2
  let bs : List (Blk (ℝ × ℝ)) := [⟨iv, fun p => (1 - v1 p) * (1 - v0 p)⟩, ⟨fun p => iv p + gs.1, fun p => v1 p * (1 - v0 p)⟩,
    ⟨fun p => iv p + 1, fun p => (1 - v1 p) * v0 p⟩, ⟨fun p => iv p + 1 + gs.1, fun p => v1 p * v0 p⟩]
  refine ⟨⟨P.length, gs.1 * gs.2, bs.flatMap (blkTrip P (gs.1 * gs.2))⟩, ?_, assembled_wf P _ bs, rfl, rfl, ?_⟩
  · rw [← fdAssemble_eq]
    simp only [fdInterpolate2, bs, List.flatMap_cons, List.flatMap_nil, List.append_nil, ← hc, List.append_assoc]
    rfl
  · intro i p hp ha hb
    obtain ⟨a, ea, la, s0, s1, es, ns⟩ := axis_local h1 ha
    obtain ⟨b, eb, lb, t0, t1, et, nt⟩ := axis_local h2 hb
    refine ⟨a, b, fdLocal p.1 h.1 c.1, fdLocal p.2 h.2 c.2, la, lb, s0, s1, t0, t1, ns, nt, es, et, ?_⟩
    intro u
    rw [assembled_mulVec P _ bs u hp]
    simp only [bs, List.map_cons, List.map_nil, List.sum_cons, List.sum_nil, add_zero, iv, v0, v1, ea, eb]
    rw [blk_nat _ _ (a + gs.1 * b) (by push_cast; ring) _ _ (fun _ => idx_lt2 la lb),
      blk_nat _ _ (a + gs.1 * (b + 1)) (by push_cast; ring) _ _ (fun hw => idx_lt2 la (nt (by rintro h; simp [h] at hw))),
      blk_nat _ _ (a + 1 + gs.1 * b) (by push_cast; ring) _ _ (fun hw => idx_lt2 (ns (by rintro h; simp [h] at hw)) lb),
      blk_nat _ _ (a + 1 + gs.1 * (b + 1)) (by push_cast; ring) _ _
        (fun hw => idx_lt2 (ns (by rintro h; simp [h] at hw)) (nt (by rintro h; simp [h] at hw)))]

/-- one row of `fd_interpolate` in 3D -/
theorem fdInterpolate3_row (P : List (V3 ℝ)) (gs : ℕ × ℕ × ℕ) (h : V3 ℝ) (corner : Option (V3 ℝ)) (h1 : 0 < h.x) (h2 : 0 < h.y)
    (h3 : 0 < h.z) :
    ∃ W, fdInterpolate3 P gs h corner = some W ∧ W.WF ∧ W.nrows = P.length ∧ W.ncols = gs.1 * gs.2.1 * gs.2.2 ∧
      ∀ i p, P[i]? = some p → InAxis p.x h.x (corner.getD 0).x gs.1 → InAxis p.y h.y (corner.getD 0).y gs.2.1 →
        InAxis p.z h.z (corner.getD 0).z gs.2.2 →
        ∃ (a b d : ℕ) (s t r : ℝ), a < gs.1 ∧ b < gs.2.1 ∧ d < gs.2.2 ∧ 0 ≤ s ∧ s < 1 ∧ 0 ≤ t ∧ t < 1 ∧ 0 ≤ r ∧ r < 1 ∧
          (s ≠ 0 → a + 1 < gs.1) ∧ (t ≠ 0 → b + 1 < gs.2.1) ∧ (r ≠ 0 → d + 1 < gs.2.2) ∧
          p.x = (corner.getD 0).x + ((a : ℝ) + s) * h.x ∧ p.y = (corner.getD 0).y + ((b : ℝ) + t) * h.y ∧
          p.z = (corner.getD 0).z + ((d : ℝ) + r) * h.z ∧
          ∀ u, W.mulVec u i = (1 - t) * (1 - s) * (1 - r) * u (a + gs.1 * (b + gs.2.1 * d)) +
            (t * (1 - s) * (1 - r) * u (a + gs.1 * (b + 1 + gs.2.1 * d)) +
            ((1 - t) * s * (1 - r) * u (a + 1 + gs.1 * (b + gs.2.1 * d)) + (t * s * (1 - r) * u (a + 1 + gs.1 * (b + 1 + gs.2.1 * d)) +
            ((1 - t) * (1 - s) * r * u (a + gs.1 * (b + gs.2.1 * (d + 1))) +
            (t * (1 - s) * r * u (a + gs.1 * (b + 1 + gs.2.1 * (d + 1))) +
            ((1 - t) * s * r * u (a + 1 + gs.1 * (b + gs.2.1 * (d + 1))) + t * s * r * u (a + 1 + gs.1 * (b + 1 + gs.2.1 * (d + 1))))))))) := by
  set c := corner.getD 0 with hc
  let iv : V3 ℝ → ℤ := fun p => (fdIndex p.y h.y c.y + gs.2.1 * fdIndex p.z h.z c.z) * gs.1 + fdIndex p.x h.x c.x
  let v0 : V3 ℝ → ℝ := fun p => fdLocal p.x h.x c.x
  let v1 : V3 ℝ → ℝ := fun p => fdLocal p.y h.y c.y
  let v2 : V3 ℝ → ℝ := fun p => fdLocal p.z h.z c.z
  let bs : List (Blk (V3 ℝ)) := [⟨iv, fun p => (1 - v1 p) * (1 - v0 p) * (1 - v2 p)⟩,
    ⟨fun p => iv p + gs.1, fun p => v1 p * (1 - v0 p) * (1 - v2 p)⟩,
    ⟨fun p => iv p + 1, fun p => (1 - v1 p) * v0 p * (1 - v2 p)⟩, ⟨fun p => iv p + 1 + gs.1, fun p => v1 p * v0 p * (1 - v2 p)⟩,
    ⟨fun p => iv p + gs.2.1 * gs.1, fun p => (1 - v1 p) * (1 - v0 p) * v2 p⟩,
    ⟨fun p => iv p + gs.1 + gs.2.1 * gs.1, fun p => v1 p * (1 - v0 p) * v2 p⟩,
    ⟨fun p => iv p + 1 + gs.2.1 * gs.1, fun p => (1 - v1 p) * v0 p * v2 p⟩,
    ⟨fun p => iv p + 1 + gs.1 + gs.2.1 * gs.1, fun p => v1 p * v0 p * v2 p⟩]
  refine ⟨⟨P.length, gs.1 * gs.2.1 * gs.2.2, bs.flatMap (blkTrip P (gs.1 * gs.2.1 * gs.2.2))⟩, ?_, assembled_wf P _ bs, rfl, rfl, ?_⟩
  · rw [← fdAssemble_eq]
    simp only [fdInterpolate3, bs, List.flatMap_cons, List.flatMap_nil, List.append_nil, ← hc, List.append_assoc]
    rfl
  · intro i p hp ha hb hd
    obtain ⟨a, ea, la, s0, s1, es, ns⟩ := axis_local h1 ha
    obtain ⟨b, eb, lb, t0, t1, et, nt⟩ := axis_local h2 hb
    obtain ⟨d, ed, ld, r0, r1, er, nr⟩ := axis_local h3 hd
    refine ⟨a, b, d, fdLocal p.x h.x c.x, fdLocal p.y h.y c.y, fdLocal p.z h.z c.z, la, lb, ld, s0, s1, t0, t1, r0, r1, ns, nt, nr,
      es, et, er, ?_⟩
    intro u
    rw [assembled_mulVec P _ bs u hp]
    simp only [bs, List.map_cons, List.map_nil, List.sum_cons, List.sum_nil, add_zero, iv, v0, v1, v2, ea, eb, ed]
    rw [blk_nat _ _ (a + gs.1 * (b + gs.2.1 * d)) (by push_cast; ring) _ _ (fun _ => idx_lt3 la lb ld),
      blk_nat _ _ (a + gs.1 * (b + 1 + gs.2.1 * d)) (by push_cast; ring) _ _ (fun hw => idx_lt3 la (nt (by rintro h; simp [h] at hw)) ld),
      blk_nat _ _ (a + 1 + gs.1 * (b + gs.2.1 * d)) (by push_cast; ring) _ _ (fun hw => idx_lt3 (ns (by rintro h; simp [h] at hw)) lb ld),
      blk_nat _ _ (a + 1 + gs.1 * (b + 1 + gs.2.1 * d)) (by push_cast; ring) _ _
        (fun hw => idx_lt3 (ns (by rintro h; simp [h] at hw)) (nt (by rintro h; simp [h] at hw)) ld),
      blk_nat _ _ (a + gs.1 * (b + gs.2.1 * (d + 1))) (by push_cast; ring) _ _ (fun hw => idx_lt3 la lb (nr (by rintro h; simp [h] at hw))),
      blk_nat _ _ (a + gs.1 * (b + 1 + gs.2.1 * (d + 1))) (by push_cast; ring) _ _
        (fun hw => idx_lt3 la (nt (by rintro h; simp [h] at hw)) (nr (by rintro h; simp [h] at hw))),
      blk_nat _ _ (a + 1 + gs.1 * (b + gs.2.1 * (d + 1))) (by push_cast; ring) _ _
        (fun hw => idx_lt3 (ns (by rintro h; simp [h] at hw)) lb (nr (by rintro h; simp [h] at hw))),
      blk_nat _ _ (a + 1 + gs.1 * (b + 1 + gs.2.1 * (d + 1))) (by push_cast; ring) _ _
        (fun hw => idx_lt3 (ns (by rintro h; simp [h] at hw)) (nt (by rintro h; simp [h] at hw)) (nr (by rintro h; simp [h] at hw)))]

/-! `fd_partial_derivative` -/

theorem zipIdx_triples (idx : List ℕ) (g : ℕ → ℕ) (v : ℝ) :
    zip3 (List.range idx.length) (idx.map g) (List.replicate idx.length v) = idx.zipIdx.map (fun q => (q.2, g q.1, v)) := by
  have : List.replicate idx.length v = idx.zipIdx.map (fun _ => v) := by rw [List.map_const']; simp
  rw [this, range_eq_zipIdx, map_eq_zipIdx idx g, zip3_map]

theorem fdDiff_row (idx : List ℕ) (nx ncols : ℕ) (h : ℝ) (hi : ∀ e ∈ idx, e + nx < ncols) :
    ∃ D, fdDiff idx nx ncols h = some D ∧ D.WF ∧ D.nrows = idx.length ∧ D.ncols = ncols ∧
      ∀ k e, idx[k]? = some e → ∀ u, D.mulVec u k = (u (e + nx) - u e) / h := by
  have hs : ∃ D, fdDiff idx nx ncols h = some D := by
    unfold fdDiff csrMatrix
    rw [if_pos]
    · exact ⟨_, rfl⟩
    · refine ⟨by simp, by simp, ?_, ?_⟩
      · intro i hi; simp only [List.mem_append, List.mem_range, or_self] at hi; exact hi
      · intro j hj
        rw [List.mem_append] at hj
        rcases hj with hj | hj
        · have := hi j hj; omega
        · obtain ⟨e, he, rfl⟩ := List.mem_map.mp hj; exact hi e he
  obtain ⟨D, hD⟩ := hs
  have hw := hD
  unfold fdDiff at hw
  obtain ⟨wf, e1, e2, e3⟩ := csrMatrix_wf hw
  refine ⟨D, hD, wf, e1, e2, ?_⟩
  intro k e hk u
  rw [mulVec_eq D wf, e3, List.map_append, List.map_replicate, List.map_replicate, zip3_append (by simp) (by simp)]
  have z1 := zipIdx_triples idx id (-1 / h)
  rw [List.map_id] at z1
  rw [z1, zipIdx_triples idx (· + nx) (1 / h), List.map_append, List.sum_append, List.map_map, List.map_map]
  have s1 := sum_zipIdx_single (K := ℝ) idx (fun q => -1 / h * u q) k 0
  have s2 := sum_zipIdx_single (K := ℝ) idx (fun q => 1 / h * u (q + nx)) k 0
  rw [if_pos (Nat.zero_le _), Nat.sub_zero, hk] at s1 s2
  simp only [Option.map_some, Option.getD_some] at s1 s2
  have t1 : (idx.zipIdx.map ((fun t : ℕ × ℕ × ℝ => if t.1 = k then t.2.2 * u t.2.1 else 0) ∘ fun q => (q.2, id q.1, -1 / h))).sum = -1 / h * u e := by
    rw [← s1]; rfl
  have t2 : (idx.zipIdx.map ((fun t : ℕ × ℕ × ℝ => if t.1 = k then t.2.2 * u t.2.1 else 0) ∘ fun q => (q.2, q.1 + nx, 1 / h))).sum =
      1 / h * u (e + nx) := by
    rw [← s2]; rfl
  rw [t1, t2]; ring

theorem fdIdx2_length (ng gs : ℕ × ℕ) : (fdIdx2 ng gs).length = ng.1 * ng.2 := by
  unfold fdIdx2; rw [List.length_flatMap]; simp [mul_comm]

theorem fdIdx2_get (ng gs : ℕ × ℕ) {x y : ℕ} (hx : x < ng.1) (hy : y < ng.2) : (fdIdx2 ng gs)[x + ng.1 * y]? = some (x + gs.1 * y) := by
  unfold fdIdx2
  have := flatMap_getElem?_block ng.2 ng.1 (fun y => (List.range ng.1).map (fun x => x + gs.1 * y)) (by simp) hy hx
  rw [show x + ng.1 * y = y * ng.1 + x by ring, this]
  simp [hx]

theorem fdIdx2_mem {ng gs : ℕ × ℕ} {e : ℕ} (h : e ∈ fdIdx2 ng gs) : ∃ x y, x < ng.1 ∧ y < ng.2 ∧ e = x + gs.1 * y := by
  unfold fdIdx2 at h
  obtain ⟨y, hy, h⟩ := List.mem_flatMap.mp h
  obtain ⟨x, hx, rfl⟩ := List.mem_map.mp h
  exact ⟨x, y, List.mem_range.mp hx, List.mem_range.mp hy, rfl⟩

theorem fdIdx3_length (ng gs : ℕ × ℕ × ℕ) : (fdIdx3 ng gs).length = ng.1 * ng.2.1 * ng.2.2 := by
  unfold fdIdx3; rw [List.length_flatMap]; simp [List.length_flatMap]; ring

theorem fdIdx3_get (ng gs : ℕ × ℕ × ℕ) {x y z : ℕ} (hx : x < ng.1) (hy : y < ng.2.1) (hz : z < ng.2.2) :
    (fdIdx3 ng gs)[x + ng.1 * (y + ng.2.1 * z)]? = some (x + gs.1 * (y + gs.2.1 * z)) := by
  unfold fdIdx3
  have := flatMap_getElem?_block ng.2.2 (ng.2.1 * ng.1)
    (fun z => (List.range ng.2.1).flatMap (fun y => (List.range ng.1).map (fun x => x + gs.1 * (y + gs.2.1 * z))))
    (by intro j; simp [List.length_flatMap]) hz (r := y * ng.1 + x)
    (by have := idx_lt2 hx hy; nlinarith)
  rw [show x + ng.1 * (y + ng.2.1 * z) = z * (ng.2.1 * ng.1) + (y * ng.1 + x) by ring, this]
  have := flatMap_getElem?_block ng.2.1 ng.1 (fun y => (List.range ng.1).map (fun x => x + gs.1 * (y + gs.2.1 * z))) (by simp) hy hx
  rw [this]
  simp [hx]

theorem fdIdx3_mem {ng gs : ℕ × ℕ × ℕ} {e : ℕ} (h : e ∈ fdIdx3 ng gs) :
    ∃ x y z, x < ng.1 ∧ y < ng.2.1 ∧ z < ng.2.2 ∧ e = x + gs.1 * (y + gs.2.1 * z) := by
  unfold fdIdx3 at h
  obtain ⟨z, hz, h⟩ := List.mem_flatMap.mp h
  obtain ⟨y, hy, h⟩ := List.mem_flatMap.mp h
  obtain ⟨x, hx, rfl⟩ := List.mem_map.mp h
  exact ⟨x, y, z, List.mem_range.mp hx, List.mem_range.mp hy, List.mem_range.mp hz, rfl⟩

theorem vstack_wf {A B : Csr ℝ} (hA : A.WF) (hB : B.WF) (hc : B.ncols = A.ncols) : (csrVstack A B).WF := by
  intro t ht
  unfold csrVstack at *
  simp only [List.mem_append, List.mem_map] at ht ⊢
  rcases ht with ht | ⟨s, hs, rfl⟩
  · have := hA t ht; exact ⟨by omega, this.2⟩
  · have := hB s hs; simp only; exact ⟨by omega, by omega⟩

theorem vstack_mulVec {A B : Csr ℝ} (hA : A.WF) (hB : B.WF) (hc : B.ncols = A.ncols) (u : ℕ → ℝ) :
    (∀ i, i < A.nrows → (csrVstack A B).mulVec u i = A.mulVec u i) ∧ ∀ i, (csrVstack A B).mulVec u (A.nrows + i) = B.mulVec u i := by
  have wf := vstack_wf hA hB hc
  constructor
  · intro i hi
    rw [mulVec_eq _ wf, mulVec_eq _ hA]
    unfold csrVstack
    rw [List.map_append, List.sum_append, List.map_map]
    convert add_zero _
    apply List.sum_eq_zero
    intro x hx
    obtain ⟨t, _, rfl⟩ := List.mem_map.mp hx
    simp only [Function.comp_apply]
    rw [if_neg (by omega)]
  · intro i
    rw [mulVec_eq _ wf, mulVec_eq _ hB]
    unfold csrVstack
    rw [List.map_append, List.sum_append, List.map_map]
    have : (A.trip.map (fun t => if t.1 = A.nrows + i then t.2.2 * u t.2.1 else 0)).sum = 0 := by
      apply List.sum_eq_zero
      intro x hx
      obtain ⟨t, ht, rfl⟩ := List.mem_map.mp hx
      have := (hA t ht).1
      rw [if_neg (by omega)]
    rw [this, zero_add]
    congr 1
    apply List.map_congr_left
    intro t _
    simp only [Function.comp_apply]
    by_cases h : t.1 = i
    · rw [if_pos h, if_pos (by omega)]
    · rw [if_neg h, if_neg (by omega)]

end Gpy
