import Verif.Proofs.Fd
import Mathlib.Tactic.LinearCombination
import Mathlib.Tactic.NormNum

/-! C34: `fd_interpolate`.  C35: `fd_partial_derivative`, `fd_grad`. -/

set_option autoImplicit false
namespace Gpy
open Np Finset Gpy.Spec

theorem decode2 {n x y : ℕ} (hx : x < n) : (x + n * y) % n = x ∧ (x + n * y) / n = y := by
  have h0 : 0 < n := by omega
  exact ⟨by rw [Nat.add_mul_mod_self_left, Nat.mod_eq_of_lt hx], by rw [Nat.add_mul_div_left _ _ h0, Nat.div_eq_of_lt hx, Nat.zero_add]⟩

theorem ind_idx2 {n x y j : ℕ} (hx : x < n) : ((if x + n * y = j then (1 : ℝ) else 0)) =
    (if j % n = x then 1 else 0) * (if j / n = y then 1 else 0) := by
  obtain ⟨d1, d2⟩ := decode2 (y := y) hx
  by_cases h : x + n * y = j
  · subst h; rw [d1, d2]; simp
  · rw [if_neg h]
    by_cases h1 : j % n = x
    · by_cases h2 : j / n = y
      · exfalso; apply h; rw [← h1, ← h2]; exact Nat.mod_add_div j n
      · rw [if_neg h2, mul_zero]
    · rw [if_neg h1, zero_mul]

theorem ind_idx3 {n m x y z j : ℕ} (hx : x < n) (hy : y < m) : ((if x + n * (y + m * z) = j then (1 : ℝ) else 0)) =
    (if j % n = x then 1 else 0) * ((if j / n % m = y then 1 else 0) * (if j / n / m = z then 1 else 0)) := by
  rw [ind_idx2 hx, ← ind_idx2 hy]
  congr 1
  by_cases h : j / n = y + m * z
  · rw [if_pos h, if_pos h.symm]
  · rw [if_neg h, if_neg (fun h' => h h'.symm)]

theorem mul_of_ne {w a b : ℝ} (h : w ≠ 0 → a = b) : w * a = w * b := by
  by_cases hw : w = 0
  · simp [hw]
  · rw [h hw]

/-- **C34 (2D)** every entry of the matrix: for a point `p` in the box the weight of node `j` is the product of the hat functions of the two
coordinate distances measured in grid spacings — that is, bilinear interpolation. -/
theorem C34_fd_interpolate2_weights (P : List (ℝ × ℝ)) (gs : ℕ × ℕ) (h : ℝ × ℝ) (corner : Option (ℝ × ℝ)) (h1 : 0 < h.1) (h2 : 0 < h.2) :
    ∃ W, fdInterpolate2 P gs h corner = some W ∧ W.nrows = P.length ∧ W.ncols = gs.1 * gs.2 ∧
      ∀ i p, P[i]? = some p → InAxis p.1 h.1 (corner.getD (0, 0)).1 gs.1 → InAxis p.2 h.2 (corner.getD (0, 0)).2 gs.2 →
        ∀ j, W.get i j = hat ((p.1 - (node2 gs h (corner.getD (0, 0)) j).1) / h.1) *
          hat ((p.2 - (node2 gs h (corner.getD (0, 0)) j).2) / h.2) := by
  obtain ⟨W, hW, wf, e1, e2, hrow⟩ := fdInterpolate2_row P gs h corner h1 h2
  refine ⟨W, hW, e1, e2, ?_⟩
  intro i p hp ha hb j
  obtain ⟨a, b, s, t, la, lb, s0, s1, t0, t1, ns, nt, es, et, hu⟩ := hrow i p hp ha hb
  have hx : (p.1 - (node2 gs h (corner.getD (0, 0)) j).1) / h.1 = (a : ℝ) + s - ((j % gs.1 : ℕ) : ℝ) := by
    rw [div_eq_iff h1.ne']; simp only [node2]; linear_combination es
  have hy : (p.2 - (node2 gs h (corner.getD (0, 0)) j).2) / h.2 = (b : ℝ) + t - ((j / gs.1 : ℕ) : ℝ) := by
    rw [div_eq_iff h2.ne']; simp only [node2]; linear_combination et
  rw [hx, hy, hat_axis s0 s1, hat_axis t0 t1, ← mulVec_single W i j wf, hu]
  have k1 := fun y => ind_idx2 (y := y) (j := j) la
  have k2 : ∀ y, s * (if a + 1 + gs.1 * y = j then (1 : ℝ) else 0) =
      s * ((if j % gs.1 = a + 1 then 1 else 0) * (if j / gs.1 = y then 1 else 0)) :=
    fun y => mul_of_ne (fun hs => ind_idx2 (ns hs))
  rw [k1, k1]
  linear_combination (1 - t) * k2 b + t * k2 (b + 1)

/-- **C34 (2D)** the weights are non-negative and sum to one, and every function `α + βx + γy + δxy` sampled at the nodes (in particular every
affine function) is reproduced exactly. -/
theorem C34_fd_interpolate2_exact (P : List (ℝ × ℝ)) (gs : ℕ × ℕ) (h : ℝ × ℝ) (corner : Option (ℝ × ℝ)) (h1 : 0 < h.1) (h2 : 0 < h.2) :
    ∃ W, fdInterpolate2 P gs h corner = some W ∧
      ∀ i p, P[i]? = some p → InAxis p.1 h.1 (corner.getD (0, 0)).1 gs.1 → InAxis p.2 h.2 (corner.getD (0, 0)).2 gs.2 →
        (∀ j, 0 ≤ W.get i j) ∧ (∑ j ∈ range (gs.1 * gs.2), W.get i j = 1) ∧
        ∀ α β γ δ : ℝ, ∑ j ∈ range (gs.1 * gs.2), W.get i j *
          (α + β * (node2 gs h (corner.getD (0, 0)) j).1 + γ * (node2 gs h (corner.getD (0, 0)) j).2 +
            δ * (node2 gs h (corner.getD (0, 0)) j).1 * (node2 gs h (corner.getD (0, 0)) j).2) = α + β * p.1 + γ * p.2 + δ * p.1 * p.2 := by
  obtain ⟨W, hW, _, _, hw⟩ := C34_fd_interpolate2_weights P gs h corner h1 h2
  obtain ⟨W', hW', wf, e1, e2, hrow⟩ := fdInterpolate2_row P gs h corner h1 h2
  rw [hW] at hW'; cases hW'
  refine ⟨W, hW, ?_⟩
  intro i p hp ha hb
  obtain ⟨a, b, s, t, la, lb, s0, s1, t0, t1, ns, nt, es, et, hu⟩ := hrow i p hp ha hb
  refine ⟨fun j => ?_, ?_, ?_⟩
  · rw [hw i p hp ha hb]; unfold hat; positivity
  · have := hu (fun _ => 1)
    unfold Csr.mulVec at this
    rw [← e2]
    simp only [mul_one] at this
    rw [this]; ring
  · intro α β γ δ
    set c := corner.getD (0, 0)
    have := hu (fun j => α + β * (node2 gs h c j).1 + γ * (node2 gs h c j).2 + δ * (node2 gs h c j).1 * (node2 gs h c j).2)
    unfold Csr.mulVec at this
    rw [← e2, this]
    have k1 : ∀ y, node2 gs h c (a + gs.1 * y) = (c.1 + h.1 * a, c.2 + h.2 * y) := by
      intro y; obtain ⟨d1, d2⟩ := decode2 (y := y) la; unfold node2; rw [d1, d2]
    have k2 : s ≠ 0 → ∀ y, node2 gs h c (a + 1 + gs.1 * y) = (c.1 + h.1 * ((a + 1 : ℕ) : ℝ), c.2 + h.2 * y) := by
      intro hs y; obtain ⟨d1, d2⟩ := decode2 (y := y) (ns hs); unfold node2; rw [d1, d2]
    simp only [k1]
    by_cases hs : s = 0
    · subst hs
      rw [es, et]; push_cast; ring
    · simp only [k2 hs]
      rw [es, et]; push_cast; ring

/-- **C34 (3D)** every entry of the matrix: trilinear interpolation. -/
theorem C34_fd_interpolate3_weights (P : List (V3 ℝ)) (gs : ℕ × ℕ × ℕ) (h : V3 ℝ) (corner : Option (V3 ℝ)) (h1 : 0 < h.x) (h2 : 0 < h.y)
    (h3 : 0 < h.z) :
    ∃ W, fdInterpolate3 P gs h corner = some W ∧ W.nrows = P.length ∧ W.ncols = gs.1 * gs.2.1 * gs.2.2 ∧
      ∀ i p, P[i]? = some p → InAxis p.x h.x (corner.getD 0).x gs.1 → InAxis p.y h.y (corner.getD 0).y gs.2.1 →
        InAxis p.z h.z (corner.getD 0).z gs.2.2 →
        ∀ j, W.get i j = hat ((p.x - (node3 gs h (corner.getD 0) j).x) / h.x) * (hat ((p.y - (node3 gs h (corner.getD 0) j).y) / h.y) *
          hat ((p.z - (node3 gs h (corner.getD 0) j).z) / h.z)) := by
  obtain ⟨W, hW, wf, e1, e2, hrow⟩ := fdInterpolate3_row P gs h corner h1 h2 h3
  refine ⟨W, hW, e1, e2, ?_⟩
  intro i p hp ha hb hd j
  obtain ⟨a, b, d, s, t, r, la, lb, ld, s0, s1, t0, t1, r0, r1, ns, nt, nr, es, et, er, hu⟩ := hrow i p hp ha hb hd
  have hx : (p.x - (node3 gs h (corner.getD 0) j).x) / h.x = (a : ℝ) + s - ((j % gs.1 : ℕ) : ℝ) := by
    rw [div_eq_iff h1.ne']; simp only [node3]; linear_combination es
  have hy : (p.y - (node3 gs h (corner.getD 0) j).y) / h.y = (b : ℝ) + t - ((j / gs.1 % gs.2.1 : ℕ) : ℝ) := by
    rw [div_eq_iff h2.ne']; simp only [node3]; linear_combination et
  have hz : (p.z - (node3 gs h (corner.getD 0) j).z) / h.z = (d : ℝ) + r - ((j / gs.1 / gs.2.1 : ℕ) : ℝ) := by
    rw [div_eq_iff h3.ne']; simp only [node3]; linear_combination er
  rw [hx, hy, hz, hat_axis s0 s1, hat_axis t0 t1, hat_axis r0 r1, ← mulVec_single W i j wf, hu]
  have k1 := fun z => ind_idx3 (z := z) (j := j) la lb
  have k2 : ∀ z, s * (if a + 1 + gs.1 * (b + gs.2.1 * z) = j then (1 : ℝ) else 0) =
      s * ((if j % gs.1 = a + 1 then 1 else 0) * ((if j / gs.1 % gs.2.1 = b then 1 else 0) * (if j / gs.1 / gs.2.1 = z then 1 else 0))) :=
    fun z => mul_of_ne (fun hs => ind_idx3 (ns hs) lb)
  have k3 : ∀ z, t * (if a + gs.1 * (b + 1 + gs.2.1 * z) = j then (1 : ℝ) else 0) =
      t * ((if j % gs.1 = a then 1 else 0) * ((if j / gs.1 % gs.2.1 = b + 1 then 1 else 0) * (if j / gs.1 / gs.2.1 = z then 1 else 0))) :=
    fun z => mul_of_ne (fun ht => ind_idx3 la (nt ht))
  have k4 : ∀ z, t * s * (if a + 1 + gs.1 * (b + 1 + gs.2.1 * z) = j then (1 : ℝ) else 0) =
      t * s * ((if j % gs.1 = a + 1 then 1 else 0) * ((if j / gs.1 % gs.2.1 = b + 1 then 1 else 0) * (if j / gs.1 / gs.2.1 = z then 1 else 0))) :=
    fun z => mul_of_ne (fun hts => ind_idx3 (ns (right_ne_zero_of_mul hts)) (nt (left_ne_zero_of_mul hts)))
  rw [k1, k1]
  linear_combination (1 - t) * (1 - r) * k2 d + (1 - s) * (1 - r) * k3 d + (1 - r) * k4 d + (1 - t) * r * k2 (d + 1) +
    (1 - s) * r * k3 (d + 1) + r * k4 (d + 1)

/-- **C34 (3D)** partition of unity with non-negative weights, exact on every trilinear function
`α₀ + α₁x + α₂y + α₃z + α₄xy + α₅yz + α₆zx + α₇xyz`. -/
theorem C34_fd_interpolate3_exact (P : List (V3 ℝ)) (gs : ℕ × ℕ × ℕ) (h : V3 ℝ) (corner : Option (V3 ℝ)) (h1 : 0 < h.x) (h2 : 0 < h.y)
    (h3 : 0 < h.z) :
    ∃ W, fdInterpolate3 P gs h corner = some W ∧
      ∀ i p, P[i]? = some p → InAxis p.x h.x (corner.getD 0).x gs.1 → InAxis p.y h.y (corner.getD 0).y gs.2.1 →
        InAxis p.z h.z (corner.getD 0).z gs.2.2 →
        (∀ j, 0 ≤ W.get i j) ∧ (∑ j ∈ range (gs.1 * gs.2.1 * gs.2.2), W.get i j = 1) ∧
        ∀ (f : V3 ℝ → ℝ) (α : ℕ → ℝ), (∀ q : V3 ℝ, f q = α 0 + α 1 * q.x + α 2 * q.y + α 3 * q.z + α 4 * q.x * q.y + α 5 * q.y * q.z +
            α 6 * q.z * q.x + α 7 * q.x * q.y * q.z) →
          ∑ j ∈ range (gs.1 * gs.2.1 * gs.2.2), W.get i j * f (node3 gs h (corner.getD 0) j) = f p := by
  obtain ⟨W, hW, _, _, hw⟩ := C34_fd_interpolate3_weights P gs h corner h1 h2 h3
  obtain ⟨W', hW', wf, e1, e2, hrow⟩ := fdInterpolate3_row P gs h corner h1 h2 h3
  rw [hW] at hW'; cases hW'
  refine ⟨W, hW, ?_⟩
  intro i p hp ha hb hd
  obtain ⟨a, b, d, s, t, r, la, lb, ld, s0, s1, t0, t1, r0, r1, ns, nt, nr, es, et, er, hu⟩ := hrow i p hp ha hb hd
  refine ⟨fun j => ?_, ?_, ?_⟩
  · rw [hw i p hp ha hb hd]; unfold hat; positivity
  · have := hu (fun _ => 1)
    unfold Csr.mulVec at this
    rw [← e2]
    simp only [mul_one] at this
    rw [this]; ring
  · intro f α hf
    set c := corner.getD 0
    have := hu (fun j => f (node3 gs h c j))
    unfold Csr.mulVec at this
    rw [← e2, this]
    have nd : ∀ x y z : ℕ, x < gs.1 → y < gs.2.1 → f (node3 gs h c (x + gs.1 * (y + gs.2.1 * z))) =
        f ⟨c.x + h.x * x, c.y + h.y * y, c.z + h.z * z⟩ := by
      intro x y z hx hy
      obtain ⟨d1, d2⟩ := decode2 (y := y + gs.2.1 * z) hx
      obtain ⟨d3, d4⟩ := decode2 (y := z) hy
      unfold node3; rw [d1, d2, d3, d4]
    have k2 : ∀ z : ℕ, s * f (node3 gs h c (a + 1 + gs.1 * (b + gs.2.1 * z))) = s * f ⟨c.x + h.x * (a + 1 : ℕ), c.y + h.y * b, c.z + h.z * z⟩ :=
      fun z => mul_of_ne (fun hs => nd _ _ _ (ns hs) lb)
    have k3 : ∀ z : ℕ, t * f (node3 gs h c (a + gs.1 * (b + 1 + gs.2.1 * z))) = t * f ⟨c.x + h.x * a, c.y + h.y * (b + 1 : ℕ), c.z + h.z * z⟩ :=
      fun z => mul_of_ne (fun ht => nd _ _ _ la (nt ht))
    have k4 : ∀ z : ℕ, t * s * f (node3 gs h c (a + 1 + gs.1 * (b + 1 + gs.2.1 * z))) =
        t * s * f ⟨c.x + h.x * (a + 1 : ℕ), c.y + h.y * (b + 1 : ℕ), c.z + h.z * z⟩ :=
      fun z => mul_of_ne (fun hts => nd _ _ _ (ns (right_ne_zero_of_mul hts)) (nt (left_ne_zero_of_mul hts)))
    rw [nd a b d la lb, nd a b (d + 1) la lb]
    have e : f p = (1 - t) * (1 - s) * (1 - r) * f ⟨c.x + h.x * a, c.y + h.y * b, c.z + h.z * d⟩ +
        (1 - s) * (1 - r) * (t * f ⟨c.x + h.x * a, c.y + h.y * (b + 1 : ℕ), c.z + h.z * d⟩) +
        (1 - t) * (1 - r) * (s * f ⟨c.x + h.x * (a + 1 : ℕ), c.y + h.y * b, c.z + h.z * d⟩) +
        (1 - r) * (t * s * f ⟨c.x + h.x * (a + 1 : ℕ), c.y + h.y * (b + 1 : ℕ), c.z + h.z * d⟩) +
        (1 - t) * (1 - s) * r * f ⟨c.x + h.x * a, c.y + h.y * b, c.z + h.z * (d + 1 : ℕ)⟩ +
        (1 - s) * r * (t * f ⟨c.x + h.x * a, c.y + h.y * (b + 1 : ℕ), c.z + h.z * (d + 1 : ℕ)⟩) +
        (1 - t) * r * (s * f ⟨c.x + h.x * (a + 1 : ℕ), c.y + h.y * b, c.z + h.z * (d + 1 : ℕ)⟩) +
        r * (t * s * f ⟨c.x + h.x * (a + 1 : ℕ), c.y + h.y * (b + 1 : ℕ), c.z + h.z * (d + 1 : ℕ)⟩) := by
      simp only [hf]
      rw [es, et, er]; push_cast; ring
    rw [e]
    linear_combination (1 - t) * (1 - r) * k2 d + (1 - s) * (1 - r) * k3 d + (1 - r) * k4 d + (1 - t) * r * k2 (d + 1) +
      (1 - s) * r * k3 (d + 1) + r * k4 (d + 1)

/-- the hypotheses are met: the point `(5/2, 3/2)` in a `4 × 3` grid of spacing one at the origin; nodes 6 and 7 and 10, 11 get weight `1/4` -/
example : ∃ W, fdInterpolate2 [(5 / 2, 3 / 2)] (4, 3) (1, 1) none = some W ∧ W.get 0 6 = 1 / 4 ∧ W.get 0 0 = 0 := by
  obtain ⟨W, hW, _, _, h⟩ := C34_fd_interpolate2_weights [(5 / 2, 3 / 2)] (4, 3) (1, 1) none (by norm_num) (by norm_num)
  have hk := h 0 (5 / 2, 3 / 2) rfl (by unfold InAxis; norm_num) (by unfold InAxis; norm_num)
  refine ⟨W, hW, ?_, ?_⟩ <;> rw [hk] <;> norm_num [node2, hat]

/-- **C35** `fd_partial_derivative` in 2D, direction 0: the row of the staggered node between two neighbouring nodes in this direction is the
difference quotient of the values there. -/
theorem C35_fd_partial2_x (gs : ℕ × ℕ) (h : ℝ × ℝ) :
    ∃ D, fdPartial2 gs h 0 = some D ∧ D.WF ∧ D.nrows = (gs.1 - 1) * gs.2 ∧ D.ncols = gs.1 * gs.2 ∧
      ∀ x y, x < (gs.1 - 1) → y < gs.2 → ∀ u, D.mulVec u (x + (gs.1 - 1) * y) = (u (x + 1 + gs.1 * y) - u (x + gs.1 * y)) / h.1 := by
  obtain ⟨D, hD, wf, e1, e2, hrow⟩ := fdDiff_row (fdIdx2 (gs.1 - 1, gs.2) gs) 1 (gs.1 * gs.2) h.1 (by
    intro e he
    obtain ⟨x, y, hx, hy, rfl⟩ := fdIdx2_mem he
    simp only at hx hy
    have := idx_lt2 (show x + 1 < gs.1 by omega) (show y < gs.2 by omega)
    calc _ = x + 1 + gs.1 * y := by ring
      _ < _ := this)
  refine ⟨D, hD, wf, by rw [e1, fdIdx2_length], e2, ?_⟩
  intro x y hx hy u
  rw [hrow _ _ (fdIdx2_get (gs.1 - 1, gs.2) gs hx hy)]
  congr 3
  ring

/-- **C35** `fd_partial_derivative` in 2D, direction 1: the row of the staggered node between two neighbouring nodes in this direction is the
difference quotient of the values there. -/
theorem C35_fd_partial2_y (gs : ℕ × ℕ) (h : ℝ × ℝ) :
    ∃ D, fdPartial2 gs h 1 = some D ∧ D.WF ∧ D.nrows = gs.1 * (gs.2 - 1) ∧ D.ncols = gs.1 * gs.2 ∧
      ∀ x y, x < gs.1 → y < (gs.2 - 1) → ∀ u, D.mulVec u (x + gs.1 * y) = (u (x + gs.1 * (y + 1)) - u (x + gs.1 * y)) / h.2 := by
  obtain ⟨D, hD, wf, e1, e2, hrow⟩ := fdDiff_row (fdIdx2 (gs.1, gs.2 - 1) gs) gs.1 (gs.1 * gs.2) h.2 (by
    intro e he
    obtain ⟨x, y, hx, hy, rfl⟩ := fdIdx2_mem he
    simp only at hx hy
    have := idx_lt2 (show x < gs.1 by omega) (show y + 1 < gs.2 by omega)
    calc _ = x + gs.1 * (y + 1) := by ring
      _ < _ := this)
  refine ⟨D, hD, wf, by rw [e1, fdIdx2_length], e2, ?_⟩
  intro x y hx hy u
  rw [hrow _ _ (fdIdx2_get (gs.1, gs.2 - 1) gs hx hy)]
  congr 3
  ring

/-- **C35** `fd_partial_derivative` in 3D, direction 0: the row of the staggered node between two neighbouring nodes in this direction is the
difference quotient of the values there. -/
theorem C35_fd_partial3_x (gs : ℕ × ℕ × ℕ) (h : V3 ℝ) :
    ∃ D, fdPartial3 gs h 0 = some D ∧ D.WF ∧ D.nrows = (gs.1 - 1) * gs.2.1 * gs.2.2 ∧ D.ncols = gs.1 * gs.2.1 * gs.2.2 ∧
      ∀ x y z, x < (gs.1 - 1) → y < gs.2.1 → z < gs.2.2 → ∀ u, D.mulVec u (x + (gs.1 - 1) * (y + gs.2.1 * z)) = (u (x + 1 + gs.1 * (y + gs.2.1 * z)) - u (x + gs.1 * (y + gs.2.1 * z))) / h.x := by
  obtain ⟨D, hD, wf, e1, e2, hrow⟩ := fdDiff_row (fdIdx3 (gs.1 - 1, gs.2.1, gs.2.2) gs) 1 (gs.1 * gs.2.1 * gs.2.2) h.x (by
    intro e he
    obtain ⟨x, y, z, hx, hy, hz, rfl⟩ := fdIdx3_mem he
    simp only at hx hy hz
    have := idx_lt3 (show x + 1 < gs.1 by omega) (show y < gs.2.1 by omega) (show z < gs.2.2 by omega)
    calc _ = x + 1 + gs.1 * (y + gs.2.1 * z) := by ring
      _ < _ := this)
  refine ⟨D, hD, wf, by rw [e1, fdIdx3_length], e2, ?_⟩
  intro x y z hx hy hz u
  rw [hrow _ _ (fdIdx3_get (gs.1 - 1, gs.2.1, gs.2.2) gs hx hy hz)]
  congr 3
  ring

/-- **C35** `fd_partial_derivative` in 3D, direction 1: the row of the staggered node between two neighbouring nodes in this direction is the
difference quotient of the values there. -/
theorem C35_fd_partial3_y (gs : ℕ × ℕ × ℕ) (h : V3 ℝ) :
    ∃ D, fdPartial3 gs h 1 = some D ∧ D.WF ∧ D.nrows = gs.1 * (gs.2.1 - 1) * gs.2.2 ∧ D.ncols = gs.1 * gs.2.1 * gs.2.2 ∧
      ∀ x y z, x < gs.1 → y < (gs.2.1 - 1) → z < gs.2.2 → ∀ u, D.mulVec u (x + gs.1 * (y + (gs.2.1 - 1) * z)) = (u (x + gs.1 * (y + 1 + gs.2.1 * z)) - u (x + gs.1 * (y + gs.2.1 * z))) / h.y := by
  obtain ⟨D, hD, wf, e1, e2, hrow⟩ := fdDiff_row (fdIdx3 (gs.1, gs.2.1 - 1, gs.2.2) gs) gs.1 (gs.1 * gs.2.1 * gs.2.2) h.y (by
    intro e he
    obtain ⟨x, y, z, hx, hy, hz, rfl⟩ := fdIdx3_mem he
    simp only at hx hy hz
    have := idx_lt3 (show x < gs.1 by omega) (show y + 1 < gs.2.1 by omega) (show z < gs.2.2 by omega)
    calc _ = x + gs.1 * (y + 1 + gs.2.1 * z) := by ring
      _ < _ := this)
  refine ⟨D, hD, wf, by rw [e1, fdIdx3_length], e2, ?_⟩
  intro x y z hx hy hz u
  rw [hrow _ _ (fdIdx3_get (gs.1, gs.2.1 - 1, gs.2.2) gs hx hy hz)]
  congr 3
  ring

/-- **C35** `fd_partial_derivative` in 3D, direction 2: the row of the staggered node between two neighbouring nodes in this direction is the
difference quotient of the values there. -/
theorem C35_fd_partial3_z (gs : ℕ × ℕ × ℕ) (h : V3 ℝ) :
    ∃ D, fdPartial3 gs h 2 = some D ∧ D.WF ∧ D.nrows = gs.1 * gs.2.1 * (gs.2.2 - 1) ∧ D.ncols = gs.1 * gs.2.1 * gs.2.2 ∧
      ∀ x y z, x < gs.1 → y < gs.2.1 → z < (gs.2.2 - 1) → ∀ u, D.mulVec u (x + gs.1 * (y + gs.2.1 * z)) = (u (x + gs.1 * (y + gs.2.1 * (z + 1))) - u (x + gs.1 * (y + gs.2.1 * z))) / h.z := by
  obtain ⟨D, hD, wf, e1, e2, hrow⟩ := fdDiff_row (fdIdx3 (gs.1, gs.2.1, gs.2.2 - 1) gs) (gs.1 * gs.2.1) (gs.1 * gs.2.1 * gs.2.2) h.z (by
    intro e he
    obtain ⟨x, y, z, hx, hy, hz, rfl⟩ := fdIdx3_mem he
    simp only at hx hy hz
    have := idx_lt3 (show x < gs.1 by omega) (show y < gs.2.1 by omega) (show z + 1 < gs.2.2 by omega)
    calc _ = x + gs.1 * (y + gs.2.1 * (z + 1)) := by ring
      _ < _ := this)
  refine ⟨D, hD, wf, by rw [e1, fdIdx3_length], e2, ?_⟩
  intro x y z hx hy hz u
  rw [hrow _ _ (fdIdx3_get (gs.1, gs.2.1, gs.2.2 - 1) gs hx hy hz)]
  congr 3
  ring

theorem split_idx {n k m : ℕ} (h : k < n * m) : k = k % n + n * (k / n) ∧ k % n < n ∧ k / n < m := by
  have h0 : 0 < n := by rcases Nat.eq_zero_or_pos n with h' | h' <;> [simp [h'] at h; exact h']
  exact ⟨(Nat.mod_add_div k n).symm, Nat.mod_lt _ h0, Nat.div_lt_of_lt_mul h⟩

/-- **C35 (2D)** `fd_grad` applied to the samples of an affine function at the nodes gives its slope in `x` at every staggered node of the first
block and its slope in `y` at every staggered node of the second. -/
theorem C35_fd_grad2_affine (gs : ℕ × ℕ) (h c : ℝ × ℝ) (h1 : h.1 ≠ 0) (h2 : h.2 ≠ 0) :
    ∃ G, fdGrad2 gs h = some G ∧ G.nrows = (gs.1 - 1) * gs.2 + gs.1 * (gs.2 - 1) ∧ G.ncols = gs.1 * gs.2 ∧
      ∀ (f : ℝ × ℝ → ℝ) (α β γ : ℝ), (∀ q, f q = α + β * q.1 + γ * q.2) →
        (∀ k, k < (gs.1 - 1) * gs.2 → G.mulVec (fun j => f (node2 gs h c j)) k = β) ∧
        (∀ k, k < gs.1 * (gs.2 - 1) → G.mulVec (fun j => f (node2 gs h c j)) ((gs.1 - 1) * gs.2 + k) = γ) := by
  obtain ⟨Dx, hx, wx, nx, cx, rx⟩ := C35_fd_partial2_x gs h
  obtain ⟨Dy, hy, wy, ny, cy, ry⟩ := C35_fd_partial2_y gs h
  refine ⟨csrVstack Dx Dy, ?_, ?_, ?_, ?_⟩
  · unfold fdGrad2; rw [hx, hy]; rfl
  · unfold csrVstack; simp only; rw [nx, ny]
  · unfold csrVstack; simp only; rw [cx]
  · intro f α β γ hf
    obtain ⟨v1, v2⟩ := vstack_mulVec wx wy (cy.trans cx.symm) (fun j => f (node2 gs h c j))
    have nd : ∀ x y : ℕ, x < gs.1 → f (node2 gs h c (x + gs.1 * y)) = α + β * (c.1 + h.1 * x) + γ * (c.2 + h.2 * y) := by
      intro x y hx'
      obtain ⟨d1, d2⟩ := decode2 (y := y) hx'
      rw [hf]; unfold node2; rw [d1, d2]
    constructor
    · intro k hk
      obtain ⟨e, b1, b2⟩ := split_idx hk
      rw [v1 k (by omega), e, rx _ _ b1 b2, nd _ _ (by omega), nd _ _ (by omega)]
      push_cast; field_simp; ring
    · intro k hk
      obtain ⟨e, b1, b2⟩ := split_idx hk
      rw [← nx, v2 k, e, ry _ _ b1 b2, nd _ _ (by omega), nd _ _ (by omega)]
      push_cast; field_simp; ring

/-- **C35 (3D)** the same for the three blocks of `fd_grad` in 3D. -/
theorem C35_fd_grad3_affine (gs : ℕ × ℕ × ℕ) (h c : V3 ℝ) (h1 : h.x ≠ 0) (h2 : h.y ≠ 0) (h3 : h.z ≠ 0) :
    ∃ G, fdGrad3 gs h = some G ∧
      G.nrows = (gs.1 - 1) * gs.2.1 * gs.2.2 + gs.1 * (gs.2.1 - 1) * gs.2.2 + gs.1 * gs.2.1 * (gs.2.2 - 1) ∧
      G.ncols = gs.1 * gs.2.1 * gs.2.2 ∧
      ∀ (f : V3 ℝ → ℝ) (α β γ δ : ℝ), (∀ q : V3 ℝ, f q = α + β * q.x + γ * q.y + δ * q.z) →
        (∀ k, k < (gs.1 - 1) * gs.2.1 * gs.2.2 → G.mulVec (fun j => f (node3 gs h c j)) k = β) ∧
        (∀ k, k < gs.1 * (gs.2.1 - 1) * gs.2.2 → G.mulVec (fun j => f (node3 gs h c j)) ((gs.1 - 1) * gs.2.1 * gs.2.2 + k) = γ) ∧
        (∀ k, k < gs.1 * gs.2.1 * (gs.2.2 - 1) →
          G.mulVec (fun j => f (node3 gs h c j)) ((gs.1 - 1) * gs.2.1 * gs.2.2 + gs.1 * (gs.2.1 - 1) * gs.2.2 + k) = δ) := by
  obtain ⟨Dx, hx, wx, nx, cx, rx⟩ := C35_fd_partial3_x gs h
  obtain ⟨Dy, hy, wy, ny, cy, ry⟩ := C35_fd_partial3_y gs h
  obtain ⟨Dz, hz, wz, nz, cz, rz⟩ := C35_fd_partial3_z gs h
  have nxy : (csrVstack Dx Dy).nrows = (gs.1 - 1) * gs.2.1 * gs.2.2 + gs.1 * (gs.2.1 - 1) * gs.2.2 := by
    unfold csrVstack; simp only; rw [nx, ny]
  have cxy : (csrVstack Dx Dy).ncols = gs.1 * gs.2.1 * gs.2.2 := by unfold csrVstack; simp only; rw [cx]
  have wxy := vstack_wf wx wy (cy.trans cx.symm)
  refine ⟨csrVstack (csrVstack Dx Dy) Dz, ?_, ?_, ?_, ?_⟩
  · unfold fdGrad3; rw [hx, hy, hz]; rfl
  · rw [← nxy, ← nz]; rfl
  · exact cxy
  · intro f α β γ δ hf
    obtain ⟨v1, v2⟩ := vstack_mulVec wx wy (cy.trans cx.symm) (fun j => f (node3 gs h c j))
    obtain ⟨v3, v4⟩ := vstack_mulVec wxy wz (cz.trans cxy.symm) (fun j => f (node3 gs h c j))
    have nd : ∀ x y z : ℕ, x < gs.1 → y < gs.2.1 → f (node3 gs h c (x + gs.1 * (y + gs.2.1 * z))) =
        α + β * (c.x + h.x * x) + γ * (c.y + h.y * y) + δ * (c.z + h.z * z) := by
      intro x y z hx' hy'
      obtain ⟨d1, d2⟩ := decode2 (y := y + gs.2.1 * z) hx'
      obtain ⟨d3, d4⟩ := decode2 (y := z) hy'
      rw [hf]; unfold node3; rw [d1, d2, d3, d4]
    refine ⟨?_, ?_, ?_⟩
    · intro k hk
      rw [v3 k (by rw [nxy]; omega), v1 k (by omega)]
      rw [mul_assoc] at hk
      obtain ⟨e, b1, b2⟩ := split_idx hk
      obtain ⟨e', b3, b4⟩ := split_idx b2
      rw [e, e', rx _ _ _ b1 b3 b4, nd _ _ _ (by omega) (by omega), nd _ _ _ (by omega) (by omega)]
      push_cast; field_simp; ring
    · intro k hk
      rw [v3 _ (by rw [nxy]; omega), ← nx, v2 k]
      rw [mul_assoc] at hk
      obtain ⟨e, b1, b2⟩ := split_idx hk
      obtain ⟨e', b3, b4⟩ := split_idx b2
      rw [e, e', ry _ _ _ b1 b3 b4, nd _ _ _ (by omega) (by omega), nd _ _ _ (by omega) (by omega)]
      push_cast; field_simp; ring
    · intro k hk
      rw [← nxy, v4 k]
      rw [mul_assoc] at hk
      obtain ⟨e, b1, b2⟩ := split_idx hk
      obtain ⟨e', b3, b4⟩ := split_idx b2
      rw [e, e', rz _ _ _ b1 b3 b4, nd _ _ _ (by omega) (by omega), nd _ _ _ (by omega) (by omega)]
      push_cast; field_simp; ring

/-- the row ranges are not empty: a `3 × 2` grid has four staggered nodes in `x` and three in `y` -/
example : ∃ G, fdGrad2 (3, 2) (1, 1) = some G ∧ G.nrows = 4 + 3 ∧
    G.mulVec (fun j => 2 * (node2 (3, 2) (1, 1) (0, 0) j).1 + 5 * (node2 (3, 2) (1, 1) (0, 0) j).2) 6 = 5 := by
  obtain ⟨G, hG, n1, _, hf⟩ := C35_fd_grad2_affine (3, 2) (1, 1) (0, 0) one_ne_zero one_ne_zero
  refine ⟨G, hG, n1, ?_⟩
  exact (hf (fun q => 2 * q.1 + 5 * q.2) 0 2 5 (fun q => by ring)).2 2 (by decide)

end Gpy
