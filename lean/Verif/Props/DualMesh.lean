import Verif.Proofs.DualClosed
import Verif.Proofs.DualReturns
import Mathlib.Data.List.GetD
import Mathlib.Data.Real.Sqrt
import Mathlib.Tactic.LinearCombination
import Mathlib.Data.Fin.VecNotation

/-!
# C119: the mesh of dual contouring
-/

set_option autoImplicit false
namespace Gpy.Dual
open Classical

variable (x : Ext) (o : Options) (S : List ℝ) (GV : List (Pt 3)) (nx ny nz : ℕ) (iso : ℝ) (V : List (Pt 3)) (F : List Quad)

/-- the grid of samples relative to the isovalue -/
def gridOf (S : List ℝ) (GV : List (Pt 3)) (nx ny nz : ℕ) (iso : ℝ) : Grid := ⟨nx, ny, nz, S.map (fun s => s - iso), GV⟩

theorem dual_some (h : dualContouring x o S GV nx ny nz iso = some (V, F)) : contouring x o (gridOf S GV nx ny nz iso) = some (V, F) := by
  unfold dualContouring at h
  split_ifs at h
  exact h

theorem from_cells (h : dualContouring x o S GV nx ny nz iso = some (V, F)) :
    ∃ cells, Inv (fun _ _ _ => True) (gridOf S GV nx ny nz iso) cells ∧ extract (gridOf S GV nx ny nz iso) cells = some (V, F) :=
  contouring_from x o (fun _ _ _ _ _ _ _ _ _ _ _ => trivial) (fun _ _ _ _ _ => trivial) (V, F) (dual_some x o S GV nx ny nz iso V F h)

/-- C119: whatever the options, the solvers and the random batches, the result has one vertex for every cell with samples on both sides of the isovalue and one quad for every inner edge with a sign change -/
theorem C119_mesh (h : dualContouring x o S GV nx ny nz iso = some (V, F)) : IsDualMesh (gridOf S GV nx ny nz iso) V.length F := by
  obtain ⟨cells, hI, hE⟩ := from_cells x o S GV nx ny nz iso V F h
  exact extract_dual hI (V, F) hE

/-- C119: every quad has four different corners, which are vertices of the mesh -/
theorem C119_corners (h : dualContouring x o S GV nx ny nz iso = some (V, F)) : ∀ q ∈ F, [q.a, q.b, q.c, q.d].Nodup ∧ q.a < V.length ∧ q.b < V.length ∧ q.c < V.length ∧ q.d < V.length :=
  quads_distinct _ _ _ (C119_mesh x o S GV nx ny nz iso V F h)

/-- C119: if no sample is equal to the isovalue and the samples on the boundary of the grid are all above or all below it, the mesh is closed: every side belongs to 0, 2 or 4 quads -/
theorem C119_closed (h : dualContouring x o S GV nx ny nz iso = some (V, F)) (hz : ∀ v, (gridOf S GV nx ny nz iso).Vert v → (gridOf S GV nx ny nz iso).at v ≠ 0)
    (hb : (∀ v, (gridOf S GV nx ny nz iso).Bdry v → 0 < (gridOf S GV nx ny nz iso).at v) ∨ ∀ v, (gridOf S GV nx ny nz iso).Bdry v → (gridOf S GV nx ny nz iso).at v < 0) (σ : Sym2 ℕ) :
    F.countP (fun q => decide (σ ∈ q.sides)) = 0 ∨ F.countP (fun q => decide (σ ∈ q.sides)) = 2 ∨ F.countP (fun q => decide (σ ∈ q.sides)) = 4 :=
  sides_even _ _ _ (C119_mesh x o S GV nx ny nz iso V F h) hz hb σ

/-- the normal of a quad at its first corner -/
def quadNormal (V : List (Pt 3)) (q : Quad) : Pt 3 := cross3 (V.getD q.b 0 - V.getD q.a 0) (V.getD q.d 0 - V.getD q.a 0)

theorem cross_swap (u v : Pt 3) : cross3 u v = -cross3 v u := by
  funext i
  fin_cases i <;> simp [cross3] <;> ring

theorem psq_neg3 (u : Pt 3) : psq (-u) = psq u := by simp [psq3]

theorem winding (V : List (Pt 3)) (n : Pt 3) (r q : Quad) (hq : q = if flipped V n r then r.rev else r) (hm : 1 / 10 ^ 24 ≤ psq (quadNormal V q)) : 0 ≤ pdot (quadNormal V q) n := by
  have hpos : (0 : ℝ) < 1 / 10 ^ 24 := by positivity
  have hrev : quadNormal V r.rev = -quadNormal V r := cross_swap _ _
  have hsz : 1 / 10 ^ 24 ≤ psq (quadNormal V r) := by
    rw [hq] at hm
    split_ifs at hm
    · rw [hrev, psq_neg3] at hm; exact hm
    · exact hm
  have hfl : flipped V n r = decide (0 < psq n ∧ 0 < psq (quadNormal V r) ∧ pdot (quadNormal V r) n < 0) := by
    unfold flipped
    simp only
    rw [if_neg (by exact not_lt.mpr hsz)]
    rfl
  rw [hq, hfl]
  split_ifs with h
  · rw [hrev]
    have := (of_decide_eq_true h).2.2
    have e : pdot (-quadNormal V r) n = -pdot (quadNormal V r) n := by simp only [pdot3, Pi.neg_apply]; ring
    rw [e]; linarith
  · by_contra hneg
    have h1 : ¬ 0 < psq n := fun h1 => h (decide_eq_true ⟨h1, by linarith, not_le.mp hneg⟩)
    have h0 : psq n = 0 := le_antisymm (not_lt.mp h1) (psq_nn n)
    rw [psq3] at h0
    have a0 : n 0 = 0 := by nlinarith [sq_nonneg (n 0), sq_nonneg (n 1), sq_nonneg (n 2)]
    have a1 : n 1 = 0 := by nlinarith [sq_nonneg (n 0), sq_nonneg (n 1), sq_nonneg (n 2)]
    have a2 : n 2 = 0 := by nlinarith [sq_nonneg (n 0), sq_nonneg (n 1), sq_nonneg (n 2)]
    rw [pdot3, a0, a1, a2] at hneg
    simp at hneg

/-- C119: a quad with a normal that is not tiny does not point against the sum of the two unit gradients at the ends of its edge -/
theorem C119_winding (h : dualContouring x o S GV nx ny nz iso = some (V, F)) :
    ∀ q ∈ F, 1 / 10 ^ 24 ≤ psq (quadNormal V q) → ∃ e : GEdge, (gridOf S GV nx ny nz iso).Inner e ∧ (gridOf S GV nx ny nz iso).Changes e ∧
      0 ≤ pdot (quadNormal V q) (gradientAt (gridOf S GV nx ny nz iso) e.v.1 e.v.2.1 e.v.2.2 + gradientAt (gridOf S GV nx ny nz iso) (up e.ax e.v).1 (up e.ax e.v).2.1 (up e.ax e.v).2.2) := by
  obtain ⟨cells, hI, hE⟩ := from_cells x o S GV nx ny nz iso V F h
  obtain ⟨-, L, -, hmem, hF⟩ := extract_rings hI (V, F) hE
  intro q hq hm
  obtain ⟨i, hi, rfl⟩ := List.mem_iff_getElem.mp hq
  have hi' : i < L.length := by rw [hF.length_eq]; exact hi
  obtain ⟨h1, h2⟩ := (hmem _).mp (List.getElem_mem hi')
  exact ⟨L[i], h1, h2, winding V _ _ _ (List.Forall₂.get hF hi' hi) hm⟩

/-- the samples of an affine function on a regular grid -/
structure Affine (g : Grid) (n lo h : Pt 3) (d : ℝ) : Prop where
  pos : ∀ i j k, g.Vert (i, j, k) → g.x i j k = ![lo 0 + i * h 0, lo 1 + j * h 1, lo 2 + k * h 2]
  val : ∀ i j k, g.Vert (i, j, k) → g.s i j k = pdot n (g.x i j k) + d
  step : ∀ a, 1 / 10 ^ 12 < h a

theorem gradient_affine (g : Grid) (n lo h : Pt 3) (d : ℝ) (hA : Affine g n lo h d) (hn : n ≠ 0) (hx : 2 ≤ g.nx) (hy : 2 ≤ g.ny) (hz : 2 ≤ g.nz) (i j k : ℕ) (hv : g.Vert (i, j, k)) :
    gradientAt g i j k = (1 / pnorm n) • n := by
  obtain ⟨h1, h2, h3⟩ := hv
  simp only at h1 h2 h3
  have hpn : 0 < pnorm n := Real.sqrt_pos.mpr (by
    rw [psq3]
    by_contra h0
    apply hn
    have a0 : n 0 = 0 := by nlinarith [sq_nonneg (n 0), sq_nonneg (n 1), sq_nonneg (n 2)]
    have a1 : n 1 = 0 := by nlinarith [sq_nonneg (n 0), sq_nonneg (n 1), sq_nonneg (n 2)]
    have a2 : n 2 = 0 := by nlinarith [sq_nonneg (n 0), sq_nonneg (n 1), sq_nonneg (n 2)]
    funext a; fin_cases a <;> assumption)
  have one : ∀ (a : Fin 3) (m p : ℕ), m < p → 1 / 10 ^ 12 < |((p : ℝ) - m) * h a| := by
    intro a m p hmp
    have hs := hA.step a
    have hp : (0 : ℝ) < 1 / 10 ^ 12 := by positivity
    have : (1 : ℝ) ≤ (p : ℝ) - m := by have : ((m + 1 : ℕ) : ℝ) ≤ p := Nat.cast_le.mpr hmp
                                       push_cast at this; linarith
    rw [abs_of_pos (mul_pos (by linarith) (by linarith))]
    nlinarith
  have key : (![if 1 / 10 ^ 12 < |g.x (min (g.nx - 1) (i + 1)) j k 0 - g.x (i - 1) j k 0| then
        (g.s (min (g.nx - 1) (i + 1)) j k - g.s (i - 1) j k) / (g.x (min (g.nx - 1) (i + 1)) j k 0 - g.x (i - 1) j k 0) else 0,
      if 1 / 10 ^ 12 < |g.x i (min (g.ny - 1) (j + 1)) k 1 - g.x i (j - 1) k 1| then
        (g.s i (min (g.ny - 1) (j + 1)) k - g.s i (j - 1) k) / (g.x i (min (g.ny - 1) (j + 1)) k 1 - g.x i (j - 1) k 1) else 0,
      if 1 / 10 ^ 12 < |g.x i j (min (g.nz - 1) (k + 1)) 2 - g.x i j (k - 1) 2| then
        (g.s i j (min (g.nz - 1) (k + 1)) - g.s i j (k - 1)) / (g.x i j (min (g.nz - 1) (k + 1)) 2 - g.x i j (k - 1) 2) else 0] : Pt 3) = n := by
    have pos0 : (0 : ℝ) < 1 / 10 ^ 12 := by positivity
    have q0 := one 0 (i - 1) (min (g.nx - 1) (i + 1)) (by omega)
    have q1 := one 1 (j - 1) (min (g.ny - 1) (j + 1)) (by omega)
    have q2 := one 2 (k - 1) (min (g.nz - 1) (k + 1)) (by omega)
    have v0 : g.Vert (min (g.nx - 1) (i + 1), j, k) := ⟨by simp only; omega, h2, h3⟩
    have v0' : g.Vert (i - 1, j, k) := ⟨by simp only; omega, h2, h3⟩
    have v1 : g.Vert (i, min (g.ny - 1) (j + 1), k) := ⟨h1, by simp only; omega, h3⟩
    have v1' : g.Vert (i, j - 1, k) := ⟨h1, by simp only; omega, h3⟩
    have v2 : g.Vert (i, j, min (g.nz - 1) (k + 1)) := ⟨h1, h2, by simp only; omega⟩
    have v2' : g.Vert (i, j, k - 1) := ⟨h1, h2, by simp only; omega⟩
    rw [hA.val _ _ _ v0, hA.val _ _ _ v0', hA.val _ _ _ v1, hA.val _ _ _ v1', hA.val _ _ _ v2, hA.val _ _ _ v2',
      hA.pos _ _ _ v0, hA.pos _ _ _ v0', hA.pos _ _ _ v1, hA.pos _ _ _ v1', hA.pos _ _ _ v2, hA.pos _ _ _ v2']
    generalize min (g.nx - 1) (i + 1) = ip at *
    generalize i - 1 = im at *
    generalize min (g.ny - 1) (j + 1) = jp at *
    generalize j - 1 = jm at *
    generalize min (g.nz - 1) (k + 1) = kp at *
    generalize k - 1 = km at *
    simp only [pdot3, Matrix.cons_val_zero, Matrix.cons_val_one, Matrix.cons_val]
    rw [show lo 0 + (ip : ℝ) * h 0 - (lo 0 + im * h 0) = ((ip : ℝ) - im) * h 0 by ring, show lo 1 + (jp : ℝ) * h 1 - (lo 1 + jm * h 1) = ((jp : ℝ) - jm) * h 1 by ring,
      show lo 2 + (kp : ℝ) * h 2 - (lo 2 + km * h 2) = ((kp : ℝ) - km) * h 2 by ring, if_pos q0, if_pos q1, if_pos q2]
    have z0 : ((ip : ℝ) - im) * h 0 ≠ 0 := fun h => by rw [h, abs_zero] at q0; linarith
    have z1 : ((jp : ℝ) - jm) * h 1 ≠ 0 := fun h => by rw [h, abs_zero] at q1; linarith
    have z2 : ((kp : ℝ) - km) * h 2 ≠ 0 := fun h => by rw [h, abs_zero] at q2; linarith
    funext a
    fin_cases a
    · show (_ : ℝ) / _ = n 0
      rw [div_eq_iff z0]; ring
    · show (_ : ℝ) / _ = n 1
      rw [div_eq_iff z1]; ring
    · show (_ : ℝ) / _ = n 2
      rw [div_eq_iff z2]; ring
  unfold gradientAt
  simp only
  rw [key, if_pos hpn]

/-- C119: on a regular grid with samples of a function with a constant gradient, no quad with a normal that is not tiny points against the gradient -/
theorem C119_plane (h : dualContouring x o S GV nx ny nz iso = some (V, F)) (n lo st : Pt 3) (d : ℝ) (hA : Affine (gridOf S GV nx ny nz iso) n lo st d) :
    ∀ q ∈ F, 1 / 10 ^ 24 ≤ psq (quadNormal V q) → 0 ≤ pdot (quadNormal V q) n := by
  intro q hq hm
  obtain ⟨e, hi, hc, hdot⟩ := C119_winding x o S GV nx ny nz iso V F h q hq hm
  have hsz : 2 ≤ nx ∧ 2 ≤ ny ∧ 2 ≤ nz := by
    unfold dualContouring at h
    split_ifs at h
    omega
  by_cases hn : n = 0
  · rw [hn]; simp [pdot3]
  have hvert : (gridOf S GV nx ny nz iso).Vert e.v ∧ (gridOf S GV nx ny nz iso).Vert (up e.ax e.v) := by
    obtain ⟨ax, i, j, k⟩ := e
    unfold Grid.Inner at hi
    fin_cases ax <;> simp [Grid.Vert, up, gridOf] at hi ⊢ <;> omega
  have e1 := gradient_affine _ n lo st d hA hn hsz.1 hsz.2.1 hsz.2.2 e.v.1 e.v.2.1 e.v.2.2 hvert.1
  have e2 := gradient_affine _ n lo st d hA hn hsz.1 hsz.2.1 hsz.2.2 (up e.ax e.v).1 (up e.ax e.v).2.1 (up e.ax e.v).2.2 hvert.2
  rw [e1, e2] at hdot
  have hpn : 0 < pnorm n := by
    refine lt_of_le_of_ne (Real.sqrt_nonneg _) (fun h0 => hn ?_)
    have := pnorm_mul_self n
    rw [← h0, psq3] at this
    have a0 : n 0 = 0 := by nlinarith [sq_nonneg (n 0), sq_nonneg (n 1), sq_nonneg (n 2)]
    have a1 : n 1 = 0 := by nlinarith [sq_nonneg (n 0), sq_nonneg (n 1), sq_nonneg (n 2)]
    have a2 : n 2 = 0 := by nlinarith [sq_nonneg (n 0), sq_nonneg (n 1), sq_nonneg (n 2)]
    funext a; fin_cases a <;> assumption
  have e3 : pdot (quadNormal V q) ((1 / pnorm n) • n + (1 / pnorm n) • n) = 2 / pnorm n * pdot (quadNormal V q) n := by
    simp only [pdot3, Pi.add_apply, Pi.smul_apply, smul_eq_mul]; ring
  rw [e3] at hdot
  exact nonneg_of_mul_nonneg_right hdot (by positivity)

/-- C119: dual contouring returns a mesh for every grid of the right size, if no sample lies less than `1e-16` above the isovalue and the weight of the Hermite positions is in [0,1] -/
theorem C119_returns (hx : 2 ≤ nx) (hy : 2 ≤ ny) (hz : 2 ≤ nz) (hS : S.length = nx * ny * nz) (hG : GV.length = nx * ny * nz) (hb : 0 < o.batch) (hw : 0 ≤ o.posWeight ∧ o.posWeight ≤ 1)
    (ht : ∀ s ∈ S, s ≤ iso ∨ iso + 1 / 10 ^ 16 ≤ s) : ∃ V F, dualContouring x o S GV nx ny nz iso = some (V, F) := by
  have hT : NoTiny (gridOf S GV nx ny nz iso) := by
    intro v
    show (S.map (fun s => s - iso)).getD _ 0 ≤ 0 ∨ _ ≤ (S.map (fun s => s - iso)).getD _ 0
    generalize (gridOf S GV nx ny nz iso).idx v.1 v.2.1 v.2.2 = n
    by_cases hn : n < S.length
    · rw [List.getD_eq_getElem _ _ (by simpa using hn), List.getElem_map]
      rcases ht _ (List.getElem_mem hn) with h | h
      · left; linarith
      · right; linarith
    · rw [List.getD_eq_default _ _ (by simpa using hn)]; left; exact le_rfl
  obtain ⟨⟨V, F⟩, hm⟩ := contouring_returns (P := OnEdge) (g := gridOf S GV nx ny nz iso) x o (onEdge_closed _ hw.1 hw.2) (fun c e p _ h => gen_onEdge hT c e p h) (fun cells h => extract_returns h)
  refine ⟨V, F, ?_⟩
  unfold dualContouring
  rw [if_neg (by omega), if_neg (by omega), if_neg (by omega), if_neg (by omega)]
  exact hm

/-! ### a sample equal to the isovalue -/

/-- samples on a 4 by 3 by 3 grid: -1 at (1,1,1), 0 at (2,1,1), 1 everywhere else -/
def holeS : List ℝ := (List.range 36).map (fun n => if n = 17 then -1 else if n = 18 then 0 else 1)

/-- a regular 4 by 3 by 3 grid -/
def holeG : List (Pt 3) := (List.range 36).map (fun n => ![((n % 4 : ℕ) : ℝ), ((n / 4 % 3 : ℕ) : ℝ), ((n / 12 : ℕ) : ℝ)])

theorem hole_at (v : Ijk) (h : v.1 + 4 * (v.2.1 + 3 * v.2.2) < 36) : (gridOf holeS holeG 4 3 3 0).at v = if v.1 + 4 * (v.2.1 + 3 * v.2.2) = 17 then -1 else if v.1 + 4 * (v.2.1 + 3 * v.2.2) = 18 then 0 else 1 := by
  show (holeS.map (fun s => s - 0)).getD (v.1 + 4 * (v.2.1 + 3 * v.2.2)) 0 = _
  generalize v.1 + 4 * (v.2.1 + 3 * v.2.2) = n at h ⊢
  unfold holeS
  rw [List.getD_eq_getElem _ _ (by simpa using h)]
  simp

/-- C119: with a sample equal to the isovalue the mesh can have a boundary inside the grid: here all samples on the boundary of the grid are above the isovalue, the mesh is returned, and a side belongs to a single quad -/
theorem C119_hole_violated (hb : 0 < o.batch) (hw : 0 ≤ o.posWeight ∧ o.posWeight ≤ 1) : (∀ v, (gridOf holeS holeG 4 3 3 0).Bdry v → 0 < (gridOf holeS holeG 4 3 3 0).at v) ∧
    ∃ V F, dualContouring x o holeS holeG 4 3 3 0 = some (V, F) ∧ ∃ σ : Sym2 ℕ, F.countP (fun q => decide (σ ∈ q.sides)) = 1 := by
  constructor
  · rintro ⟨i, j, k⟩ ⟨⟨h1, h2, h3⟩, h⟩
    simp only [gridOf] at h1 h2 h3 h
    rw [hole_at _ (by simp only; omega)]
    simp only
    rw [if_neg (by omega), if_neg (by omega)]; norm_num
  · obtain ⟨V, F, h⟩ := C119_returns x o holeS holeG 4 3 3 0 (by norm_num) (by norm_num) (by norm_num) (by simp [holeS]) (by simp [holeG]) hb hw (by
      intro s hs
      obtain ⟨n, -, rfl⟩ := List.mem_map.mp hs
      split_ifs
      · left; norm_num
      · left; norm_num
      · right; norm_num)
    refine ⟨V, F, h, ?_⟩
    obtain ⟨num, hbij, L, hL, hmem, hF⟩ := C119_mesh x o holeS holeG 4 3 3 0 V F h
    have A1 : (gridOf holeS holeG 4 3 3 0).Active (1, 1, 0) :=
      ⟨by simp [gridOf], by simp [gridOf], by simp [gridOf], ⟨0, 0, 1, by rw [hole_at _ (by decide)]; norm_num [corner]⟩, 0, 0, 0, by rw [hole_at _ (by decide)]; norm_num [corner]⟩
    have A2 : (gridOf holeS holeG 4 3 3 0).Active (1, 1, 1) :=
      ⟨by simp [gridOf], by simp [gridOf], by simp [gridOf], ⟨0, 0, 0, by rw [hole_at _ (by decide)]; norm_num [corner]⟩, 0, 1, 0, by rw [hole_at _ (by decide)]; norm_num [corner]⟩
    refine ⟨s(num (1, 1, 0), num (up 2 (1, 1, 0))), ?_⟩
    rw [count_face _ num hbij.injOn L hL hmem F hF 2 (1, 1, 0) A1 A2]
    have c1 : ¬ (gridOf holeS holeG 4 3 3 0).Changes ⟨0, (1, 1, 1)⟩ := by
      rw [changes_iff, hole_at _ (by decide), hole_at _ (by decide)]; norm_num [up]
    have c2 : ¬ (gridOf holeS holeG 4 3 3 0).Changes ⟨0, (1, 2, 1)⟩ := by
      rw [changes_iff, hole_at _ (by decide), hole_at _ (by decide)]; norm_num [up]
    have c3 : (gridOf holeS holeG 4 3 3 0).Inner ⟨1, (1, 1, 1)⟩ ∧ (gridOf holeS holeG 4 3 3 0).Changes ⟨1, (1, 1, 1)⟩ := by
      refine ⟨by simp [Grid.Inner, gridOf], ?_⟩
      rw [changes_iff, hole_at _ (by decide), hole_at _ (by decide)]; norm_num [up]
    have c4 : ¬ (gridOf holeS holeG 4 3 3 0).Changes ⟨1, (2, 1, 1)⟩ := by
      rw [changes_iff, hole_at _ (by decide), hole_at _ (by decide)]; norm_num [up]
    show List.countP _ [(⟨0, (1, 1, 1)⟩ : GEdge), ⟨0, (1, 2, 1)⟩, ⟨1, (1, 1, 1)⟩, ⟨1, (2, 1, 1)⟩] = 1
    simp only [List.countP_cons, List.countP_nil, c1, c2, c3, c4, and_false, and_self, decide_true, decide_false, if_true, Bool.false_eq_true, if_false]

/-- samples on a 3 by 3 by 3 grid: -1 at the middle, 1 everywhere else -/
def ballS : List ℝ := (List.range 27).map (fun n => if n = 13 then -1 else 1)

/-- a regular 3 by 3 by 3 grid -/
def ballG : List (Pt 3) := (List.range 27).map (fun n => ![((n % 3 : ℕ) : ℝ), ((n / 3 % 3 : ℕ) : ℝ), ((n / 9 : ℕ) : ℝ)])

theorem ball_at (v : Ijk) (h : v.1 + 3 * (v.2.1 + 3 * v.2.2) < 27) : (gridOf ballS ballG 3 3 3 0).at v = if v.1 + 3 * (v.2.1 + 3 * v.2.2) = 13 then -1 else 1 := by
  show (ballS.map (fun s => s - 0)).getD (v.1 + 3 * (v.2.1 + 3 * v.2.2)) 0 = _
  generalize v.1 + 3 * (v.2.1 + 3 * v.2.2) = n at h ⊢
  unfold ballS
  rw [List.getD_eq_getElem _ _ (by simpa using h)]
  simp

/-- the hypotheses of `C119_closed` hold for the samples of a small ball, and the mesh is returned and has a quad -/
example (hb : 0 < o.batch) (hw : 0 ≤ o.posWeight ∧ o.posWeight ≤ 1) : ∃ V F, dualContouring x o ballS ballG 3 3 3 0 = some (V, F) ∧ F ≠ [] ∧
    (∀ v, (gridOf ballS ballG 3 3 3 0).Vert v → (gridOf ballS ballG 3 3 3 0).at v ≠ 0) ∧ ∀ v, (gridOf ballS ballG 3 3 3 0).Bdry v → 0 < (gridOf ballS ballG 3 3 3 0).at v := by
  obtain ⟨V, F, h⟩ := C119_returns x o ballS ballG 3 3 3 0 (by norm_num) (by norm_num) (by norm_num) (by simp [ballS]) (by simp [ballG]) hb hw (by
      intro s hs
      obtain ⟨n, -, rfl⟩ := List.mem_map.mp hs
      split_ifs
      · left; norm_num
      · right; norm_num)
  refine ⟨V, F, h, ?_, ?_, ?_⟩
  · obtain ⟨num, -, L, -, hmem, hF⟩ := C119_mesh x o ballS ballG 3 3 3 0 V F h
    have : (⟨0, (0, 1, 1)⟩ : GEdge) ∈ L := by
      rw [hmem]
      refine ⟨by simp [Grid.Inner, gridOf], ?_⟩
      rw [changes_iff, ball_at _ (by decide), ball_at _ (by decide)]; norm_num [up]
    intro hF0
    rw [hF0] at hF
    cases hF
    simp at this
  · rintro ⟨i, j, k⟩ ⟨h1, h2, h3⟩
    simp only [gridOf] at h1 h2 h3
    rw [ball_at _ (by simp only; omega)]
    split_ifs <;> norm_num
  · rintro ⟨i, j, k⟩ ⟨⟨h1, h2, h3⟩, h⟩
    simp only [gridOf] at h1 h2 h3 h
    rw [ball_at _ (by simp only; omega), if_neg (by simp only; omega)]
    norm_num

/-- the hypotheses of `C119_plane` hold for the samples of `x - 1/2`, and the mesh is returned and has a quad -/
example (hb : 0 < o.batch) (hw : 0 ≤ o.posWeight ∧ o.posWeight ≤ 1) : ∃ V F, dualContouring x o ((List.range 27).map (fun n => ((n % 3 : ℕ) : ℝ) - 1 / 2)) ballG 3 3 3 0 = some (V, F) ∧ F ≠ [] ∧
    Affine (gridOf ((List.range 27).map (fun n => ((n % 3 : ℕ) : ℝ) - 1 / 2)) ballG 3 3 3 0) ![1, 0, 0] ![0, 0, 0] ![1, 1, 1] (-(1 / 2)) := by
  have hval : ∀ v : Ijk, v.1 + 3 * (v.2.1 + 3 * v.2.2) < 27 → (gridOf ((List.range 27).map (fun n => ((n % 3 : ℕ) : ℝ) - 1 / 2)) ballG 3 3 3 0).at v = (((v.1 + 3 * (v.2.1 + 3 * v.2.2)) % 3 : ℕ) : ℝ) - 1 / 2 := by
    intro v h
    show ((((List.range 27).map (fun n => ((n % 3 : ℕ) : ℝ) - 1 / 2)) : List ℝ).map (fun s => s - 0)).getD (v.1 + 3 * (v.2.1 + 3 * v.2.2)) 0 = _
    generalize v.1 + 3 * (v.2.1 + 3 * v.2.2) = n at h ⊢
    rw [List.getD_eq_getElem _ _ (by simpa using h)]
    simp
  obtain ⟨V, F, h⟩ := C119_returns x o ((List.range 27).map (fun n => ((n % 3 : ℕ) : ℝ) - 1 / 2)) ballG 3 3 3 0 (by norm_num) (by norm_num) (by norm_num) (by simp) (by simp [ballG]) hb hw (by
      intro s hs
      obtain ⟨n, -, rfl⟩ := List.mem_map.mp hs
      rcases Nat.eq_zero_or_pos (n % 3) with h0 | h0
      · left; rw [h0]; norm_num
      · right
        have : (1 : ℝ) ≤ ((n % 3 : ℕ) : ℝ) := by exact_mod_cast h0
        have h2 : (1 : ℝ) / 10 ^ 16 ≤ 1 / 2 := by norm_num
        linarith)
  refine ⟨V, F, h, ?_, ?_⟩
  · obtain ⟨num, -, L, -, hmem, hF⟩ := C119_mesh x o _ ballG 3 3 3 0 V F h
    have : (⟨0, (0, 1, 1)⟩ : GEdge) ∈ L := by
      rw [hmem]
      refine ⟨by simp [Grid.Inner, gridOf], ?_⟩
      rw [changes_iff, hval _ (by decide), hval _ (by decide)]; norm_num [up]
    intro hF0
    rw [hF0] at hF
    cases hF
    simp at this
  · have hpos : ∀ i j k : ℕ, i < 3 → j < 3 → k < 3 → (gridOf ((List.range 27).map (fun n => ((n % 3 : ℕ) : ℝ) - 1 / 2)) ballG 3 3 3 0).x i j k = ![(i : ℝ), (j : ℝ), (k : ℝ)] := by
      intro i j k h1 h2 h3
      show ballG.getD (i + 3 * (j + 3 * k)) 0 = _
      unfold ballG
      rw [List.getD_eq_getElem _ _ (by simp; omega)]
      simp only [List.getElem_map, List.getElem_range]
      rw [show (i + 3 * (j + 3 * k)) % 3 = i by omega, show (i + 3 * (j + 3 * k)) / 3 % 3 = j by omega, show (i + 3 * (j + 3 * k)) / 9 = k by omega]
    refine ⟨fun i j k hv => ?_, fun i j k hv => ?_, fun a => ?_⟩
    · obtain ⟨h1, h2, h3⟩ := hv
      simp only [gridOf] at h1 h2 h3
      rw [hpos i j k h1 h2 h3]; simp
    · obtain ⟨h1, h2, h3⟩ := hv
      simp only [gridOf] at h1 h2 h3
      have := hval (i, j, k) (by simp only; omega)
      simp only [Grid.at] at this
      rw [this, hpos i j k h1 h2 h3, show (i + 3 * (j + 3 * k)) % 3 = i by omega]
      simp [pdot3]; ring
    · fin_cases a <;> norm_num

/-! ### samples close to the isovalue -/

/-- samples on a 3 by 3 by 3 grid: 1/4 at the middle, -1/2 everywhere else, times `c` -/
noncomputable def tinyS (c : ℝ) : List ℝ := (List.range 27).map (fun n => if n = 13 then c / 4 else -c / 2)

theorem tiny_at (c : ℝ) (v : Ijk) (h : v.1 + 3 * (v.2.1 + 3 * v.2.2) < 27) : (gridOf (tinyS c) ballG 3 3 3 0).at v = if v.1 + 3 * (v.2.1 + 3 * v.2.2) = 13 then c / 4 else -c / 2 := by
  show ((tinyS c).map (fun s => s - 0)).getD (v.1 + 3 * (v.2.1 + 3 * v.2.2)) 0 = _
  generalize v.1 + 3 * (v.2.1 + 3 * v.2.2) = n at h ⊢
  unfold tinyS
  rw [List.getD_eq_getElem _ _ (by simpa using h)]
  simp

theorem ball_x (S : List ℝ) (i j k : ℕ) (h1 : i < 3) (h2 : j < 3) (h3 : k < 3) : (gridOf S ballG 3 3 3 0).x i j k = ![(i : ℝ), (j : ℝ), (k : ℝ)] := by
  show ballG.getD (i + 3 * (j + 3 * k)) 0 = _
  unfold ballG
  rw [List.getD_eq_getElem _ _ (by simp; omega)]
  simp only [List.getElem_map, List.getElem_range]
  rw [show (i + 3 * (j + 3 * k)) % 3 = i by omega, show (i + 3 * (j + 3 * k)) / 3 % 3 = j by omega, show (i + 3 * (j + 3 * k)) / 9 = k by omega]

theorem mapM_all {α β : Type} (f : α → Option β) : ∀ (l : List α) (r : List β), l.mapM f = some r → ∀ a ∈ l, ∃ b, f a = some b := by
  intro l
  induction l with
  | nil => intro r _ a ha; simp at ha
  | cons b l ih =>
    intro r h a ha
    rw [List.mapM_cons] at h
    simp only [Option.bind_eq_bind, Option.pure_def] at h
    obtain ⟨y, hy, h⟩ := Option.bind_eq_some_iff.mp h
    obtain ⟨ys, hys, -⟩ := Option.bind_eq_some_iff.mp h
    rcases List.mem_cons.mp ha with rfl | ha
    · exact ⟨y, hy⟩
    · exact ih ys hys a ha

theorem far_off (p v0 v1 : Pt 3) (h : psq (v1 - v0) = 1) (hp : 1001 / 1000 < pdot (p - v0) (v1 - v0) ∨ 1 / 10 ^ 12 ≤ psq (p - (v0 + pdot (p - v0) (v1 - v0) • (v1 - v0)))) : isPointOnEdge p v0 v1 = false := by
  unfold isPointOnEdge
  simp only
  rw [h, if_neg (by norm_num), div_one]
  split_ifs with h1
  · rfl
  · rcases hp with hp | hp
    · exact absurd (Or.inr hp) h1
    · rw [decide_eq_false_iff_not, not_lt]
      unfold pnorm
      exact Real.le_sqrt_of_sq_le (by rw [div_pow, one_pow, ← pow_mul]; exact hp)

/-- C119: the result depends on the unit of the samples: with all samples multiplied by `1e-16` an exception is raised where a mesh is returned otherwise -/
theorem C119_tiny_violated (hb : 0 < o.batch) (hw : 0 ≤ o.posWeight ∧ o.posWeight ≤ 1) :
    (∃ V F, dualContouring x o (tinyS 1) ballG 3 3 3 0 = some (V, F)) ∧ dualContouring x o (tinyS (1 / 10 ^ 16)) ballG 3 3 3 0 = none := by
  constructor
  · refine C119_returns x o (tinyS 1) ballG 3 3 3 0 (by norm_num) (by norm_num) (by norm_num) (by simp [tinyS]) (by simp [ballG]) hb hw (fun s hs => ?_)
    obtain ⟨n, -, rfl⟩ := List.mem_map.mp hs
    split_ifs
    · right; norm_num
    · left; norm_num
  · set c : ℝ := 1 / 10 ^ 16 with hc
    have hc0 : 0 < c := by rw [hc]; positivity
    unfold dualContouring
    rw [if_neg (by omega), if_neg (by simp [tinyS, ballG]), if_neg (by simp [tinyS]), if_neg (by omega)]
    show contouring x o (gridOf (tinyS c) ballG 3 3 3 0) = none
    set g := gridOf (tinyS c) ballG 3 3 3 0 with hg
    have hI : Inv (fun b e p => b.pos e = some p) g (firstCells x g) := firstCells_inv x (fun c e p _ h => h)
    have hE : extract g (firstCells x g) = none := by
      by_contra hne
      obtain ⟨m, hm⟩ := Option.ne_none_iff_exists'.mp hne
      rw [extract_eq] at hm
      obtain ⟨qs, hqs, -⟩ := Option.map_eq_some_iff.mp hm
      have hin : g.Inner ⟨0, (1, 1, 1)⟩ := by simp [Grid.Inner, hg, gridOf]
      have hch : g.Changes ⟨0, (1, 1, 1)⟩ := by
        rw [changes_iff, tiny_at _ _ (by decide), tiny_at _ _ (by decide)]
        simp [up]
        nlinarith
      obtain ⟨b, hb⟩ := mapM_all _ _ _ hqs ⟨0, (1, 1, 1)⟩ ((mem_edges g _).mpr hin)
      rw [quadOf_changes hI _ hin hch] at hb
      obtain ⟨u, hu, -⟩ := Option.map_eq_some_iff.mp hb
      have hA := around_active _ hin hch 0
      obtain ⟨y, hy, hk⟩ := hI.get _ (active_cell hA)
      unfold hasNormal at hu
      rw [cellIdx_eq g _ (active_cell hA), Int.toNat_natCast, hy] at hu
      simp only at hu
      split_ifs at hu with hany
      obtain ⟨e, he, hpe⟩ := List.any_eq_true.mp hany
      have he12 : e < 12 := by simpa using he
      have hcell : around (⟨0, (1, 1, 1)⟩ : GEdge) 0 = (1, 0, 0) := rfl
      rw [hcell] at hk
      split at hpe
      swap
      · exact absurd hpe (by simp)
      rename_i p hp
      have hgp := hk.sat e p hp
      have hcr := (((gen_slot g (1, 0, 0) e).1).mp (by rw [hgp]; rfl)).2.2
      have hpp := gen_pos g (1, 0, 0) e p hgp
      simp only [(gen_basic g (1, 0, 0)).2.2.2.2] at hpp
      have X := ball_x (tinyS c)
      rw [← hg] at X
      have A := tiny_at c
      rw [← hg] at A
      have l1 : lerpT (-c / 2) (c / 4) = -2 := by
        unfold lerpT
        rw [← hc, div_eq_iff (by linarith)]; ring
      have l2 : lerpT (c / 4) (-c / 2) = 1 / 7 := by
        unfold lerpT
        rw [← hc, div_eq_iff (by linarith)]; ring
      have hv0 : g.x 1 1 1 = ![1, 1, 1] := by rw [X 1 1 1 (by norm_num) (by norm_num) (by norm_num)]; norm_num
      have hv1 : g.x 2 1 1 = ![2, 1, 1] := by rw [X 2 1 1 (by norm_num) (by norm_num) (by norm_num)]; norm_num
      have hf : isPointOnEdge p (g.x 1 1 1) (g.x 2 1 1) = true := hpe
      rw [hv0, hv1] at hf
      have hlen : psq ((![2, 1, 1] : Pt 3) - ![1, 1, 1]) = 1 := by simp [psq3]; norm_num
      have hneg : ¬ (-c / 2) * (-c / 2) ≤ 0 := by nlinarith
      interval_cases e
      · rw [A _ (by decide), A _ (by decide)] at hcr; simp [cv, endA, endB, edgePairs, off] at hcr; nlinarith
      · rw [A _ (by decide), A _ (by decide)] at hcr; simp [cv, endA, endB, edgePairs, off] at hcr; nlinarith
      · rw [A _ (by decide), A _ (by decide)] at hcr; simp [cv, endA, endB, edgePairs, off] at hcr; nlinarith
      · rw [A _ (by decide), A _ (by decide)] at hcr; simp [cv, endA, endB, edgePairs, off] at hcr; nlinarith
      · rw [A _ (by decide), A _ (by decide)] at hcr; simp [cv, endA, endB, edgePairs, off] at hcr; nlinarith
      · rw [A _ (by decide), A _ (by decide)] at hcr; simp [cv, endA, endB, edgePairs, off] at hcr; nlinarith
      · rw [A _ (by decide), A _ (by decide)] at hpp
        simp [cv, endA, endB, edgePairs, off, l1, X] at hpp
        have hq : p = ![4, 1, 1] := by rw [hpp]; funext a; fin_cases a <;> simp <;> norm_num
        rw [far_off _ _ _ hlen (Or.inl (by rw [hq]; simp [pdot3, psq3]; norm_num))] at hf
        simp at hf
      · rw [A _ (by decide), A _ (by decide)] at hpp
        simp [cv, endA, endB, edgePairs, off, l2, X] at hpp
        have hq : p = ![1, 6 / 7, 1] := by rw [hpp]; funext a; fin_cases a <;> simp <;> norm_num
        rw [far_off _ _ _ hlen (Or.inr (by rw [hq]; simp [pdot3, psq3]; norm_num))] at hf
        simp at hf
      · rw [A _ (by decide), A _ (by decide)] at hcr; simp [cv, endA, endB, edgePairs, off] at hcr; nlinarith
      · rw [A _ (by decide), A _ (by decide)] at hcr; simp [cv, endA, endB, edgePairs, off] at hcr; nlinarith
      · rw [A _ (by decide), A _ (by decide)] at hcr; simp [cv, endA, endB, edgePairs, off] at hcr; nlinarith
      · rw [A _ (by decide), A _ (by decide)] at hpp
        simp [cv, endA, endB, edgePairs, off, l1, X] at hpp
        have hq : p = ![1, 1, -2] := by rw [hpp]
        rw [far_off _ _ _ hlen (Or.inr (by rw [hq]; simp [pdot3, psq3]; norm_num))] at hf
        simp at hf
    unfold contouring
    simp only
    rw [hE]; rfl

end Gpy.Dual
