import Verif.Props.DualMesh
import Mathlib.Analysis.Calculus.Deriv.Add
import Mathlib.Analysis.Calculus.Deriv.Mul
import Mathlib.Tactic.FieldSimp
import Mathlib.Tactic.FinCases
import Mathlib.Data.Fintype.Fin
import Mathlib.Algebra.BigOperators.Fin

/-!
# C139: the normals that dual contouring starts from

`cpp/dual_contouring_of_signed_distance_data/Cell.cpp:62-194` and `contouring.cpp:196-257`: in every cell, the normal at a crossed edge is the direction of the gradient of the trilinear function through the eight samples.
-/

set_option autoImplicit false
namespace Gpy.Dual

noncomputable section
open Classical

/-- specification: the eight corners of the unit cube, the bottom square and then the top square, both in circular order -/
def cube (c : Fin 8) (a : Fin 3) : ℝ := (![![0, 0, 0], ![1, 0, 0], ![1, 1, 0], ![0, 1, 0], ![0, 0, 1], ![1, 0, 1], ![1, 1, 1], ![0, 1, 1]] : Fin 8 → Fin 3 → ℝ) c a

/-- specification: the corners of the box with lowest corner `lo` and sides `h` -/
def boxCorner (lo h : Pt 3) (c : Fin 8) : Pt 3 := fun a => lo a + cube c a * h a

/-- specification: the trilinear function on a box with the values `s` at its corners -/
def trilinear (lo h : Pt 3) (s : Fin 8 → ℝ) (p : Pt 3) : ℝ :=
  ∑ c, s c * ∏ a, (cube c a * ((p a - lo a) / h a) + (1 - cube c a) * (1 - (p a - lo a) / h a))

/-- specification: the point of a box nearest to a point -/
def intoBox (lo h p : Pt 3) : Pt 3 := fun a => max (lo a) (min (lo a + h a) (p a))

/-- specification: `G` is the gradient of `f` at `q`: its entries are the partial derivatives -/
def IsGradAt (f : Pt 3 → ℝ) (G q : Pt 3) : Prop := ∀ a, HasDerivAt (fun s => f (Function.update q a s)) (G a) (q a)

/-- specification: the twelve edges of a cell -/
def cubeEdge (e : Fin 12) : Fin 8 × Fin 8 := (![(0, 1), (1, 2), (2, 3), (3, 0), (4, 5), (5, 6), (6, 7), (7, 4), (0, 4), (1, 5), (2, 6), (3, 7)] : Fin 12 → Fin 8 × Fin 8) e

/-- the twelve edges are the pairs of corners that differ along one axis, each once -/
theorem cubeEdge_spec : (∀ e, ∃ a, ∀ b, cube (cubeEdge e).1 b ≠ cube (cubeEdge e).2 b ↔ b = a) ∧
    ∀ e e', ((cubeEdge e).1 = (cubeEdge e').1 ∧ (cubeEdge e).2 = (cubeEdge e').2 ∨ (cubeEdge e).1 = (cubeEdge e').2 ∧ (cubeEdge e).2 = (cubeEdge e').1) → e = e' := by
  constructor
  · intro e
    fin_cases e
    · exact ⟨0, fun b => by fin_cases b <;> simp [cube, cubeEdge]⟩
    · exact ⟨1, fun b => by fin_cases b <;> simp [cube, cubeEdge]⟩
    · exact ⟨0, fun b => by fin_cases b <;> simp [cube, cubeEdge]⟩
    · exact ⟨1, fun b => by fin_cases b <;> simp [cube, cubeEdge]⟩
    · exact ⟨0, fun b => by fin_cases b <;> simp [cube, cubeEdge]⟩
    · exact ⟨1, fun b => by fin_cases b <;> simp [cube, cubeEdge]⟩
    · exact ⟨0, fun b => by fin_cases b <;> simp [cube, cubeEdge]⟩
    · exact ⟨1, fun b => by fin_cases b <;> simp [cube, cubeEdge]⟩
    · exact ⟨2, fun b => by fin_cases b <;> simp [cube, cubeEdge]⟩
    · exact ⟨2, fun b => by fin_cases b <;> simp [cube, cubeEdge]⟩
    · exact ⟨2, fun b => by fin_cases b <;> simp [cube, cubeEdge]⟩
    · exact ⟨2, fun b => by fin_cases b <;> simp [cube, cubeEdge]⟩
  · unfold cubeEdge
    decide

/-- C139: the trilinear function takes the samples at the corners -/
theorem C139_interpolates (lo h : Pt 3) (s : Fin 8 → ℝ) (hh : ∀ a, 0 < h a) (c : Fin 8) : trilinear lo h s (boxCorner lo h c) = s c := by
  have h0 := (hh 0).ne'
  have h1 := (hh 1).ne'
  have h2 := (hh 2).ne'
  have key : ∀ a, (boxCorner lo h c a - lo a) / h a = cube c a := by
    intro a
    have := (hh a).ne'
    simp only [boxCorner]
    field_simp
    ring
  unfold trilinear
  simp only [key]
  fin_cases c <;> simp [Fin.sum_univ_eight, Fin.prod_univ_three, cube]

theorem clamp_box (l h x : ℝ) (hh : 0 < h) : clamp01 ((x - l) / h) = (max l (min (l + h) x) - l) / h := by
  unfold clamp01
  rcases le_total x l with h1 | h1
  · have : (x - l) / h ≤ 0 := div_nonpos_of_nonpos_of_nonneg (by linarith) hh.le
    rw [min_eq_right (by linarith), max_eq_left this, min_eq_right (by linarith), max_eq_left h1]; simp
  · rcases le_total (l + h) x with h2 | h2
    · have : 1 ≤ (x - l) / h := by rw [le_div_iff₀ hh]; linarith
      rw [min_eq_left this, max_eq_right (by norm_num), min_eq_left h2, max_eq_right (by linarith)]
      field_simp; ring
    · have a1 : (x - l) / h ≤ 1 := by rw [div_le_iff₀ hh]; linarith
      have a2 : 0 ≤ (x - l) / h := div_nonneg (by linarith) hh.le
      rw [min_eq_right a1, max_eq_right a2, min_eq_right h2, max_eq_right h1]

/-- C139: the gradient at a point is the gradient of the trilinear function at the nearest point of the cell -/
theorem C139_gradient (lo h : Pt 3) (sdf : ℕ → ℝ) (corners : ℕ → Pt 3) (hh : ∀ a, 1 / 10 ^ 12 < h a) (hc : ∀ c : Fin 8, corners c = boxCorner lo h c) (p : Pt 3) :
    IsGradAt (trilinear lo h (fun c => sdf c)) (trilinearGrad sdf corners p) (intoBox lo h p) := by
  have pos : (0 : ℝ) < 1 / 10 ^ 12 := by positivity
  have hp : ∀ a, 0 < h a := fun a => pos.trans (hh a)
  have g0 := (hp 0).ne'
  have g1 := (hp 1).ne'
  have g2 := (hp 2).ne'
  have c0 := hc 0
  have c1 := hc 1
  have c3 := hc 3
  have c4 := hc 4
  simp only [Fin.val_zero, Fin.val_one, show ((3 : Fin 8) : ℕ) = 3 from rfl, show ((4 : Fin 8) : ℕ) = 4 from rfl] at c0 c1 c3 c4
  have e0 : corners 1 0 = lo 0 + h 0 := by rw [c1]; simp [boxCorner, cube]
  have e1 : corners 3 1 = lo 1 + h 1 := by rw [c3]; simp [boxCorner, cube]
  have e2 : corners 4 2 = lo 2 + h 2 := by rw [c4]; simp [boxCorner, cube]
  have o : ∀ a, corners 0 a = lo a := by intro a; rw [c0]; fin_cases a <;> simp [boxCorner, cube]
  have ab : ∀ a, 1 / 10 ^ 12 < |h a| := fun a => by rw [abs_of_pos (hp a)]; exact hh a
  intro a
  have lin : ∀ s, trilinear lo h (fun c => sdf c) (Function.update (intoBox lo h p) a s)
      = trilinearGrad sdf corners p a * (s - intoBox lo h p a) + trilinear lo h (fun c => sdf c) (intoBox lo h p) := by
    intro s
    simp only [trilinearGrad, e0, e1, e2, o, add_sub_cancel_left, ab, if_true, clamp_box _ _ _ (hp _)]
    have q : ∀ a, max (lo a) (min (lo a + h a) (p a)) = intoBox lo h p a := fun _ => rfl
    simp only [q]
    generalize intoBox lo h p = y
    fin_cases a <;> simp [trilinear, Fin.sum_univ_eight, Fin.prod_univ_three, cube, Function.update] <;> field_simp <;> ring
  have fe : (fun s => trilinear lo h (fun c => sdf c) (Function.update (intoBox lo h p) a s))
      = fun s => trilinearGrad sdf corners p a * (s - intoBox lo h p a) + trilinear lo h (fun c => sdf c) (intoBox lo h p) := funext lin
  rw [fe]
  simpa using (((hasDerivAt_id (intoBox lo h p a)).sub_const (intoBox lo h p a)).const_mul (trilinearGrad sdf corners p a)).add_const (trilinear lo h (fun c => sdf c) (intoBox lo h p))

theorem grid_corner (g : Grid) (lo st : Pt 3) (hpos : ∀ i j k, g.Vert (i, j, k) → g.x i j k = ![lo 0 + i * st 0, lo 1 + j * st 1, lo 2 + k * st 2]) (i j k : ℕ)
    (hi : i + 1 < g.nx) (hj : j + 1 < g.ny) (hk : k + 1 < g.nz) (c : Fin 8) :
    (genCell g i j k).corners c = boxCorner ![lo 0 + i * st 0, lo 1 + j * st 1, lo 2 + k * st 2] st c := by
  have e : (genCell g i j k).corners c = g.x (i + (off.getD c (0, 0, 0)).1) (j + (off.getD c (0, 0, 0)).2.1) (k + (off.getD c (0, 0, 0)).2.2) := by
    unfold genCell fillHermite
    split <;> rfl
  rw [e, hpos]
  · funext a
    fin_cases c <;> fin_cases a <;> simp [off, boxCorner, cube] <;> ring
  · fin_cases c <;> simp [off, Grid.Vert] <;> omega

/-- C139: the cells that the optimisation starts from.  On a regular grid, every cell with both signs among its corners has at every edge with a change of sign, and only there, the point where linear interpolation (with the
guard 1e-16) finds a root, and the unit gradient of the trilinear function through its samples at the point of the cell nearest to it -/
theorem C139_normals (g : Grid) (lo st : Pt 3) (hs : ∀ a, 1 / 10 ^ 12 < st a)
    (hpos : ∀ i j k, g.Vert (i, j, k) → g.x i j k = ![lo 0 + i * st 0, lo 1 + j * st 1, lo 2 + k * st 2]) (cell : Cell) (hc : cell ∈ generateCells g) :
    ∃ i j k, i + 1 < g.nx ∧ j + 1 < g.ny ∧ k + 1 < g.nz ∧ ∃ (s : Fin 8 → ℝ) (base : Pt 3), base = g.x i j k ∧
      (∀ c : Fin 8, s c = cell.sdf c ∧ cell.corners c = boxCorner base st c) ∧
      (s 0 = g.s i j k ∧ s 1 = g.s (i + 1) j k ∧ s 2 = g.s (i + 1) (j + 1) k ∧ s 3 = g.s i (j + 1) k ∧
        s 4 = g.s i j (k + 1) ∧ s 5 = g.s (i + 1) j (k + 1) ∧ s 6 = g.s (i + 1) (j + 1) (k + 1) ∧ s 7 = g.s i (j + 1) (k + 1)) ∧
      (∀ e : Fin 12, (cell.nrm e).isSome ↔ (∃ c, s c < 0) ∧ (∃ c, 0 < s c) ∧ s (cubeEdge e).1 * s (cubeEdge e).2 ≤ 0) ∧
      (∀ e, (cell.pos e).isSome ↔ (cell.nrm e).isSome) ∧
      ∀ (e : Fin 12) n p, cell.nrm e = some n → cell.pos e = some p →
        p = boxCorner base st (cubeEdge e).1 + (s (cubeEdge e).1 / (s (cubeEdge e).1 - s (cubeEdge e).2 + 1 / 10 ^ 16)) • (boxCorner base st (cubeEdge e).2 - boxCorner base st (cubeEdge e).1) ∧
        ∃ G, IsGradAt (trilinear base st s) G (intoBox base st p) ∧ n = normalized G := by
  simp only [generateCells, List.mem_flatMap, List.mem_map, List.mem_range] at hc
  obtain ⟨k, hk, j, hj, i, hi, rfl⟩ := hc
  have hk' : k + 1 < g.nz := by omega
  have hj' : j + 1 < g.ny := by omega
  have hi' : i + 1 < g.nx := by omega
  have hb : g.x i j k = ![lo 0 + i * st 0, lo 1 + j * st 1, lo 2 + k * st 2] := hpos i j k ⟨by simp only; omega, by simp only; omega, by simp only; omega⟩
  have hcor := grid_corner g lo st hpos i j k hi' hj' hk'
  rw [← hb] at hcor
  have es : ∀ c, (genCell g i j k).sdf c = g.s (i + (off.getD c (0, 0, 0)).1) (j + (off.getD c (0, 0, 0)).2.1) (k + (off.getD c (0, 0, 0)).2.2) := by
    intro c
    unfold genCell fillHermite
    split <;> rfl
  have hN : ∀ e : ℕ, (genCell g i j k).nrm e = if ((genCell g i j k).has = true) ∧ e < 12 ∧ ¬ 0 < (genCell g i j k).sdf (edgePairs.getD e (0, 0)).1 * (genCell g i j k).sdf (edgePairs.getD e (0, 0)).2 then
      some (normalized (trilinearGrad (genCell g i j k).sdf (genCell g i j k).corners (hermitePos (genCell g i j k) e))) else none := by
    intro e
    unfold genCell
    generalize newCell _ _ _ _ _ = c
    unfold fillHermite
    split
    · rename_i hh
      simp only [hh, true_and]
      rfl
    · rename_i hh
      simp [hh]
  have hP : ∀ e : ℕ, (genCell g i j k).pos e = if ((genCell g i j k).has = true) ∧ e < 12 ∧ ¬ 0 < (genCell g i j k).sdf (edgePairs.getD e (0, 0)).1 * (genCell g i j k).sdf (edgePairs.getD e (0, 0)).2 then
      some (hermitePos (genCell g i j k) e) else none := by
    intro e
    unfold genCell
    generalize newCell _ _ _ _ _ = c
    unfold fillHermite
    split
    · rename_i hh
      simp only [hh, true_and]
      rfl
    · rename_i hh
      simp [hh]
  have hH : (genCell g i j k).has = true ↔ (∃ c : Fin 8, (genCell g i j k).sdf c < 0) ∧ ∃ c : Fin 8, 0 < (genCell g i j k).sdf c := by
    have e : (genCell g i j k).has = ((List.range 8).any (fun c => decide ((genCell g i j k).sdf c < 0)) && (List.range 8).any (fun c => decide (0 < (genCell g i j k).sdf c))) := by
      unfold genCell fillHermite
      split <;> rfl
    rw [e]
    simp only [Bool.and_eq_true, List.any_eq_true, List.mem_range, decide_eq_true_eq]
    exact ⟨fun ⟨⟨a, h1, h2⟩, b, h3, h4⟩ => ⟨⟨⟨a, h1⟩, h2⟩, ⟨b, h3⟩, h4⟩, fun ⟨⟨a, h2⟩, b, h4⟩ => ⟨⟨a, a.2, h2⟩, b, b.2, h4⟩⟩
  have hE : ∀ e : Fin 12, edgePairs.getD e (0, 0) = (((cubeEdge e).1 : ℕ), ((cubeEdge e).2 : ℕ)) := by
    intro e
    fin_cases e <;> rfl
  refine ⟨i, j, k, hi', hj', hk', fun c => (genCell g i j k).sdf c, g.x i j k, rfl, fun c => ⟨rfl, hcor c⟩, ⟨?_, ?_, ?_, ?_, ?_, ?_, ?_, ?_⟩, ?_, ?_, ?_⟩
  iterate 8 exact (es _).trans rfl
  · intro e
    rw [hN, hE]
    split
    · rename_i hh
      simp only [Option.isSome_some, true_iff]
      exact ⟨(hH.mp hh.1).1, (hH.mp hh.1).2, not_lt.mp hh.2.2⟩
    · rename_i hh
      simp only [Option.isSome_none, Bool.false_eq_true, false_iff]
      rintro ⟨h1, h1', h2⟩
      exact hh ⟨hH.mpr ⟨h1, h1'⟩, e.2, not_lt.mpr h2⟩
  · intro e
    rw [hN, hP]
    split <;> simp
  · intro e n p hn hp
    rw [hP] at hp
    rw [hN] at hn
    split at hn
    · rename_i hh
      rw [if_pos hh] at hp
      simp only [Option.some.injEq] at hn hp
      rw [hp] at hn
      refine ⟨?_, _, C139_gradient (g.x i j k) st (genCell g i j k).sdf (genCell g i j k).corners hs hcor p, hn.symm⟩
      rw [← hp, hermitePos, hE]
      simp only [lerpT, sub_zero, hcor]
      funext a
      simp only [Pi.add_apply, Pi.smul_apply, Pi.sub_apply, smul_eq_mul]
      ring
    · simp at hn

theorem trilinear_affine (lo h n : Pt 3) (d : ℝ) (hh : ∀ a, 0 < h a) (p : Pt 3) : trilinear lo h (fun c => pdot n (boxCorner lo h c) + d) p = pdot n p + d := by
  have h0 := (hh 0).ne'
  have h1 := (hh 1).ne'
  have h2 := (hh 2).ne'
  simp only [trilinear, Fin.sum_univ_eight, Fin.prod_univ_three, cube, boxCorner, pdot3]
  simp
  field_simp
  ring

/-- the gradient of an affine function is its normal -/
theorem grad_affine (n G q : Pt 3) (d : ℝ) (h : IsGradAt (fun p => pdot n p + d) G q) : G = n := by
  funext a
  refine (h a).unique ?_
  have fe : (fun s => pdot n (Function.update q a s) + d) = fun s => n a * (s - q a) + (pdot n q + d) := by
    funext s
    fin_cases a <;> simp [pdot3, Function.update] <;> ring
  rw [fe]
  simpa using (((hasDerivAt_id (q a)).sub_const (q a)).const_mul (n a)).add_const (pdot n q + d)

/-- C139: for samples of an affine function, all normals that the optimisation starts from are the unit normal of its level sets -/
theorem C139_affine (g : Grid) (n lo st : Pt 3) (d : ℝ) (hA : Affine g n lo st d) (cell : Cell) (hc : cell ∈ generateCells g) (e : Fin 12) (v : Pt 3) (hv : cell.nrm e = some v) : v = normalized n := by
  obtain ⟨i, j, k, hi, hj, hk, s, base, hb, hs, ⟨s0, s1, s2, s3, s4, s5, s6, s7⟩, -, hn, hg⟩ := C139_normals g lo st hA.step hA.pos cell hc
  obtain ⟨p, hp⟩ := Option.isSome_iff_exists.mp ((hn e).mpr (by rw [hv]; rfl))
  obtain ⟨-, G, hG, rfl⟩ := hg e v p hv hp
  have pos : ∀ a, 0 < st a := fun a => lt_trans (by positivity) (hA.step a)
  have vx : g.x i j k = ![lo 0 + i * st 0, lo 1 + j * st 1, lo 2 + k * st 2] := hA.pos i j k ⟨by simp only; omega, by simp only; omega, by simp only; omega⟩
  have key : s = fun c => pdot n (boxCorner base st c) + d := by
    have one : ∀ i j k, g.Vert (i, j, k) → g.s i j k = pdot n ![lo 0 + i * st 0, lo 1 + j * st 1, lo 2 + k * st 2] + d := fun i j k h => by rw [hA.val i j k h, hA.pos i j k h]
    rw [one _ _ _ ⟨by simp only; omega, by simp only; omega, by simp only; omega⟩] at s0 s1 s2 s3 s4 s5 s6 s7
    funext c
    rw [hb, vx]
    fin_cases c
    · exact s0.trans (congrArg (fun x => pdot n x + d) (by funext a; fin_cases a <;> simp [boxCorner, cube] <;> ring))
    · exact s1.trans (congrArg (fun x => pdot n x + d) (by funext a; fin_cases a <;> simp [boxCorner, cube] <;> ring))
    · exact s2.trans (congrArg (fun x => pdot n x + d) (by funext a; fin_cases a <;> simp [boxCorner, cube] <;> ring))
    · exact s3.trans (congrArg (fun x => pdot n x + d) (by funext a; fin_cases a <;> simp [boxCorner, cube] <;> ring))
    · exact s4.trans (congrArg (fun x => pdot n x + d) (by funext a; fin_cases a <;> simp [boxCorner, cube] <;> ring))
    · exact s5.trans (congrArg (fun x => pdot n x + d) (by funext a; fin_cases a <;> simp [boxCorner, cube] <;> ring))
    · exact s6.trans (congrArg (fun x => pdot n x + d) (by funext a; fin_cases a <;> simp [boxCorner, cube] <;> ring))
    · exact s7.trans (congrArg (fun x => pdot n x + d) (by funext a; fin_cases a <;> simp [boxCorner, cube] <;> ring))
  have ft : trilinear base st s = fun p => pdot n p + d := by
    funext p
    rw [key, trilinear_affine base st n d pos p]
  rw [ft] at hG
  rw [grad_affine n G _ d hG]

/-- a grid of one unit cell with the samples of `x - 1/2` -/
def halfGrid : Grid := ⟨2, 2, 2, [-1/2, 1/2, -1/2, 1/2, -1/2, 1/2, -1/2, 1/2], [![0, 0, 0], ![1, 0, 0], ![0, 1, 0], ![1, 1, 0], ![0, 0, 1], ![1, 0, 1], ![0, 1, 1], ![1, 1, 1]]⟩

/-- the hypotheses hold for it, and its cell has a normal on the edge along the x axis -/
theorem half_grid : Affine halfGrid ![1, 0, 0] 0 ![1, 1, 1] (-1/2) ∧ ∃ cell ∈ generateCells halfGrid, (cell.nrm (0 : Fin 12)).isSome := by
  have hA : Affine halfGrid ![1, 0, 0] 0 ![1, 1, 1] (-1/2) := by
    have vert : ∀ i j k, halfGrid.Vert (i, j, k) → (i = 0 ∨ i = 1) ∧ (j = 0 ∨ j = 1) ∧ (k = 0 ∨ k = 1) := by
      rintro i j k ⟨h1, h2, h3⟩
      simp only [halfGrid] at h1 h2 h3
      omega
    refine ⟨?_, ?_, ?_⟩
    · intro i j k h
      obtain ⟨rfl | rfl, rfl | rfl, rfl | rfl⟩ := vert i j k h <;> simp [halfGrid, Grid.x, Grid.idx]
    · intro i j k h
      obtain ⟨rfl | rfl, rfl | rfl, rfl | rfl⟩ := vert i j k h <;> simp [halfGrid, Grid.x, Grid.s, Grid.idx, pdot3] <;> norm_num
    · intro a
      fin_cases a <;> norm_num
  refine ⟨hA, genCell halfGrid 0 0 0, by simp [generateCells, halfGrid], ?_⟩
  obtain ⟨i, j, k, hi, hj, hk, s, base, hb, hs, ⟨s0, s1, -⟩, hN, -⟩ := C139_normals halfGrid 0 ![1, 1, 1] hA.step hA.pos (genCell halfGrid 0 0 0) (by simp [generateCells, halfGrid])
  simp only [halfGrid] at hi hj hk
  obtain rfl : i = 0 := by omega
  obtain rfl : j = 0 := by omega
  obtain rfl : k = 0 := by omega
  have e0 : s 0 = -1 / 2 := by rw [s0]; simp [halfGrid, Grid.s, Grid.idx]
  have e1 : s 1 = 1 / 2 := by rw [s1]; simp [halfGrid, Grid.s, Grid.idx]
  refine (hN 0).mpr ⟨⟨0, by rw [e0]; norm_num⟩, ⟨1, by rw [e1]; norm_num⟩, ?_⟩
  simp only [cubeEdge, Matrix.cons_val_zero, e0, e1]
  norm_num

end

end Gpy.Dual
