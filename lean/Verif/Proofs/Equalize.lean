import Verif.Model.Equalize
import Verif.Proofs.Flip
import Verif.Proofs.SplitBound
import Mathlib.Tactic.Linarith
import Mathlib.Tactic.Positivity

/-! The invariant of the pass that flips edges. -/

set_option autoImplicit false
namespace Gpy

/-! ### geometry -/

theorem normSq_nonneg3 (v : V3 ℝ) : 0 ≤ V3.normSq v := by unfold V3.normSq V3.dot; nlinarith [mul_self_nonneg v.x, mul_self_nonneg v.y, mul_self_nonneg v.z]

theorem heronSq_eq (p q r : V3 ℝ) : heronSq (dist3 p q) (dist3 p r) (dist3 r q) = V3.normSq (triNrm p q r) / 4 := by
  have e : ∀ a b c : ℝ, heronSq a b c = (2 * (a ^ 2 * b ^ 2 + b ^ 2 * c ^ 2 + c ^ 2 * a ^ 2) - (a ^ 2) ^ 2 - (b ^ 2) ^ 2 - (c ^ 2) ^ 2) / 16 := by
    intro a b c; unfold heronSq; ring
  have s : ∀ a b : V3 ℝ, dist3 a b ^ 2 = V3.normSq (a - b) := fun a b => Real.sq_sqrt (normSq_nonneg3 _)
  rw [e, s, s, s]
  unfold V3.normSq V3.dot triNrm V3.cross
  simp only [V3.sub_x, V3.sub_y, V3.sub_z]
  ring

theorem within60_of {p q : V3 ℝ} (hq : 0 < V3.normSq q) (h : ¬ normalsDiffer p q) : Within60 p q := by
  unfold normalsDiffer at h
  push Not at h
  have sq : 0 < Real.sqrt (V3.normSq q) := Real.sqrt_pos.mpr hq
  have dsm : ∀ (s t : ℝ) (a b : V3 ℝ), V3.dot (s • a) (t • b) = s * t * V3.dot a b := by
    intro s t a b; unfold V3.dot; simp; ring
  have nq : V3.normSq (eigenNormalize q) = 1 := by
    unfold eigenNormalize
    rw [if_pos hq]
    have e : ∀ a : V3 ℝ, V3.normSq a = V3.dot a a := fun a => rfl
    rw [e, dsm, ← e]
    have : Real.sqrt (V3.normSq q) * Real.sqrt (V3.normSq q) = V3.normSq q := Real.mul_self_sqrt hq.le
    generalize Real.sqrt (V3.normSq q) = r at *
    rw [← this]
    field_simp
  rw [nq, Real.sqrt_one] at h
  rcases lt_or_ge 0 (V3.normSq p) with hp | hp
  · have sp : 0 < Real.sqrt (V3.normSq p) := Real.sqrt_pos.mpr hp
    refine ⟨hp, hq, ?_⟩
    unfold eigenNormalize at h
    rw [if_pos hp, if_pos hq, dsm] at h
    have h2 : 1 / Real.sqrt (V3.normSq p) * (1 / Real.sqrt (V3.normSq q)) * V3.dot p q = V3.dot p q / (Real.sqrt (V3.normSq p) * Real.sqrt (V3.normSq q)) := by
      field_simp
    rw [h2, div_le_div_iff₀ (by norm_num) (by positivity)] at h
    linarith
  · exfalso
    have hp0 : V3.normSq p = 0 := le_antisymm hp (normSq_nonneg3 p)
    have : p.x = 0 ∧ p.y = 0 ∧ p.z = 0 := by
      unfold V3.normSq V3.dot at hp0
      have h1 := mul_self_nonneg p.x
      have h2 := mul_self_nonneg p.y
      have h3 := mul_self_nonneg p.z
      exact ⟨mul_self_eq_zero.mp (by linarith), mul_self_eq_zero.mp (by linarith), mul_self_eq_zero.mp (by linarith)⟩
    unfold eigenNormalize at h
    rw [if_neg (by linarith)] at h
    unfold V3.dot at h
    rw [this.1, this.2.1, this.2.2] at h
    norm_num at h

theorem within60_neg {p q p' q' : V3 ℝ} (hp : p' = -p) (hq : q' = -q) (h : Within60 p q) : Within60 p' q' := by
  have n : ∀ a : V3 ℝ, V3.normSq (-a) = V3.normSq a := by intro a; unfold V3.normSq V3.dot; simp
  have d : ∀ a b : V3 ℝ, V3.dot (-a) (-b) = V3.dot a b := by intro a b; unfold V3.dot; simp
  unfold Within60 at *
  rw [hp, hq, n, n, d]
  exact h

/-- what the geometric tests guarantee -/
theorem flip_normals {p1 p2 p3 p4 : V3 ℝ} (h : ¬ flipBadGeom p1 p2 p3 p4) :
    Within60 (triNrm p1 p2 p4) (triNrm p1 p3 p4) ∧ Within60 (triNrm p1 p2 p4) (triNrm p2 p4 p3) ∧
    Within60 (triNrm p2 p1 p3) (triNrm p1 p3 p4) ∧ Within60 (triNrm p2 p1 p3) (triNrm p2 p4 p3) := by
  unfold flipBadGeom at h
  simp only [not_or] at h
  obtain ⟨h1, h2, h3, h4, h5, h6⟩ := h
  rw [heronSq_eq] at h5 h6
  have pos1 : 0 < V3.normSq (triNrm p1 p3 p4) := lt_of_le_of_ne (normSq_nonneg3 _) (fun e => h5 (by rw [← e]; norm_num))
  have pos2 : 0 < V3.normSq (triNrm p2 p3 p4) := lt_of_le_of_ne (normSq_nonneg3 _) (fun e => h6 (by rw [← e]; norm_num))
  have q1 : V3.normSq (V3.cross (p4 - p1) (p3 - p1)) = V3.normSq (triNrm p1 p3 p4) := by
    unfold V3.normSq V3.dot triNrm V3.cross; simp only [V3.sub_x, V3.sub_y, V3.sub_z]; ring
  have q2 : V3.normSq (V3.cross (p2 - p4) (p3 - p4)) = V3.normSq (triNrm p2 p3 p4) := by
    unfold V3.normSq V3.dot triNrm V3.cross; simp only [V3.sub_x, V3.sub_y, V3.sub_z]; ring
  have q3 : V3.normSq (V3.cross (p4 - p3) (p2 - p3)) = V3.normSq (triNrm p2 p3 p4) := by
    unfold V3.normSq V3.dot triNrm V3.cross; simp only [V3.sub_x, V3.sub_y, V3.sub_z]; ring
  have g : ∀ a b : V3 ℝ, a.x = -b.x → a.y = -b.y → a.z = -b.z → a = -b := by intro a b h1 h2 h3; ext <;> simp [h1, h2, h3]
  refine ⟨within60_neg ?_ ?_ (within60_of (by rw [q1]; exact pos1) h4), within60_neg ?_ ?_ (within60_of (by rw [q3]; exact pos2) h3),
    within60_neg ?_ ?_ (within60_of (by rw [q1]; exact pos1) h1), within60_neg ?_ ?_ (within60_of (by rw [q2]; exact pos2) h2)⟩ <;>
    (refine g _ _ ?_ ?_ ?_ <;> (unfold triNrm V3.cross; simp only [V3.sub_x, V3.sub_y, V3.sub_z]; ring))

theorem heronSq_same (p q : V3 ℝ) : heronSq (dist3 p q) (dist3 p q) (dist3 q q) = 0 := by
  rw [heronSq_eq]; unfold V3.normSq V3.dot triNrm V3.cross; simp; ring

theorem not_differ_of {p q : V3 ℝ} (h : Within60 p q) : ¬ normalsDiffer p q := by
  obtain ⟨hp, hq, h⟩ := h
  have sp : 0 < Real.sqrt (V3.normSq p) := Real.sqrt_pos.mpr hp
  have sq : 0 < Real.sqrt (V3.normSq q) := Real.sqrt_pos.mpr hq
  have dsm : ∀ (s t : ℝ) (a b : V3 ℝ), V3.dot (s • a) (t • b) = s * t * V3.dot a b := by
    intro s t a b; unfold V3.dot; simp; ring
  unfold normalsDiffer eigenNormalize
  rw [if_pos hp, if_pos hq]
  push Not
  have e : ∀ a : V3 ℝ, V3.normSq a = V3.dot a a := fun a => rfl
  have nq : V3.normSq ((1 / Real.sqrt (V3.normSq q)) • q) = 1 := by
    rw [e, dsm, ← e]
    have : Real.sqrt (V3.normSq q) * Real.sqrt (V3.normSq q) = V3.normSq q := Real.mul_self_sqrt hq.le
    generalize Real.sqrt (V3.normSq q) = r at *
    rw [← this]
    field_simp
  rw [nq, Real.sqrt_one, dsm]
  have h2 : 1 / Real.sqrt (V3.normSq p) * (1 / Real.sqrt (V3.normSq q)) * V3.dot p q = V3.dot p q / (Real.sqrt (V3.normSq p) * Real.sqrt (V3.normSq q)) := by
    field_simp
  rw [h2, div_le_div_iff₀ (by norm_num) (by positivity)]
  linarith

/-- the geometric tests refuse nothing else -/
theorem not_bad_of {p1 p2 p3 p4 : V3 ℝ} (h1 : Within60 (triNrm p1 p2 p4) (triNrm p1 p3 p4)) (h2 : Within60 (triNrm p1 p2 p4) (triNrm p2 p4 p3))
    (h3 : Within60 (triNrm p2 p1 p3) (triNrm p1 p3 p4)) (h4 : Within60 (triNrm p2 p1 p3) (triNrm p2 p4 p3)) : ¬ flipBadGeom p1 p2 p3 p4 := by
  have g : ∀ a b : V3 ℝ, a.x = -b.x → a.y = -b.y → a.z = -b.z → a = -b := by intro a b h1 h2 h3; ext <;> simp [h1, h2, h3]
  have q2 : V3.normSq (triNrm p2 p4 p3) = V3.normSq (triNrm p2 p3 p4) := by
    unfold V3.normSq V3.dot triNrm V3.cross; simp only [V3.sub_x, V3.sub_y, V3.sub_z]; ring
  have a1 := h1.2.1
  have a2 := h2.2.1
  rw [q2] at a2
  unfold flipBadGeom
  simp only [not_or]
  rw [heronSq_eq, heronSq_eq]
  refine ⟨not_differ_of (within60_neg ?_ ?_ h3), not_differ_of (within60_neg ?_ ?_ h4), not_differ_of (within60_neg ?_ ?_ h2), not_differ_of (within60_neg ?_ ?_ h1),
    by linarith, by linarith⟩ <;>
    (refine g _ _ ?_ ?_ ?_ <;> (unfold triNrm V3.cross; simp only [V3.sub_x, V3.sub_y, V3.sub_z]; ring))

/-! ### the two triangles at an edge -/

/-- what is known about an edge with two sides -/
structure TwoSides (S : SplitState) (u e0 e1 v1 v2 v3 v4 : ℕ) : Prop where
  pair : S.uE2E.val u = [e0, e1]
  usz : u < S.uE2E.size
  f0 : e0 % S.F.rows < S.F.rows
  f1 : e1 % S.F.rows < S.F.rows
  c0 : e0 / S.F.rows < 3
  c1 : e1 / S.F.rows < 3
  ne : e0 % S.F.rows ≠ e1 % S.F.rows
  r1 : S.F.val (e0 % S.F.rows) ((e0 / S.F.rows + 1) % 3) = v1
  r2 : S.F.val (e0 % S.F.rows) ((e0 / S.F.rows + 2) % 3) = v2
  r4 : S.F.val (e0 % S.F.rows) (e0 / S.F.rows) = v4
  r3 : S.F.val (e1 % S.F.rows) (e1 / S.F.rows) = v3
  w1 : S.F.val (e1 % S.F.rows) ((e1 / S.F.rows + 2) % 3) = v1
  w2 : S.F.val (e1 % S.F.rows) ((e1 / S.F.rows + 1) % 3) = v2

theorem twoSides {S : SplitState} (h : IsEdgeMap S) (hm : OrientedManifold (triList S.F)) {u : ℕ} (hu : u < S.uE.rows) (hl : (S.uE2E.val u).length = 2) :
    ∃ e0 e1 v1 v2 v3 v4, TwoSides S u e0 e1 v1 v2 v3 v4 := by
  have hE : ∀ f < S.F.rows, ∀ c < 3, edgeRow S.E (f + c * S.F.rows) = ⟨S.F.val f ((c + 1) % 3), S.F.val f ((c + 2) % 3)⟩ := by
    intro f hf c hc
    have := h.side f hf ⟨c, hc⟩
    rw [side_fin] at this
    exact this
  have hnd := (nodup_sides_triList S.F).mp hm.1
  have hdg := (nondeg_triList S.F).mp hm.2
  obtain ⟨e0, e1, hp⟩ := List.length_eq_two.mp hl
  obtain ⟨o1, _, o3⟩ := h.occ u hu
  rw [hp] at o1 o3
  have hne : e0 ≠ e1 := by simpa using o1
  obtain ⟨x0, y0⟩ := (o3 e0).mp (by simp)
  obtain ⟨x1, y1⟩ := (o3 e1).mp (by simp)
  have hm0 : 0 < S.F.rows := by omega
  have dec : ∀ x, x < 3 * S.F.rows → x = x % S.F.rows + x / S.F.rows * S.F.rows ∧ x % S.F.rows < S.F.rows ∧ x / S.F.rows < 3 := by
    intro x hx
    refine ⟨by rw [Nat.mul_comm]; exact (Nat.mod_add_div x _).symm, Nat.mod_lt _ hm0, by rw [Nat.div_lt_iff_lt_mul hm0]; exact hx⟩
  obtain ⟨d0, f0, c0⟩ := dec e0 x0
  obtain ⟨d1, f1, c1⟩ := dec e1 x1
  have l0 := (h.lab e0 x0).2
  have l1 := (h.lab e1 x1).2
  rw [y0, d0, hE _ f0 _ c0] at l0
  rw [y1, d1, hE _ f1 _ c1] at l1
  have hun := l0.trans' l1.symm'
  rw [undir_iff] at hun
  have hopp : S.F.val (e1 % S.F.rows) ((e1 / S.F.rows + 1) % 3) = S.F.val (e0 % S.F.rows) ((e0 / S.F.rows + 2) % 3) ∧
      S.F.val (e1 % S.F.rows) ((e1 / S.F.rows + 2) % 3) = S.F.val (e0 % S.F.rows) ((e0 / S.F.rows + 1) % 3) := by
    rcases hun with ⟨h1, h2⟩ | ⟨h1, h2⟩
    · exfalso
      obtain ⟨z1, z2⟩ := hnd _ f0 _ c0 _ f1 _ c1 h1.symm h2.symm
      apply hne
      rw [d0, d1, z1, z2]
    · exact ⟨h1, h2⟩
  have hff : e0 % S.F.rows ≠ e1 % S.F.rows := by
    intro hf
    rw [← hf] at hopp
    generalize e0 % S.F.rows = f at *
    have k0 := hdg f f0 0 (by omega)
    have k1 := hdg f f0 1 (by omega)
    have k2 := hdg f f0 2 (by omega)
    simp at k0 k1 k2
    have q3 : ∀ c < 3, c = 0 ∨ c = 1 ∨ c = 2 := by omega
    have q0 := q3 _ c0
    have q1 := q3 _ c1
    clear l0 l1 hun d0 d1 hnd dec hE x0 x1 y0 y1 hne o1 o3 hp
    rcases q0 with q | q | q <;> rcases q1 with q' | q' | q' <;> rw [q, q'] at hopp <;> simp at hopp <;> omega
  exact ⟨e0, e1, _, _, _, _, hp, by rw [h.psize]; exact hu, f0, f1, c0, c1, hff, rfl, rfl, rfl, rfl, hopp.2, hopp.1⟩

theorem TwoSides.verts {S : SplitState} (h : IsEdgeMap S) {u e0 e1 v1 v2 v3 v4 : ℕ} (t : TwoSides S u e0 e1 v1 v2 v3 v4) : flipVerts S u = some (v1, v2, v3, v4) := by
  unfold flipVerts Arr.rd2 Arr.rd IMat.rd
  have hc := h.fcols
  simp only [t.usz, if_true, t.pair, Option.bind_eq_bind, Option.bind_some, List.getElem?_cons_zero, List.getElem?_cons_succ, hc,
    t.f0, t.f1, t.c0, t.c1, and_self, true_and, t.r1, t.r2, t.r3, t.r4, Nat.mod_lt _ (show 3 > 0 by omega)]

theorem getElem?_triList (F : IMat) (f : ℕ) (hf : f < F.rows) : (triList F)[f]? = some ⟨F.val f 0, F.val f 1, F.val f 2⟩ := by
  unfold triList; simp [hf]

theorem isCyc_corner (F : ℕ → ℕ → ℕ) (f : ℕ) {c : ℕ} (hc : c < 3) : IsCyc ⟨F f 0, F f 1, F f 2⟩ (F f ((c + 1) % 3)) (F f ((c + 2) % 3)) (F f c) := by
  have : c = 0 ∨ c = 1 ∨ c = 2 := by omega
  rcases this with rfl | rfl | rfl <;> simp [IsCyc]

theorem TwoSides.isFlip {S : SplitState} {u e0 e1 v1 v2 v3 v4 : ℕ} (t : TwoSides S u e0 e1 v1 v2 v3 v4) :
    IsFlip v1 v2 v3 v4 (triList S.F) (((triList S.F).set (e0 % S.F.rows) ⟨v1, v3, v4⟩).set (e1 % S.F.rows) ⟨v2, v4, v3⟩) := by
  refine ⟨_, _, _, _, t.ne, getElem?_triList _ _ t.f0, getElem?_triList _ _ t.f1, ?_, ?_, rfl⟩
  · have := isCyc_corner S.F.val (e0 % S.F.rows) t.c0
    rw [t.r1, t.r2, t.r4] at this
    exact this
  · have := isCyc_corner S.F.val (e1 % S.F.rows) t.c1
    rw [t.w1, t.w2, t.r3] at this
    exact this

theorem TwoSides.undir {S : SplitState} (hS : IsEdgeMap S) {u e0 e1 v1 v2 v3 v4 : ℕ} (hu : u < S.uE.rows) (t : TwoSides S u e0 e1 v1 v2 v3 v4) :
    Undir ⟨v1, v2⟩ (edgeRow S.uE u) := by
  obtain ⟨hx1, hx2⟩ := ((hS.occ u hu).2.2 e0).mp (by rw [t.pair]; simp)
  have hl := (hS.lab e0 hx1).2
  have hs := hS.side _ t.f0 ⟨_, t.c0⟩
  rw [side_fin] at hs
  simp only at hs
  have hxd : e0 = e0 % S.F.rows + e0 / S.F.rows * S.F.rows := by rw [Nat.mul_comm]; exact (Nat.mod_add_div e0 _).symm
  rw [← hxd] at hs
  rw [hs, hx2, t.r1, t.r2] at hl
  exact hl

/-- an edge that is traversed in both directions has two sides -/
theorem two_of_sides {S : SplitState} (h : IsEdgeMap S) (hm : OrientedManifold (triList S.F)) {u : ℕ} (hu : u < S.uE.rows) {a b : ℕ}
    (h1 : (⟨a, b⟩ : Edge) ∈ sides (triList S.F)) (h2 : (⟨b, a⟩ : Edge) ∈ sides (triList S.F)) (hab : a ≠ b) (hun : Undir ⟨a, b⟩ (edgeRow S.uE u)) :
    (S.uE2E.val u).length = 2 := by
  have hE : ∀ f < S.F.rows, ∀ c < 3, edgeRow S.E (f + c * S.F.rows) = ⟨S.F.val f ((c + 1) % 3), S.F.val f ((c + 2) % 3)⟩ := by
    intro f hf c hc
    have := h.side f hf ⟨c, hc⟩
    rw [side_fin] at this
    exact this
  have hnd := (nodup_sides_triList S.F).mp hm.1
  have hixb : ∀ f < S.F.rows, ∀ c < 3, f + c * S.F.rows < 3 * S.F.rows := by
    intro f hf c hc
    have : c * S.F.rows ≤ 2 * S.F.rows := Nat.mul_le_mul_right _ (by omega)
    omega
  obtain ⟨f, hf, c, hc, e1⟩ := (mem_sides_triList S.F _).mp h1
  obtain ⟨f', hf', c', hc', e2⟩ := (mem_sides_triList S.F _).mp h2
  have i1 := hixb f hf c hc
  have i2 := hixb f' hf' c' hc'
  obtain ⟨o1, _, o3⟩ := h.occ u hu
  have m1 : f + c * S.F.rows ∈ S.uE2E.val u := by
    rw [o3]
    refine ⟨i1, h.uniq _ (h.lab _ i1).1 _ hu ?_⟩
    have := (h.lab _ i1).2
    rw [hE f hf c hc, ← e1] at this
    exact this.symm'.trans' hun
  have m2 : f' + c' * S.F.rows ∈ S.uE2E.val u := by
    rw [o3]
    refine ⟨i2, h.uniq _ (h.lab _ i2).1 _ hu ?_⟩
    have := (h.lab _ i2).2
    rw [hE f' hf' c' hc', ← e2] at this
    exact this.symm'.trans' ((show Undir (⟨b, a⟩ : Edge) ⟨a, b⟩ from Or.inr rfl).trans' hun)
  have hne : f + c * S.F.rows ≠ f' + c' * S.F.rows := by
    intro he
    have q1 := hE f hf c hc
    rw [he, hE f' hf' c' hc', ← e1, ← e2] at q1
    simp only [Edge.mk.injEq] at q1
    exact hab q1.2
  have hall : ∀ x, x ∈ S.uE2E.val u ↔ x ∈ [f + c * S.F.rows, f' + c' * S.F.rows] := by
    intro x
    simp only [List.mem_cons, List.not_mem_nil, or_false]
    constructor
    · intro hx
      obtain ⟨x1, x2⟩ := (o3 x).mp hx
      have hm0 : 0 < S.F.rows := by omega
      have hxd : x = x % S.F.rows + x / S.F.rows * S.F.rows := by rw [Nat.mul_comm]; exact (Nat.mod_add_div x _).symm
      have hg : x % S.F.rows < S.F.rows := Nat.mod_lt _ hm0
      have hd : x / S.F.rows < 3 := by rw [Nat.div_lt_iff_lt_mul hm0]; exact x1
      have hl := (h.lab x x1).2
      rw [x2, hxd, hE _ hg _ hd] at hl
      have := hun.trans' hl.symm'
      rw [undir_iff] at this
      simp only [Edge.mk.injEq] at e1 e2
      rcases this with ⟨q1, q2⟩ | ⟨q1, q2⟩
      · left
        obtain ⟨z1, z2⟩ := hnd _ hg _ hd f hf c hc (q1.trans e1.1) (q2.trans e1.2)
        rw [hxd, z1, z2]
      · right
        obtain ⟨z1, z2⟩ := hnd _ hg _ hd f' hf' c' hc' (q1.trans e2.1) (q2.trans e2.2)
        rw [hxd, z1, z2]
    · rintro (rfl | rfl)
      · exact m1
      · exact m2
  have := (List.perm_ext_iff_of_nodup o1 (by simpa using hne)).mpr hall
  rw [this.length_eq]; rfl

/-- a permitted flip of the edge `u` is the one the code considers -/
theorem TwoSides.good {S : SplitState} (hS : IsEdgeMap S) (hm : OrientedManifold (triList S.F)) {u e0 e1 v1 v2 v3 v4 : ℕ} (hu : u < S.uE.rows)
    (t : TwoSides S u e0 e1 v1 v2 v3 v4) {V : ℕ → V3 ℝ} {feature : List ℕ} {fe : List Edge} {w1 w2 w3 w4 : ℕ} {F' : List Tri}
    (h : GoodFlip V feature fe w1 w2 w3 w4 (triList S.F) F') (hw : Undir ⟨w1, w2⟩ (edgeRow S.uE u)) : GoodFlip V feature fe v1 v2 v3 v4 (triList S.F) F' := by
  have hun := hw.trans' (t.undir hS hu).symm'
  rw [undir_iff] at hun
  rcases hun with ⟨rfl, rfl⟩ | ⟨rfl, rfl⟩
  · obtain ⟨rfl, rfl⟩ := t.isFlip.corners hm h.flip
    exact h
  · obtain ⟨rfl, rfl⟩ := t.isFlip.corners hm h.swap.flip
    exact h.swap

/-! ### the initial values -/

theorem featureFlags_ok (n : ℕ) (feature : List ℕ) (h : ∀ v ∈ feature, v < n) :
    ∃ a, featureFlags n feature = some a ∧ a.size = n ∧ ∀ v, a.val v = true ↔ v ∈ feature := by
  have gen : ∀ (l : List ℕ) (a : Arr Bool), a.size = n → (∀ v ∈ l, v < n) →
      ∃ a', l.foldlM (fun (a : Arr Bool) v => a.wr v true) a = some a' ∧ a'.size = n ∧ ∀ v, a'.val v = true ↔ (v ∈ l ∨ a.val v = true) := by
    intro l
    induction l with
    | nil => intro a ha _; exact ⟨a, rfl, ha, by simp⟩
    | cons x l ih =>
      intro a ha hl
      obtain ⟨a', h1, h2, h3⟩ := ih ⟨a.size, Function.update a.val x true⟩ ha (fun v hv => hl v (by simp [hv]))
      refine ⟨a', ?_, h2, ?_⟩
      · rw [List.foldlM_cons]
        have : a.wr x true = some ⟨a.size, Function.update a.val x true⟩ := by unfold Arr.wr; rw [if_pos (by rw [ha]; exact hl x (by simp))]
        rw [this]; exact h1
      · intro v
        rw [h3]
        by_cases hv : v = x
        · subst hv; simp
        · simp [Function.update_of_ne hv, hv]
  obtain ⟨a, h1, h2, h3⟩ := gen feature ⟨n, fun _ => false⟩ rfl h
  exact ⟨a, h1, h2, by intro v; rw [h3]; simp⟩

theorem cornerCount_append (F G : List Tri) (v : ℕ) : cornerCount (F ++ G) v = cornerCount F v + cornerCount G v := by
  unfold cornerCount; rw [List.flatMap_append, List.count_append]

theorem valencesInit_ok (n : ℕ) (F : IMat) (hc : F.cols = 3) (hr : InRange (triList F) n) :
    ∃ a, valencesInit n F = some a ∧ a.size = n ∧ ∀ v, a.val v = (cornerCount (triList F) v : ℤ) := by
  have hr' := (inRange_triList F n).mp hr
  have gen : ∀ k ≤ F.rows, ∃ a, (List.range k).foldlM (fun (a : Arr ℤ) j => (do
      let v0 ← F.rd j 0
      let x ← a.rd v0
      let a ← a.wr v0 (x + 1)
      let v1 ← F.rd j 1
      let x ← a.rd v1
      let a ← a.wr v1 (x + 1)
      let v2 ← F.rd j 2
      let x ← a.rd v2
      a.wr v2 (x + 1) : Option (Arr ℤ))) ⟨n, fun _ => 0⟩ = some a ∧ a.size = n ∧
      ∀ v, a.val v = (cornerCount ((List.range k).map (fun f => (⟨F.val f 0, F.val f 1, F.val f 2⟩ : Tri))) v : ℤ) := by
    intro k
    induction k with
    | zero => intro _; exact ⟨_, rfl, rfl, fun v => by simp [cornerCount]⟩
    | succ k ih =>
      intro hk
      obtain ⟨a, h1, h2, h3⟩ := ih (by omega)
      have b0 := hr' k (by omega) 0 (by omega)
      have b1 := hr' k (by omega) 1 (by omega)
      have b2 := hr' k (by omega) 2 (by omega)
      rw [List.range_succ, List.foldlM_append, h1]
      simp only [Option.bind_eq_bind, Option.bind_some, List.foldlM_cons, List.foldlM_nil, IMat.rd, Arr.rd, Arr.wr, hc, h2, b0, b1, b2, if_true,
        show k < F.rows by omega, and_self, show (0 : ℕ) < 3 by omega, show (1 : ℕ) < 3 by omega, show (2 : ℕ) < 3 by omega]
      refine ⟨_, rfl, rfl, ?_⟩
      intro v
      rw [List.map_append, cornerCount_append]
      have c : cornerCount [(⟨F.val k 0, F.val k 1, F.val k 2⟩ : Tri)] v =
          (if F.val k 0 = v then 1 else 0) + (if F.val k 1 = v then 1 else 0) + (if F.val k 2 = v then 1 else 0) := by
        simp only [cornerCount, List.flatMap_cons, List.flatMap_nil, List.append_nil, List.count_cons, List.count_nil, beq_iff_eq]
        omega
      simp only [List.map_cons, List.map_nil]
      rw [c]
      push_cast
      rw [← h3]
      simp only [Function.update_apply]
      clear h1 h3 c b0 b1 b2 ih
      generalize F.val k 0 = K0
      generalize F.val k 1 = K1
      generalize F.val k 2 = K2
      grind
  obtain ⟨a, h1, h2, h3⟩ := gen F.rows (le_refl _)
  exact ⟨a, h1, h2, h3⟩

theorem foldl_max_ge0 (l : List ℕ) (a : ℕ) : a ≤ l.foldl max a ∧ ∀ x ∈ l, x ≤ l.foldl max a := by
  induction l generalizing a with
  | nil => simp
  | cons y l ih =>
    obtain ⟨h1, h2⟩ := ih (max a y)
    simp only [List.foldl_cons, List.mem_cons]
    refine ⟨by omega, ?_⟩
    rintro x (rfl | hx)
    · omega
    · exact h2 x hx

theorem adjList_ok {S : SplitState} (h : IsEdgeMap S) :
    (∀ e ∈ sides (triList S.F), e.t ∈ (adjList S.E).val e.s ∧ e.s ∈ (adjList S.E).val e.t ∧ e.s < (adjList S.E).size ∧ e.t < (adjList S.E).size) := by
  intro e he
  obtain ⟨f, hf, c, hc, rfl⟩ := (mem_sides_triList S.F e).mp he
  have hs := h.side f hf ⟨c, hc⟩
  rw [side_fin] at hs
  simp only [edgeRow, Edge.mk.injEq] at hs
  have hix : f + c * S.F.rows < S.E.rows := by
    rw [h.erows]
    have : c * S.F.rows ≤ 2 * S.F.rows := Nat.mul_le_mul_right _ (by omega)
    omega
  rw [← hs.1, ← hs.2]
  simp only [adjList, List.mem_dedup, List.mem_append, List.mem_map, List.mem_filter, List.mem_range, decide_eq_true_eq]
  have hmax := (foldl_max_ge0 ((List.range S.E.rows).map (fun i => max (S.E.val i 0) (S.E.val i 1))) 0).2 _ (List.mem_map.mpr ⟨_, List.mem_range.mpr hix, rfl⟩)
  refine ⟨Or.inl ⟨_, ⟨hix, rfl⟩, rfl⟩, Or.inr ⟨_, ⟨hix, rfl⟩, rfl⟩, ?_, ?_⟩
  · have := le_max_left (S.E.val (f + c * S.F.rows) 0) (S.E.val (f + c * S.F.rows) 1); omega
  · have := le_max_right (S.E.val (f + c * S.F.rows) 0) (S.E.val (f + c * S.F.rows) 1); omega

end Gpy
