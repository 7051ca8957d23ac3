import Verif.Proofs.SplitLoop

/-! The surface does not change when an edge is split. -/

set_option autoImplicit false
namespace Gpy

/-- midpoint -/
noncomputable def mid3 (a b : V3 ℝ) : V3 ℝ := (1 / 2 : ℝ) • (a + b)

theorem mid3_comm (a b : V3 ℝ) : mid3 a b = mid3 b a := by unfold mid3; ext <;> simp <;> ring

theorem cyc3 {β : Type} (φ : V3 ℝ → V3 ℝ → V3 ℝ → β) (hφ : ∀ a b c, φ a b c = φ b c a) {a0 a1 a2 : ℕ} (A : Cyc a0 a1 a2) (g : ℕ → V3 ℝ) :
    φ (g 0) (g 1) (g 2) = φ (g a0) (g a1) (g a2) := by
  have h0 := A.l0
  have h1 := A.s01
  have h2 := A.s02
  have : a0 = 0 ∨ a0 = 1 ∨ a0 = 2 := by omega
  rcases this with rfl | rfl | rfl
  · obtain rfl : a1 = 1 := by omega
    obtain rfl : a2 = 2 := by omega
    rfl
  · obtain rfl : a1 = 2 := by omega
    obtain rfl : a2 = 0 := by omega
    rw [hφ]
  · obtain rfl : a1 = 0 := by omega
    obtain rfl : a2 = 1 := by omega
    rw [hφ, hφ]

theorem inTri3_cyc (p a b c : V3 ℝ) : InTri3 p a b c = InTri3 p b c a := by
  apply propext
  constructor
  · rintro ⟨u, v, w, hu, hv, hw, hs, rfl⟩
    exact ⟨v, w, u, hv, hw, hu, by linarith, by ext <;> simp <;> ring⟩
  · rintro ⟨u, v, w, hu, hv, hw, hs, rfl⟩
    exact ⟨w, u, v, hw, hu, hv, by linarith, by ext <;> simp <;> ring⟩

theorem inTri3_split (p a b c : V3 ℝ) : InTri3 p a b c ↔ InTri3 p a b (mid3 b c) ∨ InTri3 p a (mid3 b c) c := by
  unfold mid3
  constructor
  · rintro ⟨u, v, w, hu, hv, hw, hs, rfl⟩
    rcases le_total w v with h | h
    · left
      exact ⟨u, v - w, 2 * w, hu, by linarith, by linarith, by linarith, by ext <;> simp <;> ring⟩
    · right
      exact ⟨u, 2 * v, w - v, hu, by linarith, by linarith, by linarith, by ext <;> simp <;> ring⟩
  · rintro (⟨u, v, w, hu, hv, hw, hs, rfl⟩ | ⟨u, v, w, hu, hv, hw, hs, rfl⟩)
    · exact ⟨u, v + w / 2, w / 2, hu, by linarith, by linarith, by linarith, by ext <;> simp <;> ring⟩
    · exact ⟨u, v / 2, v / 2 + w, hu, by linarith, by linarith, by linarith, by ext <;> simp <;> ring⟩

theorem triNormal_cyc (a b c : V3 ℝ) : triNrm a b c = triNrm b c a := by
  unfold triNrm V3.cross; ext <;> simp <;> ring

theorem triNormal_split (a b c : V3 ℝ) : triNrm a b (mid3 b c) = (1 / 2 : ℝ) • triNrm a b c ∧ triNrm a (mid3 b c) c = (1 / 2 : ℝ) • triNrm a b c := by
  unfold triNrm V3.cross mid3; constructor <;> ext <;> simp <;> ring

/-- corner `c` of face `f` -/
def SplitState.pt (S : SplitState) (f c : ℕ) : V3 ℝ := S.V.val (S.F.val f c)

section
variable {N M K nv : ℕ} {S S' : SplitState} {uei f0 f1 a0 a1 a2 b0 b1 b2 v1 v2 v3 v4 u2 u3 u4 u5 : ℕ}

/-- the corners of the faces after a split -/
theorem SplitPost.pts (h : SInv N M K nv S) (q : SplitNames N M K nv S uei f0 f1 a0 a1 a2 b0 b1 b2 v1 v2 v3 v4 u2 u3 u4 u5)
    (p : SplitPost N M K nv S S' uei f0 f1 a0 a1 a2 b0 b1 b2 v1 v2 v3 v4 u2 u3 u4 u5) (roomF : M + 2 ≤ N) :
    (∀ f < M, f ≠ f0 → f ≠ f1 → ∀ c < 3, S'.pt f c = S.pt f c) ∧
    (S.pt f0 a0 = S.V.val v4 ∧ S.pt f0 a1 = S.V.val v1 ∧ S.pt f0 a2 = S.V.val v2) ∧
    (S.pt f1 b0 = S.V.val v3 ∧ S.pt f1 b1 = S.V.val v2 ∧ S.pt f1 b2 = S.V.val v1) ∧
    (S'.pt f0 a0 = S.V.val v4 ∧ S'.pt f0 a1 = S.V.val v1 ∧ S'.pt f0 a2 = mid3 (S.V.val v1) (S.V.val v2)) ∧
    (S'.pt f1 b0 = S.V.val v3 ∧ S'.pt f1 b1 = mid3 (S.V.val v1) (S.V.val v2) ∧ S'.pt f1 b2 = S.V.val v1) ∧
    (S'.pt M 0 = S.V.val v2 ∧ S'.pt M 1 = mid3 (S.V.val v1) (S.V.val v2) ∧ S'.pt M 2 = S.V.val v3) ∧
    (S'.pt (M + 1) 0 = S.V.val v2 ∧ S'.pt (M + 1) 1 = S.V.val v4 ∧ S'.pt (M + 1) 2 = mid3 (S.V.val v1) (S.V.val v2)) := by
  have t := p.tabs h q roomF
  have hV : ∀ v < nv, S'.V.val v = S.V.val v := by
    intro v hv
    rw [p.V]
    simp only [Function.update_apply]
    rw [if_neg (by omega)]
  have hVn : S'.V.val nv = mid3 (S.V.val v1) (S.V.val v2) := by
    rw [p.V]; simp [mid3]
  unfold SplitState.pt
  rw [t.F00, t.F01, t.F02, t.F10, t.F11, t.F12, t.FM0, t.FM1, t.FM2, t.FN0, t.FN1, t.FN2, hVn, hV v1 q.l1, hV v2 q.l2, hV v3 q.l3, hV v4 q.l4,
    q.t0, q.t1, q.t2, q.r0, q.r1, q.r2]
  refine ⟨?_, ⟨rfl, rfl, rfl⟩, ⟨rfl, rfl, rfl⟩, ⟨rfl, rfl, rfl⟩, ⟨rfl, rfl, rfl⟩, ⟨rfl, rfl, rfl⟩, ⟨rfl, rfl, rfl⟩⟩
  intro f hf e0 e1 c hc
  rw [t.Fo' f e0 e1 hf c hc, hV _ (h.hd f hf c hc).1]

/-- the four triangles that replace two -/
theorem SplitPost.four {β : Type} (φ : V3 ℝ → V3 ℝ → V3 ℝ → β) (hφ : ∀ a b c, φ a b c = φ b c a)
    (h : SInv N M K nv S) (q : SplitNames N M K nv S uei f0 f1 a0 a1 a2 b0 b1 b2 v1 v2 v3 v4 u2 u3 u4 u5)
    (p : SplitPost N M K nv S S' uei f0 f1 a0 a1 a2 b0 b1 b2 v1 v2 v3 v4 u2 u3 u4 u5) (roomF : M + 2 ≤ N) :
    ∃ P1 P2 P3 P4 : V3 ℝ,
      φ (S.pt f0 0) (S.pt f0 1) (S.pt f0 2) = φ P4 P1 P2 ∧ φ (S.pt f1 0) (S.pt f1 1) (S.pt f1 2) = φ P3 P2 P1 ∧
      φ (S'.pt f0 0) (S'.pt f0 1) (S'.pt f0 2) = φ P4 P1 (mid3 P1 P2) ∧ φ (S'.pt (M + 1) 0) (S'.pt (M + 1) 1) (S'.pt (M + 1) 2) = φ P4 (mid3 P1 P2) P2 ∧
      φ (S'.pt f1 0) (S'.pt f1 1) (S'.pt f1 2) = φ P3 (mid3 P2 P1) P1 ∧ φ (S'.pt M 0) (S'.pt M 1) (S'.pt M 2) = φ P3 P2 (mid3 P2 P1) := by
  obtain ⟨_, ⟨x1, x2, x3⟩, ⟨x4, x5, x6⟩, ⟨x7, x8, x9⟩, ⟨x10, x11, x12⟩, ⟨x13, x14, x15⟩, ⟨x16, x17, x18⟩⟩ := p.pts h q roomF
  refine ⟨S.V.val v1, S.V.val v2, S.V.val v3, S.V.val v4, ?_, ?_, ?_, ?_, ?_, ?_⟩
  · rw [cyc3 φ hφ q.ha (S.pt f0), x1, x2, x3]
  · rw [cyc3 φ hφ q.hb (S.pt f1), x4, x5, x6]
  · rw [cyc3 φ hφ q.ha (S'.pt f0), x7, x8, x9]
  · rw [x16, x17, x18, hφ]
  · rw [cyc3 φ hφ q.hb (S'.pt f1), x10, x11, x12, mid3_comm]
  · rw [x13, x14, x15, hφ, hφ, mid3_comm]

/-- additive quantities do not change -/
theorem SplitPost.sum (φ : V3 ℝ → V3 ℝ → V3 ℝ → ℝ) (hφ : ∀ a b c, φ a b c = φ b c a) (hadd : ∀ a b c, φ a b c = φ a b (mid3 b c) + φ a (mid3 b c) c)
    (h : SInv N M K nv S) (q : SplitNames N M K nv S uei f0 f1 a0 a1 a2 b0 b1 b2 v1 v2 v3 v4 u2 u3 u4 u5)
    (p : SplitPost N M K nv S S' uei f0 f1 a0 a1 a2 b0 b1 b2 v1 v2 v3 v4 u2 u3 u4 u5) (roomF : M + 2 ≤ N) :
    ∑ f ∈ Finset.range (M + 2), φ (S'.pt f 0) (S'.pt f 1) (S'.pt f 2) = ∑ f ∈ Finset.range M, φ (S.pt f 0) (S.pt f 1) (S.pt f 2) := by
  obtain ⟨P1, P2, P3, P4, y1, y2, y3, y4, y5, y6⟩ := p.four φ hφ h q roomF
  have hold := (p.pts h q roomF).1
  rw [Finset.sum_range_succ, Finset.sum_range_succ, y4, y6]
  have m0 : f0 ∈ Finset.range M := Finset.mem_range.mpr q.h0
  have m1 : f1 ∈ (Finset.range M).erase f0 := Finset.mem_erase.mpr ⟨q.h01.symm, Finset.mem_range.mpr q.h1⟩
  rw [← Finset.add_sum_erase _ _ m0, ← Finset.add_sum_erase _ _ m1, ← Finset.add_sum_erase (Finset.range M) (fun f => φ (S.pt f 0) (S.pt f 1) (S.pt f 2)) m0,
    ← Finset.add_sum_erase _ (fun f => φ (S.pt f 0) (S.pt f 1) (S.pt f 2)) m1, y1, y2, y3, y5]
  have : ∑ x ∈ ((Finset.range M).erase f0).erase f1, φ (S'.pt x 0) (S'.pt x 1) (S'.pt x 2) =
      ∑ x ∈ ((Finset.range M).erase f0).erase f1, φ (S.pt x 0) (S.pt x 1) (S.pt x 2) := by
    refine Finset.sum_congr rfl ?_
    intro x hx
    rw [Finset.mem_erase, Finset.mem_erase, Finset.mem_range] at hx
    rw [hold x hx.2.2 hx.2.1 hx.1 0 (by omega), hold x hx.2.2 hx.2.1 hx.1 1 (by omega), hold x hx.2.2 hx.2.1 hx.1 2 (by omega)]
  rw [this, hadd P4 P1 P2, hadd P3 P2 P1]
  ring

/-- the set of points of the surface does not change -/
theorem SplitPost.surf (h : SInv N M K nv S) (q : SplitNames N M K nv S uei f0 f1 a0 a1 a2 b0 b1 b2 v1 v2 v3 v4 u2 u3 u4 u5)
    (p : SplitPost N M K nv S S' uei f0 f1 a0 a1 a2 b0 b1 b2 v1 v2 v3 v4 u2 u3 u4 u5) (roomF : M + 2 ≤ N) (x : V3 ℝ) :
    (∃ f < M + 2, InTri3 x (S'.pt f 0) (S'.pt f 1) (S'.pt f 2)) ↔ ∃ f < M, InTri3 x (S.pt f 0) (S.pt f 1) (S.pt f 2) := by
  obtain ⟨P1, P2, P3, P4, y1, y2, y3, y4, y5, y6⟩ := p.four (InTri3 x) (inTri3_cyc x) h q roomF
  have hold := (p.pts h q roomF).1
  have q0 := q.h0
  have q1 := q.h1
  constructor
  · rintro ⟨f, hf, hx⟩
    by_cases e0 : f = f0
    · subst e0; rw [y3] at hx
      exact ⟨f, q0, by rw [y1]; exact (inTri3_split _ _ _ _).mpr (Or.inl hx)⟩
    by_cases e1 : f = f1
    · subst e1; rw [y5] at hx
      exact ⟨f, q1, by rw [y2]; exact (inTri3_split _ _ _ _).mpr (Or.inr hx)⟩
    by_cases e2 : f = M
    · rw [e2, y6] at hx
      exact ⟨f1, q1, by rw [y2]; exact (inTri3_split _ _ _ _).mpr (Or.inl hx)⟩
    by_cases e3 : f = M + 1
    · rw [e3, y4] at hx
      exact ⟨f0, q0, by rw [y1]; exact (inTri3_split _ _ _ _).mpr (Or.inr hx)⟩
    have hfM : f < M := by omega
    rw [hold f hfM e0 e1 0 (by omega), hold f hfM e0 e1 1 (by omega), hold f hfM e0 e1 2 (by omega)] at hx
    exact ⟨f, hfM, hx⟩
  · rintro ⟨f, hf, hx⟩
    by_cases e0 : f = f0
    · rw [e0, y1] at hx
      rcases (inTri3_split _ _ _ _).mp hx with hx | hx
      · exact ⟨f0, by omega, by rw [y3]; exact hx⟩
      · exact ⟨M + 1, by omega, by rw [y4]; exact hx⟩
    by_cases e1 : f = f1
    · rw [e1, y2] at hx
      rcases (inTri3_split _ _ _ _).mp hx with hx | hx
      · exact ⟨M, by omega, by rw [y6]; exact hx⟩
      · exact ⟨f1, by omega, by rw [y5]; exact hx⟩
    refine ⟨f, by omega, ?_⟩
    rw [hold f hf e0 e1 0 (by omega), hold f hf e0 e1 1 (by omega), hold f hf e0 e1 2 (by omega)]
    exact hx

/-- every new triangle is a part of an old one with the same orientation -/
theorem SplitPost.part (h : SInv N M K nv S) (q : SplitNames N M K nv S uei f0 f1 a0 a1 a2 b0 b1 b2 v1 v2 v3 v4 u2 u3 u4 u5)
    (p : SplitPost N M K nv S S' uei f0 f1 a0 a1 a2 b0 b1 b2 v1 v2 v3 v4 u2 u3 u4 u5) (roomF : M + 2 ≤ N) (f : ℕ) (hf : f < M + 2) :
    ∃ g < M, (∀ x, InTri3 x (S'.pt f 0) (S'.pt f 1) (S'.pt f 2) → InTri3 x (S.pt g 0) (S.pt g 1) (S.pt g 2)) ∧
      ∃ r : ℝ, 0 < r ∧ triNrm (S'.pt f 0) (S'.pt f 1) (S'.pt f 2) = r • triNrm (S.pt g 0) (S.pt g 1) (S.pt g 2) := by
  obtain ⟨P1, P2, P3, P4, z1, z2, z3, z4, z5, z6⟩ := p.four (fun a b c => ((fun x => InTri3 x a b c), triNrm a b c))
    (fun a b c => by simp only [Prod.mk.injEq]; exact ⟨funext fun x => inTri3_cyc x a b c, triNormal_cyc a b c⟩) h q roomF
  simp only [Prod.mk.injEq] at z1 z2 z3 z4 z5 z6
  have hold := (p.pts h q roomF).1
  have q0 := q.h0
  have q1 := q.h1
  have half : (0 : ℝ) < 1 / 2 := by norm_num
  by_cases e0 : f = f0
  · rw [e0]
    refine ⟨f0, q0, fun x => ?_, 1 / 2, half, ?_⟩
    · rw [congrFun z3.1 x, congrFun z1.1 x]; exact fun hx => (inTri3_split _ _ _ _).mpr (Or.inl hx)
    · rw [z3.2, z1.2]; exact (triNormal_split _ _ _).1
  by_cases e1 : f = f1
  · rw [e1]
    refine ⟨f1, q1, fun x => ?_, 1 / 2, half, ?_⟩
    · rw [congrFun z5.1 x, congrFun z2.1 x]; exact fun hx => (inTri3_split _ _ _ _).mpr (Or.inr hx)
    · rw [z5.2, z2.2]; exact (triNormal_split _ _ _).2
  by_cases e2 : f = M
  · rw [e2]
    refine ⟨f1, q1, fun x => ?_, 1 / 2, half, ?_⟩
    · rw [congrFun z6.1 x, congrFun z2.1 x]; exact fun hx => (inTri3_split _ _ _ _).mpr (Or.inl hx)
    · rw [z6.2, z2.2]; exact (triNormal_split _ _ _).1
  by_cases e3 : f = M + 1
  · rw [e3]
    refine ⟨f0, q0, fun x => ?_, 1 / 2, half, ?_⟩
    · rw [congrFun z4.1 x, congrFun z1.1 x]; exact fun hx => (inTri3_split _ _ _ _).mpr (Or.inr hx)
    · rw [z4.2, z1.2]; exact (triNormal_split _ _ _).2
  have hfM : f < M := by omega
  refine ⟨f, hfM, ?_, 1, one_pos, ?_⟩
  · rw [hold f hfM e0 e1 0 (by omega), hold f hfM e0 e1 1 (by omega), hold f hfM e0 e1 2 (by omega)]
    exact fun x hx => hx
  · rw [hold f hfM e0 e1 0 (by omega), hold f hfM e0 e1 1 (by omega), hold f hfM e0 e1 2 (by omega)]
    ext <;> simp
end

/-- State of the loop after the edges `done` have been split. -/
structure SplitProg (S0 : SplitState) (s : ℕ) (done : List ℕ) (S : SplitState) : Prop where
  inv : SInv (S0.F.rows + 2 * s) (S0.F.rows + 2 * done.length) (S0.uE.rows + 3 * done.length) (S0.V.size + done.length) S
  ur : S.uE.rows = S0.uE.rows + 3 * s
  pr : S.uE2E.size = S0.uE.rows + 3 * s
  vr : S.V.size = S0.V.size + s
  hr : S.high.size = S0.V.size + s
  lr : S.low.size = S0.V.size + s
  old : ∀ u < S0.uE.rows, u ∉ done → edgeRow S.uE u = edgeRow S0.uE u
  vold : ∀ v < S0.V.size, S.V.val v = S0.V.val v ∧ S.high.val v = S0.high.val v ∧ S.low.val v = S0.low.val v
  vnew : ∀ j (hj : j < done.length), ∃ a b, Undir (edgeRow S0.uE done[j]) ⟨a, b⟩ ∧
    edgeRow S.uE done[j] = ⟨S0.V.size + j, a⟩ ∧ edgeRow S.uE (S0.uE.rows + 3 * j + 2) = ⟨S0.V.size + j, b⟩ ∧
    S.V.val (S0.V.size + j) = mid3 (S0.V.val a) (S0.V.val b) ∧
    S.high.val (S0.V.size + j) = (S0.high.val a + S0.high.val b) / 2 ∧ S.low.val (S0.V.size + j) = (S0.low.val a + S0.low.val b) / 2
  newE : ∀ u, S0.uE.rows ≤ u → u < S0.uE.rows + 3 * done.length → S0.V.size ≤ (edgeRow S.uE u).s
  surf : ∀ x, (∃ f < S0.F.rows + 2 * done.length, InTri3 x (S.pt f 0) (S.pt f 1) (S.pt f 2)) ↔ ∃ f < S0.F.rows, InTri3 x (S0.pt f 0) (S0.pt f 1) (S0.pt f 2)
  part : ∀ f < S0.F.rows + 2 * done.length, ∃ g < S0.F.rows,
    (∀ x, InTri3 x (S.pt f 0) (S.pt f 1) (S.pt f 2) → InTri3 x (S0.pt g 0) (S0.pt g 1) (S0.pt g 2)) ∧
      ∃ r : ℝ, 0 < r ∧ triNrm (S.pt f 0) (S.pt f 1) (S.pt f 2) = r • triNrm (S0.pt g 0) (S0.pt g 1) (S0.pt g 2)
  sum : ∀ φ : V3 ℝ → V3 ℝ → V3 ℝ → ℝ, (∀ a b c, φ a b c = φ b c a) → (∀ a b c, φ a b c = φ a b (mid3 b c) + φ a (mid3 b c) c) →
    ∑ f ∈ Finset.range (S0.F.rows + 2 * done.length), φ (S.pt f 0) (S.pt f 1) (S.pt f 2) = ∑ f ∈ Finset.range S0.F.rows, φ (S0.pt f 0) (S0.pt f 1) (S0.pt f 2)
  conn : ∀ P : ℕ → Prop, (∀ f < S0.F.rows, ∀ c < 3, ∀ d < 3, (P (S0.F.val f c) ↔ P (S0.F.val f d))) → ∃ Q : ℕ → Prop, (∀ v < S0.V.size, Q v ↔ P v) ∧
    ∀ f < S0.F.rows + 2 * done.length, ∀ c < 3, ∀ d < 3, (Q (S.F.val f c) ↔ Q (S.F.val f d))
  corn : ∀ f < S0.F.rows + 2 * done.length, ∀ c < 3, S.F.val f c < S0.V.size → ∃ g < S0.F.rows, ∃ d < 3, S0.F.val g d = S.F.val f c

/-- a labelling of the vertices that is constant on the faces extends to the split mesh -/
theorem SplitPost.label {N M K nv : ℕ} {S S' : SplitState} {uei f0 f1 a0 a1 a2 b0 b1 b2 v1 v2 v3 v4 u2 u3 u4 u5 : ℕ}
    (h : SInv N M K nv S) (q : SplitNames N M K nv S uei f0 f1 a0 a1 a2 b0 b1 b2 v1 v2 v3 v4 u2 u3 u4 u5)
    (p : SplitPost N M K nv S S' uei f0 f1 a0 a1 a2 b0 b1 b2 v1 v2 v3 v4 u2 u3 u4 u5) (roomF : M + 2 ≤ N) (Q : ℕ → Prop)
    (hQ : ∀ f < M, ∀ c < 3, ∀ d < 3, (Q (S.F.val f c) ↔ Q (S.F.val f d))) :
    ∃ Q' : ℕ → Prop, (∀ v < nv, Q' v ↔ Q v) ∧ ∀ f < M + 2, ∀ c < 3, ∀ d < 3, (Q' (S'.F.val f c) ↔ Q' (S'.F.val f d)) := by
  have t := p.tabs h q roomF
  have A := q.ha
  have B := q.hb
  have x1 := hQ f0 q.h0 a0 A.l0 a1 A.l1
  have x2 := hQ f0 q.h0 a1 A.l1 a2 A.l2
  have x3 := hQ f1 q.h1 b0 B.l0 b1 B.l1
  rw [q.t0, q.t1] at x1
  rw [q.t1, q.t2] at x2
  rw [q.r0, q.r1] at x3
  refine ⟨fun v => if v = nv then Q v1 else Q v, ?_, ?_⟩
  · intro v hv
    simp only
    rw [if_neg (by omega)]
  · have e1 : v1 ≠ nv := by have := q.l1; omega
    have e2 : v2 ≠ nv := by have := q.l2; omega
    have e3 : v3 ≠ nv := by have := q.l3; omega
    have e4 : v4 ≠ nv := by have := q.l4; omega
    intro f hf
    -- enough: all corners have the label of `v1`, or nothing has changed
    have fin : ∀ c0 c1 c2, Cyc c0 c1 c2 → (∀ c, c = c0 ∨ c = c1 ∨ c = c2 → ((if S'.F.val f c = nv then Q v1 else Q (S'.F.val f c)) ↔ Q v1)) →
        ∀ c < 3, ∀ d < 3, ((if S'.F.val f c = nv then Q v1 else Q (S'.F.val f c)) ↔ (if S'.F.val f d = nv then Q v1 else Q (S'.F.val f d))) := by
      intro c0 c1 c2 hc hall c h1 d h2
      exact (hall c (hc.cases c h1)).trans (hall d (hc.cases d h2)).symm
    by_cases g0 : f = f0
    · subst g0
      apply fin a0 a1 a2 A
      rintro c (rfl | rfl | rfl)
      · rw [t.F00, if_neg e4]; exact x1
      · rw [t.F01, if_neg e1]
      · rw [t.F02, if_pos rfl]
    by_cases g1 : f = f1
    · subst g1
      apply fin b0 b1 b2 B
      rintro c (rfl | rfl | rfl)
      · rw [t.F10, if_neg e3]; exact x3.trans x2.symm
      · rw [t.F11, if_pos rfl]
      · rw [t.F12, if_neg e1]
    by_cases g2 : f = M
    · subst g2
      apply fin 0 1 2 (Cyc.mk' 0 (by omega))
      rintro c (rfl | rfl | rfl)
      · rw [t.FM0, if_neg e2]; exact x2.symm
      · rw [t.FM1, if_pos rfl]
      · rw [t.FM2, if_neg e3]; exact x3.trans x2.symm
    by_cases g3 : f = M + 1
    · subst g3
      apply fin 0 1 2 (Cyc.mk' 0 (by omega))
      rintro c (rfl | rfl | rfl)
      · rw [t.FN0, if_neg e2]; exact x2.symm
      · rw [t.FN1, if_neg e4]; exact x1
      · rw [t.FN2, if_pos rfl]
    have hfM : f < M := by omega
    intro c hc d hd
    simp only
    rw [t.Fo' f g0 g1 hfM c hc, t.Fo' f g0 g1 hfM d hd, if_neg (t.hnv3 f c hfM hc), if_neg (t.hnv3 f d hfM hd)]
    exact hQ f hfM c hc d hd

/-- the corners of the split mesh are those of the old one and the new vertex -/
theorem SplitPost.corners {N M K nv : ℕ} {S S' : SplitState} {uei f0 f1 a0 a1 a2 b0 b1 b2 v1 v2 v3 v4 u2 u3 u4 u5 : ℕ}
    (h : SInv N M K nv S) (q : SplitNames N M K nv S uei f0 f1 a0 a1 a2 b0 b1 b2 v1 v2 v3 v4 u2 u3 u4 u5)
    (p : SplitPost N M K nv S S' uei f0 f1 a0 a1 a2 b0 b1 b2 v1 v2 v3 v4 u2 u3 u4 u5) (roomF : M + 2 ≤ N) :
    ∀ f < M + 2, ∀ c < 3, S'.F.val f c = nv ∨ ∃ g < M, ∃ d < 3, S.F.val g d = S'.F.val f c := by
  have t := p.tabs h q roomF
  have A := q.ha
  have B := q.hb
  have o1 : ∃ g < M, ∃ d < 3, S.F.val g d = v1 := ⟨f0, q.h0, a1, A.l1, q.t1⟩
  have o2 : ∃ g < M, ∃ d < 3, S.F.val g d = v2 := ⟨f0, q.h0, a2, A.l2, q.t2⟩
  have o3 : ∃ g < M, ∃ d < 3, S.F.val g d = v3 := ⟨f1, q.h1, b0, B.l0, q.r0⟩
  have o4 : ∃ g < M, ∃ d < 3, S.F.val g d = v4 := ⟨f0, q.h0, a0, A.l0, q.t0⟩
  intro f hf c hc
  by_cases g0 : f = f0
  · rw [g0]
    rcases A.cases c hc with rfl | rfl | rfl
    · rw [t.F00]; exact Or.inr o4
    · rw [t.F01]; exact Or.inr o1
    · rw [t.F02]; exact Or.inl rfl
  by_cases g1 : f = f1
  · rw [g1]
    rcases B.cases c hc with rfl | rfl | rfl
    · rw [t.F10]; exact Or.inr o3
    · rw [t.F11]; exact Or.inl rfl
    · rw [t.F12]; exact Or.inr o1
  by_cases g2 : f = M
  · rw [g2]
    rcases (Cyc.mk' 0 (by omega)).cases c hc with rfl | rfl | rfl
    · rw [t.FM0]; exact Or.inr o2
    · rw [t.FM1]; exact Or.inl rfl
    · rw [t.FM2]; exact Or.inr o3
  by_cases g3 : f = M + 1
  · rw [g3]
    rcases (Cyc.mk' 0 (by omega)).cases c hc with rfl | rfl | rfl
    · rw [t.FN0]; exact Or.inr o2
    · rw [t.FN1]; exact Or.inr o4
    · rw [t.FN2]; exact Or.inl rfl
  have hfM : f < M := by omega
  exact Or.inr ⟨f, hfM, c, hc, (t.Fo' f g0 g1 hfM c hc).symm⟩

theorem splitProg_start {S0 : SplitState} (h : SInv S0.F.rows S0.F.rows S0.uE.rows S0.V.size S0) (hP : S0.uE2E.size = S0.uE.rows) (s : ℕ) {A : Arr (List ℕ)}
    (hA : ∀ u < S0.uE2E.size, A.val u = (S0.uE2E.val u).map (shiftH S0.F.rows s)) : SplitProg S0 s [] (splitStart S0 s A) := by
  refine ⟨splitStart_inv h hP s hA, rfl, ?_, rfl, rfl, rfl, fun _ _ _ => rfl, fun _ _ => ⟨rfl, rfl, rfl⟩, ?_, ?_, fun _ => Iff.rfl, ?_, fun _ _ _ => rfl,
    fun P hP => ⟨P, fun _ _ => Iff.rfl, hP⟩, fun f hf c hc _ => ⟨f, hf, c, hc, rfl⟩⟩
  · show S0.uE2E.size + 3 * s = _; rw [hP]
  · intro j hj; simp at hj
  · intro u h1 h2; simp at h2; omega
  · intro f hf
    exact ⟨f, hf, fun x hx => hx, 1, one_pos, by ext <;> simp [splitStart, SplitState.pt, Arr.resize, IMat.resize]⟩

set_option maxHeartbeats 1000000 in
theorem splitProg_step {S0 S : SplitState} {s : ℕ} {done : List ℕ} (h0 : SInv S0.F.rows S0.F.rows S0.uE.rows S0.V.size S0)
    (h : SplitProg S0 s done S) {u : ℕ} (hu : u < S0.uE.rows) (hnd : u ∉ done) (hd : ∀ x ∈ done, x < S0.uE.rows) (hs : done.length < s) :
    ∃ S', splitStep S0.V.size S0.F.rows S0.uE.rows (S0.F.rows + 2 * s) done.length u S = some S' ∧ SplitProg S0 s (done ++ [u]) S' := by
  have hi := h.inv
  obtain ⟨f0, f1, a0, a1, a2, b0, b1, b2, v1, v2, v3, v4, u2, u3, u4, u5, q⟩ := splitNames_exist hi (uei := u) (by omega)
  have roomF : S0.F.rows + 2 * done.length + 2 ≤ S0.F.rows + 2 * s := by omega
  have roomU : S0.uE.rows + 3 * done.length + 3 ≤ S.uE.rows := by rw [h.ur]; omega
  have roomP : S0.uE.rows + 3 * done.length + 3 ≤ S.uE2E.size := by rw [h.pr]; omega
  have roomV : S0.V.size + done.length + 1 ≤ S.V.size := by rw [h.vr]; omega
  have roomH : S0.V.size + done.length + 1 ≤ S.high.size := by rw [h.hr]; omega
  have roomL : S0.V.size + done.length + 1 ≤ S.low.size := by rw [h.lr]; omega
  obtain ⟨S', hS', p⟩ := splitStep_eval (n := S0.V.size) (m := S0.F.rows) (k := S0.uE.rows) (i := done.length) rfl rfl rfl hi q roomF roomU roomP roomV roomH roomL
  refine ⟨S', hS', ?_⟩
  have hlen : (done ++ [u]).length = done.length + 1 := by simp
  have inv' := p.inv hi q roomF roomU roomP roomV roomH roomL
  have t := p.tabs hi q roomF
  -- the ends of the edge
  have hends : Undir (edgeRow S0.uE u) ⟨v1, v2⟩ := by
    rw [← h.old u hu hnd]
    unfold edgeRow
    rw [undir_iff]
    have := hi.hue f0 q.h0 a0 q.ha.l0
    rw [q.e0, q.ha.s01, q.ha.s02, q.t1, q.t2] at this
    rcases this with ⟨x, y⟩ | ⟨x, y⟩
    · left; exact ⟨x.symm, y.symm⟩
    · right; exact ⟨y.symm, x.symm⟩
  have hold0 : S0.uE.val u 0 < S0.V.size ∧ S0.uE.val u 1 < S0.V.size := by
    obtain ⟨f, c, hf, hc, rfl⟩ := h0.hP u hu
    have y1 := (h0.hd f hf ((c + 1) % 3) (by omega)).1
    have y2 := (h0.hd f hf ((c + 2) % 3) (by omega)).1
    rcases h0.hue f hf c hc with ⟨e1, e2⟩ | ⟨e1, e2⟩ <;> rw [e1, e2] <;> exact ⟨by assumption, by assumption⟩
  have hv12 : v1 < S0.V.size ∧ v2 < S0.V.size := by
    unfold edgeRow at hends
    rw [undir_iff] at hends
    rcases hends with ⟨x, y⟩ | ⟨x, y⟩ <;> rw [x, y]
    · exact hold0
    · exact hold0.symm
  have hV : ∀ v < S0.V.size + done.length, S'.V.val v = S.V.val v := by
    intro v hv; rw [p.V]; simp only [Function.update_apply]; rw [if_neg (by omega)]
  have hH : ∀ v < S0.V.size + done.length, S'.high.val v = S.high.val v := by
    intro v hv; rw [p.high]; simp only [Function.update_apply]; rw [if_neg (by omega)]
  have hL : ∀ v < S0.V.size + done.length, S'.low.val v = S.low.val v := by
    intro v hv; rw [p.low]; simp only [Function.update_apply]; rw [if_neg (by omega)]
  refine ⟨?_, ?_, ?_, ?_, ?_, ?_, ?_, ?_, ?_, ?_, ?_, ?_, ?_, ?_, ?_⟩
  · rw [hlen]; exact inv'
  · rw [p.ur, h.ur]
  · rw [p.pr, h.pr]
  · rw [p.V]; exact h.vr
  · rw [p.high]; exact h.hr
  · rw [p.low]; exact h.lr
  · intro w hw hwn
    rw [List.mem_append, List.mem_singleton, not_or] at hwn
    rw [← h.old w hw hwn.1]
    unfold edgeRow
    obtain ⟨x, y⟩ := t.U0 w (by omega) hwn.2
    rw [x, y]
  · intro v hv
    rw [hV v (by omega), hH v (by omega), hL v (by omega)]
    exact h.vold v hv
  · intro j hj
    rw [hlen] at hj
    by_cases hjl : j < done.length
    · rw [List.getElem_append_left hjl]
      obtain ⟨a, b, x1, x2, x3, x4, x5, x6⟩ := h.vnew j hjl
      have hne : done[j] ≠ u := fun he => hnd (he ▸ List.getElem_mem hjl)
      have hdj := hd _ (List.getElem_mem hjl)
      have ua := t.U0 done[j] (by omega) hne
      have ub := t.U0 (S0.uE.rows + 3 * j + 2) (by omega) (by omega)
      refine ⟨a, b, x1, ?_, ?_, ?_, ?_, ?_⟩
      · rw [← x2]; unfold edgeRow; rw [ua.1, ua.2]
      · rw [← x3]; unfold edgeRow; rw [ub.1, ub.2]
      · rw [hV _ (by omega), x4]
      · rw [hH _ (by omega), x5]
      · rw [hL _ (by omega), x6]
    · have hj' : j = done.length := by omega
      subst hj'
      rw [List.getElem_append_right (le_refl _)]
      simp only [Nat.sub_self, List.getElem_cons_zero]
      obtain ⟨w1, w2, w3⟩ := h.vold v1 hv12.1
      obtain ⟨z1, z2, z3⟩ := h.vold v2 hv12.2
      refine ⟨v1, v2, hends, ?_, ?_, ?_, ?_, ?_⟩
      · unfold edgeRow; rw [t.Uuei.1, t.Uuei.2]
      · unfold edgeRow; rw [t.UK2.1, t.UK2.2]
      · rw [p.V, ← w1, ← z1]; simp [mid3]
      · rw [p.high, ← w2, ← z2]; simp
      · rw [p.low, ← w3, ← z3]; simp
  · intro w h1 h2
    rw [hlen] at h2
    unfold edgeRow
    simp only
    by_cases e1 : w = S0.uE.rows + 3 * done.length
    · rw [e1, t.UK.1]; omega
    by_cases e2 : w = S0.uE.rows + 3 * done.length + 1
    · rw [e2, t.UK1.1]; omega
    by_cases e3 : w = S0.uE.rows + 3 * done.length + 2
    · rw [e3, t.UK2.1]; omega
    rw [(t.U0 w (by omega) (by omega)).1]
    exact h.newE w h1 (by omega)
  · intro x
    rw [hlen]
    exact (p.surf hi q roomF x).trans (h.surf x)
  · intro f hf
    rw [hlen] at hf
    obtain ⟨g, hg, x1, r, hr, x2⟩ := p.part hi q roomF f hf
    obtain ⟨g', hg', y1, r', hr', y2⟩ := h.part g hg
    exact ⟨g', hg', fun x hx => y1 x (x1 x hx), r * r', mul_pos hr hr', by rw [x2, y2]; ext <;> simp <;> ring⟩
  · intro φ hφ hadd
    rw [hlen]
    exact (p.sum φ hφ hadd hi q roomF).trans (h.sum φ hφ hadd)
  · intro P hP
    obtain ⟨Q, k1, k2⟩ := h.conn P hP
    obtain ⟨Q', l1, l2⟩ := p.label hi q roomF Q k2
    refine ⟨Q', fun v hv => (l1 v (by omega)).trans (k1 v hv), ?_⟩
    rw [hlen]
    exact l2
  · intro f hf c hc hlt
    rw [hlen] at hf
    rcases p.corners hi q roomF f hf c hc with k | ⟨g, hg, d, hd', k⟩
    · omega
    · obtain ⟨g', hg', d', hd'', k'⟩ := h.corn g hg d hd' (by omega)
      exact ⟨g', hg', d', hd'', k'.trans k⟩

theorem splitProg_loop {S0 : SplitState} {s : ℕ} (h0 : SInv S0.F.rows S0.F.rows S0.uE.rows S0.V.size S0) (rest : List ℕ) :
    ∀ (done : List ℕ) (S : SplitState), SplitProg S0 s done S → (done ++ rest).Nodup → (∀ u ∈ done ++ rest, u < S0.uE.rows) → done.length + rest.length = s →
    ∃ S', (rest.zipIdx done.length).foldlM (fun S' p => splitStep S0.V.size S0.F.rows S0.uE.rows (S0.F.rows + 2 * s) p.2 p.1 S') S = some S' ∧
      SplitProg S0 s (done ++ rest) S' := by
  induction rest with
  | nil =>
    intro done S h _ _ _
    exact ⟨S, rfl, by simpa using h⟩
  | cons u rest ih =>
    intro done S h hnd hlt hlen
    have hun : u ∉ done := by
      rw [List.nodup_append] at hnd
      intro hu
      exact hnd.2.2 u hu u (by simp) rfl
    obtain ⟨S1, hS1, h1⟩ := splitProg_step h0 h (hlt u (by simp)) hun (fun x hx => hlt x (by simp [hx])) (by simp at hlen; omega)
    obtain ⟨S', hS', h'⟩ := ih (done ++ [u]) S1 h1 (by simpa using hnd) (by simpa using hlt) (by simp at hlen ⊢; omega)
    refine ⟨S', ?_, by simpa using h'⟩
    rw [List.zipIdx_cons, List.foldlM_cons]
    simp only [hS1, Option.bind_eq_bind, Option.bind_some]
    simpa using hS'

theorem splitEdges_prog {S0 : SplitState} (h0 : SInv S0.F.rows S0.F.rows S0.uE.rows S0.V.size S0) (hP : S0.uE2E.size = S0.uE.rows) (todo : List ℕ)
    (hnd : todo.Nodup) (hlt : ∀ u ∈ todo, u < S0.uE.rows) :
    ∃ S', splitEdges S0 todo = some S' ∧ SplitProg S0 todo.length todo S' := by
  obtain ⟨A, hA, he⟩ := splitEdges_start h0 todo
  obtain ⟨S', hS', h'⟩ := splitProg_loop (s := todo.length) h0 todo [] _ (splitProg_start h0 hP todo.length hA) (by simpa using hnd) (by simpa using hlt) (by simp)
  exact ⟨S', by rw [he]; exact hS', by simpa using h'⟩

end Gpy
