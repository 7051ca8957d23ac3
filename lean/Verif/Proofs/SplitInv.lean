import Verif.Proofs.SplitStep

/-! A split keeps the data structure consistent. -/

set_option autoImplicit false
namespace Gpy

section
variable {N M K nv : ℕ} {S S' : SplitState} {uei f0 f1 a0 a1 a2 b0 b1 b2 v1 v2 v3 v4 u2 u3 u4 u5 : ℕ}

theorem newTab_vals {α : Type} (A : Cyc a0 a1 a2) (B : Cyc b0 b1 b2) (h01 : f0 ≠ f1) (h0 : f0 < M) (h1 : f1 < M)
    (x0 x1 x2 y0 y1 y2 z0 z1 z2 w0 w1 w2 : α) (old : ℕ → ℕ → α) :
    let T := newTab f0 f1 M a0 a1 b0 b1 x0 x1 x2 y0 y1 y2 z0 z1 z2 w0 w1 w2 old
    (T f0 a0 = x0 ∧ T f0 a1 = x1 ∧ T f0 a2 = x2) ∧ (T f1 b0 = y0 ∧ T f1 b1 = y1 ∧ T f1 b2 = y2) ∧
    (T M 0 = z0 ∧ T M 1 = z1 ∧ T M 2 = z2) ∧ (T (M + 1) 0 = w0 ∧ T (M + 1) 1 = w1 ∧ T (M + 1) 2 = w2) ∧
    ∀ f, f ≠ f0 → f ≠ f1 → f < M → ∀ c, T f c = old f c := by
  have hM0 : M ≠ f0 := by omega
  have hM1 : M ≠ f1 := by omega
  have hN0 : M + 1 ≠ f0 := by omega
  have hN1 : M + 1 ≠ f1 := by omega
  refine ⟨⟨?_, ?_, ?_⟩, ⟨?_, ?_, ?_⟩, ⟨?_, ?_, ?_⟩, ⟨?_, ?_, ?_⟩, ?_⟩
  any_goals simp [newTab, A.n01, A.n02, A.n12, A.n01.symm, A.n02.symm, A.n12.symm, B.n01, B.n02, B.n12, B.n01.symm, B.n02.symm, B.n12.symm,
    h01, h01.symm, hM0, hM1, hN0, hN1]
  intro f e0 e1 e2 c
  have e3 : f ≠ M := by omega
  have e4 : f ≠ M + 1 := by omega
  simp [newTab, e0, e1, e3, e4]

/-- all halfedges after the split -/
theorem split_cases (A : Cyc a0 a1 a2) (B : Cyc b0 b1 b2) {f c : ℕ} (hf : f < M + 2) (hc : c < 3) :
    (f = f0 ∧ c = a0) ∨ (f = f0 ∧ c = a1) ∨ (f = f0 ∧ c = a2) ∨ (f = f1 ∧ c = b0) ∨ (f = f1 ∧ c = b1) ∨ (f = f1 ∧ c = b2) ∨
    (f = M ∧ c = 0) ∨ (f = M ∧ c = 1) ∨ (f = M ∧ c = 2) ∨ (f = M + 1 ∧ c = 0) ∨ (f = M + 1 ∧ c = 1) ∨ (f = M + 1 ∧ c = 2) ∨
    (f < M ∧ f ≠ f0 ∧ f ≠ f1) := by
  by_cases e0 : f = f0
  · rcases A.cases c hc with e | e | e
    · exact Or.inl ⟨e0, e⟩
    · exact Or.inr (Or.inl ⟨e0, e⟩)
    · exact Or.inr (Or.inr (Or.inl ⟨e0, e⟩))
  refine Or.inr (Or.inr (Or.inr ?_))
  by_cases e1 : f = f1
  · rcases B.cases c hc with e | e | e
    · exact Or.inl ⟨e1, e⟩
    · exact Or.inr (Or.inl ⟨e1, e⟩)
    · exact Or.inr (Or.inr (Or.inl ⟨e1, e⟩))
  refine Or.inr (Or.inr (Or.inr ?_))
  have h3 : c = 0 ∨ c = 1 ∨ c = 2 := by omega
  by_cases e2 : f = M
  · rcases h3 with e | e | e
    · exact Or.inl ⟨e2, e⟩
    · exact Or.inr (Or.inl ⟨e2, e⟩)
    · exact Or.inr (Or.inr (Or.inl ⟨e2, e⟩))
  refine Or.inr (Or.inr (Or.inr ?_))
  by_cases e3 : f = M + 1
  · rcases h3 with e | e | e
    · exact Or.inl ⟨e3, e⟩
    · exact Or.inr (Or.inl ⟨e3, e⟩)
    · exact Or.inr (Or.inr (Or.inl ⟨e3, e⟩))
  exact Or.inr (Or.inr (Or.inr ⟨by omega, e0, e1⟩))

theorem SplitNames.u25 (h : SInv N M K nv S) (q : SplitNames N M K nv S uei f0 f1 a0 a1 a2 b0 b1 b2 v1 v2 v3 v4 u2 u3 u4 u5) : u2 ≠ u5 := by
  intro he
  have A := q.ha
  have B := q.hb
  have := h.same_label q.h1 B.l1 q.h0 A.l2 (by rw [q.e2, q.e5, he])
  rw [A.s21, A.s22, B.s11, B.s12, q.t0, q.t1, q.r0, q.r2] at this
  rcases this with ⟨x, y⟩ | ⟨x, y⟩
  · exact q.n14 x
  · exact q.n34 y

theorem hix_ne {f c g d : ℕ} (hf : f < N) (hg : g < N) (hne : f ≠ g) : f + c * N ≠ g + d * N := by
  intro he; exact hne ((hix_inj hf hg).mp he).1

/-- all entries of the tables after a split -/
structure SplitTabs (N M K nv : ℕ) (S S' : SplitState) (uei f0 f1 a0 a1 a2 b0 b1 b2 v1 v2 v3 v4 u2 u3 u4 u5 : ℕ) : Prop where
  F00 : S'.F.val f0 a0 = v4
  F01 : S'.F.val f0 a1 = v1
  F02 : S'.F.val f0 a2 = nv
  F10 : S'.F.val f1 b0 = v3
  F11 : S'.F.val f1 b1 = nv
  F12 : S'.F.val f1 b2 = v1
  FM0 : S'.F.val M 0 = v2
  FM1 : S'.F.val M 1 = nv
  FM2 : S'.F.val M 2 = v3
  FN0 : S'.F.val (M + 1) 0 = v2
  FN1 : S'.F.val (M + 1) 1 = v4
  FN2 : S'.F.val (M + 1) 2 = nv
  G00 : S'.EMAP.val (f0 + a0 * N) = uei
  G01 : S'.EMAP.val (f0 + a1 * N) = K + 1
  G02 : S'.EMAP.val (f0 + a2 * N) = u5
  G10 : S'.EMAP.val (f1 + b0 * N) = uei
  G11 : S'.EMAP.val (f1 + b1 * N) = u2
  G12 : S'.EMAP.val (f1 + b2 * N) = K
  GM0 : S'.EMAP.val (M + 0 * N) = K
  GM1 : S'.EMAP.val (M + 1 * N) = u3
  GM2 : S'.EMAP.val (M + 2 * N) = K + 2
  GN0 : S'.EMAP.val ((M + 1) + 0 * N) = K + 1
  GN1 : S'.EMAP.val ((M + 1) + 1 * N) = K + 2
  GN2 : S'.EMAP.val ((M + 1) + 2 * N) = u4
  H00 : S'.E.val (f0 + a0 * N) 0 = v1
  H01 : S'.E.val (f0 + a1 * N) 0 = nv
  H02 : S'.E.val (f0 + a2 * N) 0 = v4
  H10 : S'.E.val (f1 + b0 * N) 0 = nv
  H11 : S'.E.val (f1 + b1 * N) 0 = v1
  H12 : S'.E.val (f1 + b2 * N) 0 = v3
  HM0 : S'.E.val (M + 0 * N) 0 = nv
  HM1 : S'.E.val (M + 1 * N) 0 = v3
  HM2 : S'.E.val (M + 2 * N) 0 = v2
  HN0 : S'.E.val ((M + 1) + 0 * N) 0 = v4
  HN1 : S'.E.val ((M + 1) + 1 * N) 0 = nv
  HN2 : S'.E.val ((M + 1) + 2 * N) 0 = v2
  I00 : S'.E.val (f0 + a0 * N) 1 = nv
  I01 : S'.E.val (f0 + a1 * N) 1 = v4
  I02 : S'.E.val (f0 + a2 * N) 1 = v1
  I10 : S'.E.val (f1 + b0 * N) 1 = v1
  I11 : S'.E.val (f1 + b1 * N) 1 = v3
  I12 : S'.E.val (f1 + b2 * N) 1 = nv
  IM0 : S'.E.val (M + 0 * N) 1 = v3
  IM1 : S'.E.val (M + 1 * N) 1 = v2
  IM2 : S'.E.val (M + 2 * N) 1 = nv
  IN0 : S'.E.val ((M + 1) + 0 * N) 1 = nv
  IN1 : S'.E.val ((M + 1) + 1 * N) 1 = v2
  IN2 : S'.E.val ((M + 1) + 2 * N) 1 = v4
  Fo' : ∀ f, f ≠ f0 → f ≠ f1 → f < M → ∀ c < 3, S'.F.val f c = S.F.val f c
  Go' : ∀ f, f ≠ f0 → f ≠ f1 → f < M → ∀ c < 3, S'.EMAP.val (f + c * N) = S.EMAP.val (f + c * N)
  Ho' : ∀ f, f ≠ f0 → f ≠ f1 → f < M → ∀ c < 3, S'.E.val (f + c * N) 0 = S.E.val (f + c * N) 0
  Io' : ∀ f, f ≠ f0 → f ≠ f1 → f < M → ∀ c < 3, S'.E.val (f + c * N) 1 = S.E.val (f + c * N) 1
  U0 : ∀ u < K, u ≠ uei → S'.uE.val u 0 = S.uE.val u 0 ∧ S'.uE.val u 1 = S.uE.val u 1
  Uuei : S'.uE.val uei 0 = nv ∧ S'.uE.val uei 1 = v1
  UK : S'.uE.val K 0 = nv ∧ S'.uE.val K 1 = v3
  UK1 : S'.uE.val (K + 1) 0 = nv ∧ S'.uE.val (K + 1) 1 = v4
  UK2 : S'.uE.val (K + 2) 0 = nv ∧ S'.uE.val (K + 2) 1 = v2
  Po : ∀ u < K, u ≠ u3 → u ≠ u4 → S'.uE2E.val u = S.uE2E.val u
  uEold : ∀ u < K, S.uE.val u 0 < nv ∧ S.uE.val u 1 < nv
  lab_of : ∀ f c, f < M → c < 3 → S.EMAP.val (f + c * N) = uei → f = f0 ∨ f = f1
  avoid0 : ∀ d < 3, ∀ u, u ≠ uei → u ≠ u4 → u ≠ u5 → S.EMAP.val (f0 + d * N) ≠ u
  avoid1 : ∀ d < 3, ∀ u, u ≠ uei → u ≠ u2 → u ≠ u3 → S.EMAP.val (f1 + d * N) ≠ u
  hnv3 : ∀ g d, g < M → d < 3 → S.F.val g d ≠ nv

set_option maxHeartbeats 1000000 in
/-- the entries of the tables -/
theorem SplitPost.tabs (h : SInv N M K nv S) (q : SplitNames N M K nv S uei f0 f1 a0 a1 a2 b0 b1 b2 v1 v2 v3 v4 u2 u3 u4 u5)
    (p : SplitPost N M K nv S S' uei f0 f1 a0 a1 a2 b0 b1 b2 v1 v2 v3 v4 u2 u3 u4 u5)
    (roomF : M + 2 ≤ N) :
    SplitTabs N M K nv S S' uei f0 f1 a0 a1 a2 b0 b1 b2 v1 v2 v3 v4 u2 u3 u4 u5 := by
  obtain ⟨⟨k1, k2, k3, k4, k5⟩, ⟨d2, d3, d4, d5⟩, ⟨x23, x24, x53, x54, x34⟩⟩ := q.labels h
  have x25 := q.u25 h
  have A := q.ha
  have B := q.hb
  have q0 := q.h0
  have q1 := q.h1
  have q01 := q.h01
  have hmn := h.mn
  have A0 := A.l0
  have A1 := A.l1
  have A2 := A.l2
  have B0 := B.l0
  have B1 := B.l1
  have B2 := B.l2
  have l1 := q.l1
  have l2 := q.l2
  have l3 := q.l3
  have l4 := q.l4
  -- unique edges
  have U0 : ∀ u < K, u ≠ uei → S'.uE.val u 0 = S.uE.val u 0 ∧ S'.uE.val u 1 = S.uE.val u 1 := by
    intro u hu hne
    rw [p.uE0, p.uE1]
    simp [hne, show u ≠ K by omega, show u ≠ K + 1 by omega, show u ≠ K + 2 by omega]
  have Uuei : S'.uE.val uei 0 = nv ∧ S'.uE.val uei 1 = v1 := by rw [p.uE0, p.uE1]; simp
  have UK : S'.uE.val K 0 = nv ∧ S'.uE.val K 1 = v3 := by rw [p.uE0, p.uE1]; simp [show K ≠ uei by omega]
  have UK1 : S'.uE.val (K + 1) 0 = nv ∧ S'.uE.val (K + 1) 1 = v4 := by rw [p.uE0, p.uE1]; simp [show K + 1 ≠ uei by omega]
  have UK2 : S'.uE.val (K + 2) 0 = nv ∧ S'.uE.val (K + 2) 1 = v2 := by rw [p.uE0, p.uE1]; simp [show K + 2 ≠ uei by omega]
  -- pairs
  have Po : ∀ u < K, u ≠ u3 → u ≠ u4 → S'.uE2E.val u = S.uE2E.val u := fun u hu h3 h4 =>
    p.Pold u (by omega) (by omega) (by omega) h3 h4
  -- ends of an edge are old vertices
  have uEold : ∀ u < K, S.uE.val u 0 < nv ∧ S.uE.val u 1 < nv := by
    intro u hu
    obtain ⟨f, c, hf, hc, rfl⟩ := h.hP u hu
    have y1 := (h.hd f hf ((c + 1) % 3) (by omega)).1
    have y2 := (h.hd f hf ((c + 2) % 3) (by omega)).1
    rcases h.hue f hf c hc with ⟨e1, e2⟩ | ⟨e1, e2⟩ <;> rw [e1, e2] <;> exact ⟨by assumption, by assumption⟩
  -- the twin of an outer halfedge lies on none of the two split faces
  have lab_of : ∀ f c, f < M → c < 3 → S.EMAP.val (f + c * N) = uei → f = f0 ∨ f = f1 := by
    intro f c hf hc he
    obtain ⟨x, y, hxy, _, ho⟩ := h.pair_of hf hc he
    rw [q.hp] at hxy
    obtain ⟨rfl, rfl⟩ : x = f0 + a0 * N ∧ y = f1 + b0 * N := by
      simp only [List.cons.injEq, and_true] at hxy; exact ⟨hxy.1.symm, hxy.2.symm⟩
    rcases ho with ho | ho
    · left; exact ((hix_inj (by omega) (by omega)).mp ho).1
    · right; exact ((hix_inj (by omega) (by omega)).mp ho).1
  have avoid0 : ∀ d < 3, ∀ u, u ≠ uei → u ≠ u4 → u ≠ u5 → S.EMAP.val (f0 + d * N) ≠ u := by
    intro d hd u n1 n2 n3
    rcases A.cases d hd with rfl | rfl | rfl
    · rw [q.e0]; exact n1.symm
    · rw [q.e4]; exact n2.symm
    · rw [q.e5]; exact n3.symm
  have avoid1 : ∀ d < 3, ∀ u, u ≠ uei → u ≠ u2 → u ≠ u3 → S.EMAP.val (f1 + d * N) ≠ u := by
    intro d hd u n1 n2 n3
    rcases B.cases d hd with rfl | rfl | rfl
    · rw [q.e1]; exact n1.symm
    · rw [q.e2]; exact n2.symm
    · rw [q.e3]; exact n3.symm
  have hnv3 : ∀ g d, g < M → d < 3 → S.F.val g d ≠ nv := by intro g d hg hd; have := (h.hd g hg d hd).1; omega
  have z0 : 0 < 3 := by omega
  have z1 : 1 < 3 := by omega
  have z2 : 2 < 3 := by omega
  have g0 : f0 < N := by omega
  have g1 : f1 < N := by omega
  have g2 : M < N := by omega
  have g3 : M + 1 < N := by omega
  have TF := newTab_vals A B q01 q0 q1 v4 v1 nv v3 nv v1 v2 nv v3 v2 v4 nv S.F.val
  have TG := newTab_vals A B q01 q0 q1 uei (K + 1) u5 uei u2 K K u3 (K + 2) (K + 1) (K + 2) u4 (fun f c => S.EMAP.val (f + c * N))
  have TH := newTab_vals A B q01 q0 q1 v1 nv v4 nv v1 v3 nv v3 v2 v4 nv v2 (fun f c => S.E.val (f + c * N) 0)
  have TI := newTab_vals A B q01 q0 q1 nv v4 v1 v1 v3 nv v3 v2 nv nv v2 v4 (fun f c => S.E.val (f + c * N) 1)
  exact ⟨(p.F f0 a0 A0).trans TF.1.1,
    (p.F f0 a1 A1).trans TF.1.2.1,
    (p.F f0 a2 A2).trans TF.1.2.2,
    (p.F f1 b0 B0).trans TF.2.1.1,
    (p.F f1 b1 B1).trans TF.2.1.2.1,
    (p.F f1 b2 B2).trans TF.2.1.2.2,
    (p.F M 0 z0).trans TF.2.2.1.1,
    (p.F M 1 z1).trans TF.2.2.1.2.1,
    (p.F M 2 z2).trans TF.2.2.1.2.2,
    (p.F (M + 1) 0 z0).trans TF.2.2.2.1.1,
    (p.F (M + 1) 1 z1).trans TF.2.2.2.1.2.1,
    (p.F (M + 1) 2 z2).trans TF.2.2.2.1.2.2,
    (p.EM f0 g0 a0 A0).trans TG.1.1,
    (p.EM f0 g0 a1 A1).trans TG.1.2.1,
    (p.EM f0 g0 a2 A2).trans TG.1.2.2,
    (p.EM f1 g1 b0 B0).trans TG.2.1.1,
    (p.EM f1 g1 b1 B1).trans TG.2.1.2.1,
    (p.EM f1 g1 b2 B2).trans TG.2.1.2.2,
    (p.EM M g2 0 z0).trans TG.2.2.1.1,
    (p.EM M g2 1 z1).trans TG.2.2.1.2.1,
    (p.EM M g2 2 z2).trans TG.2.2.1.2.2,
    (p.EM (M + 1) g3 0 z0).trans TG.2.2.2.1.1,
    (p.EM (M + 1) g3 1 z1).trans TG.2.2.2.1.2.1,
    (p.EM (M + 1) g3 2 z2).trans TG.2.2.2.1.2.2,
    (p.E0 f0 g0 a0 A0).trans TH.1.1,
    (p.E0 f0 g0 a1 A1).trans TH.1.2.1,
    (p.E0 f0 g0 a2 A2).trans TH.1.2.2,
    (p.E0 f1 g1 b0 B0).trans TH.2.1.1,
    (p.E0 f1 g1 b1 B1).trans TH.2.1.2.1,
    (p.E0 f1 g1 b2 B2).trans TH.2.1.2.2,
    (p.E0 M g2 0 z0).trans TH.2.2.1.1,
    (p.E0 M g2 1 z1).trans TH.2.2.1.2.1,
    (p.E0 M g2 2 z2).trans TH.2.2.1.2.2,
    (p.E0 (M + 1) g3 0 z0).trans TH.2.2.2.1.1,
    (p.E0 (M + 1) g3 1 z1).trans TH.2.2.2.1.2.1,
    (p.E0 (M + 1) g3 2 z2).trans TH.2.2.2.1.2.2,
    (p.E1 f0 g0 a0 A0).trans TI.1.1,
    (p.E1 f0 g0 a1 A1).trans TI.1.2.1,
    (p.E1 f0 g0 a2 A2).trans TI.1.2.2,
    (p.E1 f1 g1 b0 B0).trans TI.2.1.1,
    (p.E1 f1 g1 b1 B1).trans TI.2.1.2.1,
    (p.E1 f1 g1 b2 B2).trans TI.2.1.2.2,
    (p.E1 M g2 0 z0).trans TI.2.2.1.1,
    (p.E1 M g2 1 z1).trans TI.2.2.1.2.1,
    (p.E1 M g2 2 z2).trans TI.2.2.1.2.2,
    (p.E1 (M + 1) g3 0 z0).trans TI.2.2.2.1.1,
    (p.E1 (M + 1) g3 1 z1).trans TI.2.2.2.1.2.1,
    (p.E1 (M + 1) g3 2 z2).trans TI.2.2.2.1.2.2,
    fun f e0 e1 e2 c hc => (p.F f c hc).trans (TF.2.2.2.2 f e0 e1 e2 c),
    fun f e0 e1 e2 c hc => (p.EM f (Nat.lt_of_lt_of_le e2 hmn) c hc).trans (TG.2.2.2.2 f e0 e1 e2 c),
    fun f e0 e1 e2 c hc => (p.E0 f (Nat.lt_of_lt_of_le e2 hmn) c hc).trans (TH.2.2.2.2 f e0 e1 e2 c),
    fun f e0 e1 e2 c hc => (p.E1 f (Nat.lt_of_lt_of_le e2 hmn) c hc).trans (TI.2.2.2.2 f e0 e1 e2 c),
    U0,
    Uuei,
    UK,
    UK1,
    UK2,
    Po,
    uEold,
    lab_of,
    avoid0,
    avoid1,
    hnv3⟩

set_option maxHeartbeats 1000000 in
theorem SplitTabs.hE (h : SInv N M K nv S) (q : SplitNames N M K nv S uei f0 f1 a0 a1 a2 b0 b1 b2 v1 v2 v3 v4 u2 u3 u4 u5)
    (p : SplitPost N M K nv S S' uei f0 f1 a0 a1 a2 b0 b1 b2 v1 v2 v3 v4 u2 u3 u4 u5)
    (t : SplitTabs N M K nv S S' uei f0 f1 a0 a1 a2 b0 b1 b2 v1 v2 v3 v4 u2 u3 u4 u5) (roomF : M + 2 ≤ N) :
    ∀ f < M + 2, ∀ c < 3, S'.E.val (f + c * N) 0 = S'.F.val f ((c + 1) % 3) ∧ S'.E.val (f + c * N) 1 = S'.F.val f ((c + 2) % 3) := by
  obtain ⟨⟨k1, k2, k3, k4, k5⟩, ⟨d2, d3, d4, d5⟩, ⟨x23, x24, x53, x54, x34⟩⟩ := q.labels h
  have x25 := q.u25 h
  have A := q.ha
  have B := q.hb
  have q0 := q.h0
  have q1 := q.h1
  have q01 := q.h01
  have A0 := A.l0
  have A1 := A.l1
  have A2 := A.l2
  have B0 := B.l0
  have B1 := B.l1
  have B2 := B.l2
  have l1 := q.l1
  have l2 := q.l2
  have l3 := q.l3
  have l4 := q.l4
  have hmn := h.mn
  intro f hf c hc
  rcases split_cases (f0 := f0) (f1 := f1) A B hf hc with ⟨rfl, rfl⟩ | ⟨rfl, rfl⟩ | ⟨rfl, rfl⟩ | ⟨rfl, rfl⟩ | ⟨rfl, rfl⟩ | ⟨rfl, rfl⟩ |
    ⟨rfl, rfl⟩ | ⟨rfl, rfl⟩ | ⟨rfl, rfl⟩ | ⟨rfl, rfl⟩ | ⟨rfl, rfl⟩ | ⟨rfl, rfl⟩ | ⟨g1, g2, g3⟩
  · rw [A.s01, A.s02, t.H00, t.I00, t.F01, t.F02]; exact ⟨rfl, rfl⟩
  · rw [A.s11, A.s12, t.H01, t.I01, t.F02, t.F00]; exact ⟨rfl, rfl⟩
  · rw [A.s21, A.s22, t.H02, t.I02, t.F00, t.F01]; exact ⟨rfl, rfl⟩
  · rw [B.s01, B.s02, t.H10, t.I10, t.F11, t.F12]; exact ⟨rfl, rfl⟩
  · rw [B.s11, B.s12, t.H11, t.I11, t.F12, t.F10]; exact ⟨rfl, rfl⟩
  · rw [B.s21, B.s22, t.H12, t.I12, t.F10, t.F11]; exact ⟨rfl, rfl⟩
  · rw [t.HM0, t.IM0]; exact ⟨t.FM1.symm, t.FM2.symm⟩
  · rw [t.HM1, t.IM1]; exact ⟨t.FM2.symm, t.FM0.symm⟩
  · rw [t.HM2, t.IM2]; exact ⟨t.FM0.symm, t.FM1.symm⟩
  · rw [t.HN0, t.IN0]; exact ⟨t.FN1.symm, t.FN2.symm⟩
  · rw [t.HN1, t.IN1]; exact ⟨t.FN2.symm, t.FN0.symm⟩
  · rw [t.HN2, t.IN2]; exact ⟨t.FN0.symm, t.FN1.symm⟩
  · rw [t.Ho' f g2 g3 g1 c hc, t.Io' f g2 g3 g1 c hc, t.Fo' f g2 g3 g1 _ (by omega), t.Fo' f g2 g3 g1 _ (by omega)]
    exact h.hE f g1 c hc

set_option maxHeartbeats 1000000 in
theorem SplitTabs.hem (h : SInv N M K nv S) (q : SplitNames N M K nv S uei f0 f1 a0 a1 a2 b0 b1 b2 v1 v2 v3 v4 u2 u3 u4 u5)
    (p : SplitPost N M K nv S S' uei f0 f1 a0 a1 a2 b0 b1 b2 v1 v2 v3 v4 u2 u3 u4 u5)
    (t : SplitTabs N M K nv S S' uei f0 f1 a0 a1 a2 b0 b1 b2 v1 v2 v3 v4 u2 u3 u4 u5) (roomF : M + 2 ≤ N) :
    ∀ f < M + 2, ∀ c < 3, ∃ g d, g < M + 2 ∧ d < 3 ∧ g ≠ f ∧ S'.EMAP.val (f + c * N) < K + 3 ∧ S'.EMAP.val (g + d * N) = S'.EMAP.val (f + c * N) ∧
    (S'.uE2E.val (S'.EMAP.val (f + c * N)) = [f + c * N, g + d * N] ∨ S'.uE2E.val (S'.EMAP.val (f + c * N)) = [g + d * N, f + c * N]) ∧
    S'.F.val g ((d + 1) % 3) = S'.F.val f ((c + 2) % 3) ∧ S'.F.val g ((d + 2) % 3) = S'.F.val f ((c + 1) % 3) ∧ S'.F.val g d ≠ S'.F.val f c := by
  obtain ⟨⟨k1, k2, k3, k4, k5⟩, ⟨d2, d3, d4, d5⟩, ⟨x23, x24, x53, x54, x34⟩⟩ := q.labels h
  have x25 := q.u25 h
  have A := q.ha
  have B := q.hb
  have q0 := q.h0
  have q1 := q.h1
  have q01 := q.h01
  have A0 := A.l0
  have A1 := A.l1
  have A2 := A.l2
  have B0 := B.l0
  have B1 := B.l1
  have B2 := B.l2
  have l1 := q.l1
  have l2 := q.l2
  have l3 := q.l3
  have l4 := q.l4
  have hmn := h.mn
  have m1 : M < M + 2 := by omega
  have m2 : M + 1 < M + 2 := by omega
  intro f hf c hc
  rcases split_cases (f0 := f0) (f1 := f1) A B hf hc with ⟨rfl, rfl⟩ | ⟨rfl, rfl⟩ | ⟨rfl, rfl⟩ | ⟨rfl, rfl⟩ | ⟨rfl, rfl⟩ | ⟨rfl, rfl⟩ |
    ⟨rfl, rfl⟩ | ⟨rfl, rfl⟩ | ⟨rfl, rfl⟩ | ⟨rfl, rfl⟩ | ⟨rfl, rfl⟩ | ⟨rfl, rfl⟩ | ⟨g1, g2, g3⟩
  · refine ⟨f1, b0, by omega, B0, q01.symm, by rw [t.G00]; omega, by rw [t.G00, t.G10], Or.inl ?_, ?_, ?_, ?_⟩
    · rw [t.G00, t.Po uei k1 d3.symm d4.symm, q.hp]
    · rw [B.s01, A.s02, t.F11, t.F02]
    · rw [B.s02, A.s01, t.F12, t.F01]
    · rw [t.F10, t.F00]; exact q.n34
  · refine ⟨M + 1, 0, m2, by omega, by omega, by rw [t.G01]; omega, by rw [t.G01, t.GN0], Or.inl ?_, ?_, ?_, ?_⟩
    · rw [t.G01, p.PK1, Nat.zero_mul, Nat.add_zero]
    · rw [A.s12, t.F00]; exact t.FN1
    · rw [A.s11, t.F02]; exact t.FN2
    · rw [t.FN0, t.F01]; exact q.n12.symm
  · -- (f0, a2)
    obtain ⟨g, d, hg, hd, hgf, _, hlab, hpr, ht1, ht2, ht3⟩ := h.hem f q0 c A2
    rw [q.e5] at hlab hpr
    have hg1 : g ≠ f1 := by rintro rfl; exact t.avoid1 d hd u5 d5 x25.symm x53 hlab
    rw [A.s21, A.s22, q.t0, q.t1] at *
    refine ⟨g, d, by omega, hd, hgf, by rw [t.G02]; omega, by rw [t.G02, t.Go' g hgf hg1 hg d hd, hlab], ?_, ?_, ?_, ?_⟩
    · rw [t.G02, t.Po u5 k5 x53 x54]; exact hpr
    · rw [t.F01, t.Fo' g hgf hg1 hg _ (by omega)]; exact ht1
    · rw [t.F00, t.Fo' g hgf hg1 hg _ (by omega)]; exact ht2
    · rw [t.F02, t.Fo' g hgf hg1 hg _ hd]; exact t.hnv3 g d hg hd
  · refine ⟨f0, a0, by omega, A0, q01, by rw [t.G10]; omega, by rw [t.G00, t.G10], Or.inr ?_, ?_, ?_, ?_⟩
    · rw [t.G10, t.Po uei k1 d3.symm d4.symm, q.hp]
    · rw [A.s01, B.s02, t.F12, t.F01]
    · rw [A.s02, B.s01, t.F11, t.F02]
    · rw [t.F10, t.F00]; exact q.n34.symm
  · -- (f1, b1)
    obtain ⟨g, d, hg, hd, hgf, _, hlab, hpr, ht1, ht2, ht3⟩ := h.hem f q1 c B1
    rw [q.e2] at hlab hpr
    have hg0 : g ≠ f0 := by rintro rfl; exact t.avoid0 d hd u2 d2 x24 x25 hlab
    rw [B.s11, B.s12, q.r2, q.r0] at *
    refine ⟨g, d, by omega, hd, hgf, by rw [t.G11]; omega, by rw [t.G11, t.Go' g hg0 hgf hg d hd, hlab], ?_, ?_, ?_, ?_⟩
    · rw [t.G11, t.Po u2 k2 x23 x24]; exact hpr
    · rw [t.F10, t.Fo' g hg0 hgf hg _ (by omega)]; exact ht1
    · rw [t.F12, t.Fo' g hg0 hgf hg _ (by omega)]; exact ht2
    · rw [t.F11, t.Fo' g hg0 hgf hg _ hd]; exact t.hnv3 g d hg hd
  · refine ⟨M, 0, m1, by omega, by omega, by rw [t.G12]; omega, by rw [t.G12, t.GM0], Or.inl ?_, ?_, ?_, ?_⟩
    · rw [t.G12, p.PK, Nat.zero_mul]; rfl
    · rw [B.s22, t.F11]; exact t.FM1
    · rw [B.s21, t.F10]; exact t.FM2
    · rw [t.FM0, t.F12]; exact q.n12.symm
  · refine ⟨f1, b2, by omega, B2, by omega, by rw [t.GM0]; omega, by rw [t.G12, t.GM0], Or.inr ?_, ?_, ?_, ?_⟩
    · rw [t.GM0, p.PK, Nat.zero_mul]; rfl
    · rw [B.s21, t.F10]; exact t.FM2.symm
    · rw [B.s22, t.F11]; exact t.FM1.symm
    · rw [t.FM0, t.F12]; exact q.n12
  · -- (M, 1)
    obtain ⟨g, d, hg, hd, hgf, _, hlab, hpr, ht1, ht2, ht3⟩ := h.hem f1 q1 b2 B2
    rw [q.e3] at hlab hpr
    have hg0 : g ≠ f0 := by rintro rfl; exact t.avoid0 d hd u3 d3 x34 x53.symm hlab
    rw [B.s21, B.s22, q.r1, q.r0] at *
    have hne : g + d * N ≠ f1 + b2 * N := hix_ne (by omega) (by omega) hgf
    refine ⟨g, d, by omega, hd, by omega, by rw [t.GM1]; omega, by rw [t.GM1, t.Go' g hg0 hgf hg d hd, hlab], ?_, ?_, ?_, ?_⟩
    · rw [t.GM1, p.Pu3]
      rcases hpr with hpr | hpr
      · left; rw [hpr]; simp [repl, hne]
      · right; rw [hpr]; simp [repl, hne]
    · rw [t.Fo' g hg0 hgf hg _ (by omega)]; exact ht1.trans t.FM0.symm
    · rw [t.Fo' g hg0 hgf hg _ (by omega)]; exact ht2.trans t.FM2.symm
    · rw [t.FM1, t.Fo' g hg0 hgf hg _ hd]; exact t.hnv3 g d hg hd
  · refine ⟨f + 1, 1, m2, by omega, by omega, by rw [t.GM2]; omega, by rw [t.GM2, t.GN1], Or.inl ?_, ?_, ?_, ?_⟩
    · rw [t.GM2, p.PK2, Nat.one_mul]
    · exact t.FN2.trans t.FM1.symm
    · exact t.FN0.trans t.FM0.symm
    · rw [t.FN1, t.FM2]; exact q.n34.symm
  · refine ⟨f0, a1, by omega, A1, by omega, by rw [t.GN0]; omega, by rw [t.G01, t.GN0], Or.inr ?_, ?_, ?_, ?_⟩
    · rw [t.GN0, p.PK1, Nat.zero_mul, Nat.add_zero]
    · rw [A.s11, t.F02]; exact t.FN2.symm
    · rw [A.s12, t.F00]; exact t.FN1.symm
    · rw [t.FN0, t.F01]; exact q.n12
  · refine ⟨M, 2, m1, by omega, by omega, by rw [t.GN1]; omega, by rw [t.GM2, t.GN1], Or.inr ?_, ?_, ?_, ?_⟩
    · rw [t.GN1, p.PK2, Nat.one_mul]
    · exact t.FM0.trans t.FN0.symm
    · exact t.FM1.trans t.FN2.symm
    · rw [t.FN1, t.FM2]; exact q.n34
  · -- (M+1, 2)
    obtain ⟨g, d, hg, hd, hgf, _, hlab, hpr, ht1, ht2, ht3⟩ := h.hem f0 q0 a1 A1
    rw [q.e4] at hlab hpr
    have hg1 : g ≠ f1 := by rintro rfl; exact t.avoid1 d hd u4 d4 x24.symm x34.symm hlab
    rw [A.s11, A.s12, q.t0, q.t2] at *
    have hne : g + d * N ≠ f0 + a1 * N := hix_ne (by omega) (by omega) hgf
    refine ⟨g, d, by omega, hd, by omega, by rw [t.GN2]; omega, by rw [t.GN2, t.Go' g hgf hg1 hg d hd, hlab], ?_, ?_, ?_, ?_⟩
    · rw [t.GN2, p.Pu4]
      rcases hpr with hpr | hpr
      · left; rw [hpr]; simp [repl, hne]
      · right; rw [hpr]; simp [repl, hne]
    · rw [t.Fo' g hgf hg1 hg _ (by omega)]; exact ht1.trans t.FN1.symm
    · rw [t.Fo' g hgf hg1 hg _ (by omega)]; exact ht2.trans t.FN0.symm
    · rw [t.FN2, t.Fo' g hgf hg1 hg _ hd]; exact t.hnv3 g d hg hd
  · -- all other faces
    obtain ⟨g, d, hg, hd, hgf, hlt, hlab, hpr, ht1, ht2, ht3⟩ := h.hem f g1 c hc
    have hnuei : S.EMAP.val (f + c * N) ≠ uei := by
      intro he
      rcases t.lab_of f c g1 hc he with e | e
      · exact g2 e
      · exact g3 e
    have G := t.Go' f g2 g3 g1 c hc
    have Fa := t.Fo' f g2 g3 g1
    have hN : f < N := by omega
    by_cases hg0 : g = f0
    · subst hg0
      rcases A.cases d hd with rfl | rfl | rfl
      · exact absurd (hlab.symm.trans q.e0) hnuei
      · -- twin was renamed
        have hu4 : S.EMAP.val (f + c * N) = u4 := hlab.symm.trans q.e4
        rw [hu4] at hpr
        have hne : f + c * N ≠ g + d * N := hix_ne hN (by omega) hgf.symm
        refine ⟨M + 1, 2, m2, by omega, by omega, by rw [G]; omega, by rw [G, hu4, t.GN2], ?_, ?_, ?_, ?_⟩
        · rw [G, hu4, p.Pu4]
          rcases hpr with hpr | hpr
          · left; rw [hpr]; simp [repl, hne]
          · right; rw [hpr]; simp [repl, hne]
        · rw [Fa _ (by omega), ← ht1, A.s11, q.t2]; exact t.FN0
        · rw [Fa _ (by omega), ← ht2, A.s12, q.t0]; exact t.FN1
        · rw [Fa _ hc, t.FN2]; exact (t.hnv3 f c g1 hc).symm
      · have hu5 : S.EMAP.val (f + c * N) = u5 := hlab.symm.trans q.e5
        rw [hu5] at hpr
        refine ⟨g, d, by omega, hd, hgf, by rw [G]; omega, by rw [G, hu5, t.G02], ?_, ?_, ?_, ?_⟩
        · rw [G, hu5, t.Po u5 k5 x53 x54]; exact hpr
        · rw [Fa _ (by omega), ← ht1, A.s21, q.t0, t.F00]
        · rw [Fa _ (by omega), ← ht2, A.s22, q.t1, t.F01]
        · rw [Fa _ hc, t.F02]; exact (t.hnv3 f c g1 hc).symm
    · by_cases hg1 : g = f1
      · subst hg1
        rcases B.cases d hd with rfl | rfl | rfl
        · exact absurd (hlab.symm.trans q.e1) hnuei
        · have hu2 : S.EMAP.val (f + c * N) = u2 := hlab.symm.trans q.e2
          rw [hu2] at hpr
          refine ⟨g, d, by omega, hd, hgf, by rw [G]; omega, by rw [G, hu2, t.G11], ?_, ?_, ?_, ?_⟩
          · rw [G, hu2, t.Po u2 k2 x23 x24]; exact hpr
          · rw [Fa _ (by omega), ← ht1, B.s11, q.r2, t.F12]
          · rw [Fa _ (by omega), ← ht2, B.s12, q.r0, t.F10]
          · rw [Fa _ hc, t.F11]; exact (t.hnv3 f c g1 hc).symm
        · have hu3 : S.EMAP.val (f + c * N) = u3 := hlab.symm.trans q.e3
          rw [hu3] at hpr
          have hne : f + c * N ≠ g + d * N := hix_ne hN (by omega) hgf.symm
          refine ⟨M, 1, m1, by omega, by omega, by rw [G]; omega, by rw [G, hu3, t.GM1], ?_, ?_, ?_, ?_⟩
          · rw [G, hu3, p.Pu3]
            rcases hpr with hpr | hpr
            · left; rw [hpr]; simp [repl, hne]
            · right; rw [hpr]; simp [repl, hne]
          · rw [Fa _ (by omega), ← ht1, B.s21, q.r0]; exact t.FM2
          · rw [Fa _ (by omega), ← ht2, B.s22, q.r1]; exact t.FM0
          · rw [Fa _ hc, t.FM1]; exact (t.hnv3 f c g1 hc).symm
      · have Gg := t.Go' g hg0 hg1 hg d hd
        have Fg := t.Fo' g hg0 hg1 hg
        have n3 : S.EMAP.val (f + c * N) ≠ u3 := by
          intro he
          obtain ⟨x, y, hxy, _, ho⟩ := h.pair_of q1 B2 q.e3
          rw [← he] at hxy
          have : f1 + b2 * N = f + c * N ∨ f1 + b2 * N = g + d * N := by
            rcases hpr with hpr | hpr <;> rw [hpr] at hxy <;> simp only [List.cons.injEq, and_true] at hxy <;> omega
          rcases this with e | e
          · exact g3 ((hix_inj (by omega) (by omega)).mp e).1.symm
          · exact hg1 ((hix_inj (by omega) (by omega)).mp e).1.symm
        have n4 : S.EMAP.val (f + c * N) ≠ u4 := by
          intro he
          obtain ⟨x, y, hxy, _, ho⟩ := h.pair_of q0 A1 q.e4
          rw [← he] at hxy
          have : f0 + a1 * N = f + c * N ∨ f0 + a1 * N = g + d * N := by
            rcases hpr with hpr | hpr <;> rw [hpr] at hxy <;> simp only [List.cons.injEq, and_true] at hxy <;> omega
          rcases this with e | e
          · exact g2 ((hix_inj (by omega) (by omega)).mp e).1.symm
          · exact hg0 ((hix_inj (by omega) (by omega)).mp e).1.symm
        refine ⟨g, d, by omega, hd, hgf, by rw [G]; omega, by rw [G, Gg, hlab], ?_, ?_, ?_, ?_⟩
        · rw [G, t.Po _ hlt n3 n4]; exact hpr
        · rw [Fa _ (by omega), Fg _ (by omega)]; exact ht1
        · rw [Fa _ (by omega), Fg _ (by omega)]; exact ht2
        · rw [Fa _ hc, Fg _ hd]; exact ht3

set_option maxHeartbeats 1000000 in
theorem SplitTabs.hue (h : SInv N M K nv S) (q : SplitNames N M K nv S uei f0 f1 a0 a1 a2 b0 b1 b2 v1 v2 v3 v4 u2 u3 u4 u5)
    (p : SplitPost N M K nv S S' uei f0 f1 a0 a1 a2 b0 b1 b2 v1 v2 v3 v4 u2 u3 u4 u5)
    (t : SplitTabs N M K nv S S' uei f0 f1 a0 a1 a2 b0 b1 b2 v1 v2 v3 v4 u2 u3 u4 u5) (roomF : M + 2 ≤ N) :
    ∀ f < M + 2, ∀ c < 3,
    (S'.uE.val (S'.EMAP.val (f + c * N)) 0 = S'.F.val f ((c + 1) % 3) ∧ S'.uE.val (S'.EMAP.val (f + c * N)) 1 = S'.F.val f ((c + 2) % 3)) ∨
    (S'.uE.val (S'.EMAP.val (f + c * N)) 0 = S'.F.val f ((c + 2) % 3) ∧ S'.uE.val (S'.EMAP.val (f + c * N)) 1 = S'.F.val f ((c + 1) % 3)) := by
  obtain ⟨⟨k1, k2, k3, k4, k5⟩, ⟨d2, d3, d4, d5⟩, ⟨x23, x24, x53, x54, x34⟩⟩ := q.labels h
  have x25 := q.u25 h
  have A := q.ha
  have B := q.hb
  have q0 := q.h0
  have q1 := q.h1
  have q01 := q.h01
  have A0 := A.l0
  have A1 := A.l1
  have A2 := A.l2
  have B0 := B.l0
  have B1 := B.l1
  have B2 := B.l2
  have l1 := q.l1
  have l2 := q.l2
  have l3 := q.l3
  have l4 := q.l4
  have hmn := h.mn
  intro f hf c hc
  rcases split_cases (f0 := f0) (f1 := f1) A B hf hc with ⟨rfl, rfl⟩ | ⟨rfl, rfl⟩ | ⟨rfl, rfl⟩ | ⟨rfl, rfl⟩ | ⟨rfl, rfl⟩ | ⟨rfl, rfl⟩ |
    ⟨rfl, rfl⟩ | ⟨rfl, rfl⟩ | ⟨rfl, rfl⟩ | ⟨rfl, rfl⟩ | ⟨rfl, rfl⟩ | ⟨rfl, rfl⟩ | ⟨g1, g2, g3⟩
  · rw [t.G00, A.s01, A.s02, t.F01, t.F02, t.Uuei.1, t.Uuei.2]; exact Or.inr ⟨rfl, rfl⟩
  · rw [t.G01, A.s11, A.s12, t.F02, t.F00, t.UK1.1, t.UK1.2]; exact Or.inl ⟨rfl, rfl⟩
  · have := h.hue f q0 c A2
    rw [q.e5, A.s21, A.s22, q.t0, q.t1] at this
    rw [t.G02, A.s21, A.s22, t.F00, t.F01, (t.U0 u5 k5 d5).1, (t.U0 u5 k5 d5).2]; exact this
  · rw [t.G10, B.s01, B.s02, t.F11, t.F12, t.Uuei.1, t.Uuei.2]; exact Or.inl ⟨rfl, rfl⟩
  · have := h.hue f q1 c B1
    rw [q.e2, B.s11, B.s12, q.r2, q.r0] at this
    rw [t.G11, B.s11, B.s12, t.F12, t.F10, (t.U0 u2 k2 d2).1, (t.U0 u2 k2 d2).2]; exact this
  · rw [t.G12, B.s21, B.s22, t.F10, t.F11, t.UK.1, t.UK.2]; exact Or.inr ⟨rfl, rfl⟩
  · rw [t.GM0, t.UK.1, t.UK.2]; exact Or.inl ⟨t.FM1.symm, t.FM2.symm⟩
  · have := h.hue f1 q1 b2 B2
    rw [q.e3, B.s21, B.s22, q.r0, q.r1] at this
    rw [t.GM1, (t.U0 u3 k3 d3).1, (t.U0 u3 k3 d3).2]
    show _ = S'.F.val f 2 ∧ _ = S'.F.val f 0 ∨ _ = S'.F.val f 0 ∧ _ = S'.F.val f 2
    rw [t.FM2, t.FM0]; exact this
  · rw [t.GM2, t.UK2.1, t.UK2.2]; exact Or.inr ⟨t.FM1.symm, t.FM0.symm⟩
  · rw [t.GN0, t.UK1.1, t.UK1.2]; exact Or.inr ⟨t.FN2.symm, t.FN1.symm⟩
  · rw [t.GN1, t.UK2.1, t.UK2.2]; exact Or.inl ⟨t.FN2.symm, t.FN0.symm⟩
  · have := h.hue f0 q0 a1 A1
    rw [q.e4, A.s11, A.s12, q.t2, q.t0] at this
    rw [t.GN2, (t.U0 u4 k4 d4).1, (t.U0 u4 k4 d4).2]
    show _ = S'.F.val (M + 1) 0 ∧ _ = S'.F.val (M + 1) 1 ∨ _ = S'.F.val (M + 1) 1 ∧ _ = S'.F.val (M + 1) 0
    rw [t.FN0, t.FN1]; exact this
  · have hnuei : S.EMAP.val (f + c * N) ≠ uei := by
      intro he
      rcases t.lab_of f c g1 hc he with e | e
      · exact g2 e
      · exact g3 e
    have hl := h.lab_lt g1 hc
    rw [t.Go' f g2 g3 g1 c hc, (t.U0 _ hl hnuei).1, (t.U0 _ hl hnuei).2, t.Fo' f g2 g3 g1 _ (by omega), t.Fo' f g2 g3 g1 _ (by omega)]
    exact h.hue f g1 c hc

set_option maxHeartbeats 1000000 in
theorem SplitTabs.hP (h : SInv N M K nv S) (q : SplitNames N M K nv S uei f0 f1 a0 a1 a2 b0 b1 b2 v1 v2 v3 v4 u2 u3 u4 u5)
    (p : SplitPost N M K nv S S' uei f0 f1 a0 a1 a2 b0 b1 b2 v1 v2 v3 v4 u2 u3 u4 u5)
    (t : SplitTabs N M K nv S S' uei f0 f1 a0 a1 a2 b0 b1 b2 v1 v2 v3 v4 u2 u3 u4 u5) (roomF : M + 2 ≤ N) :
    ∀ u < K + 3, ∃ f c, f < M + 2 ∧ c < 3 ∧ S'.EMAP.val (f + c * N) = u := by
  obtain ⟨⟨k1, k2, k3, k4, k5⟩, ⟨d2, d3, d4, d5⟩, ⟨x23, x24, x53, x54, x34⟩⟩ := q.labels h
  have x25 := q.u25 h
  have A := q.ha
  have B := q.hb
  have q0 := q.h0
  have q1 := q.h1
  have q01 := q.h01
  have A0 := A.l0
  have A1 := A.l1
  have A2 := A.l2
  have B0 := B.l0
  have B1 := B.l1
  have B2 := B.l2
  have l1 := q.l1
  have l2 := q.l2
  have l3 := q.l3
  have l4 := q.l4
  have hmn := h.mn
  intro u hu
  by_cases e1 : u = K
  · exact ⟨M, 0, by omega, by omega, by rw [t.GM0, e1]⟩
  by_cases e2 : u = K + 1
  · exact ⟨M + 1, 0, by omega, by omega, by rw [t.GN0, e2]⟩
  by_cases e3 : u = K + 2
  · exact ⟨M, 2, by omega, by omega, by rw [t.GM2, e3]⟩
  by_cases e4 : u = uei
  · exact ⟨f0, a0, by omega, A0, by rw [t.G00, e4]⟩
  by_cases e5 : u = u2
  · exact ⟨f1, b1, by omega, B1, by rw [t.G11, e5]⟩
  by_cases e6 : u = u3
  · exact ⟨M, 1, by omega, by omega, by rw [t.GM1, e6]⟩
  by_cases e7 : u = u4
  · exact ⟨M + 1, 2, by omega, by omega, by rw [t.GN2, e7]⟩
  by_cases e8 : u = u5
  · exact ⟨f0, a2, by omega, A2, by rw [t.G02, e8]⟩
  obtain ⟨f, c, hf, hc, he⟩ := h.hP u (by omega)
  have n0 : f ≠ f0 := by rintro rfl; exact t.avoid0 c hc u e4 e7 e8 he
  have n1 : f ≠ f1 := by rintro rfl; exact t.avoid1 c hc u e4 e5 e6 he
  exact ⟨f, c, by omega, hc, by rw [t.Go' f n0 n1 hf c hc, he]⟩

set_option maxHeartbeats 1000000 in
theorem SplitTabs.huq (h : SInv N M K nv S) (q : SplitNames N M K nv S uei f0 f1 a0 a1 a2 b0 b1 b2 v1 v2 v3 v4 u2 u3 u4 u5)
    (p : SplitPost N M K nv S S' uei f0 f1 a0 a1 a2 b0 b1 b2 v1 v2 v3 v4 u2 u3 u4 u5)
    (t : SplitTabs N M K nv S S' uei f0 f1 a0 a1 a2 b0 b1 b2 v1 v2 v3 v4 u2 u3 u4 u5) (roomF : M + 2 ≤ N) :
    ∀ u < K + 3, ∀ u' < K + 3, (S'.uE.val u 0 = S'.uE.val u' 0 ∧ S'.uE.val u 1 = S'.uE.val u' 1) ∨
    (S'.uE.val u 0 = S'.uE.val u' 1 ∧ S'.uE.val u 1 = S'.uE.val u' 0) → u = u' := by
  obtain ⟨⟨k1, k2, k3, k4, k5⟩, ⟨d2, d3, d4, d5⟩, ⟨x23, x24, x53, x54, x34⟩⟩ := q.labels h
  have x25 := q.u25 h
  have A := q.ha
  have B := q.hb
  have q0 := q.h0
  have q1 := q.h1
  have q01 := q.h01
  have A0 := A.l0
  have A1 := A.l1
  have A2 := A.l2
  have B0 := B.l0
  have B1 := B.l1
  have B2 := B.l2
  have l1 := q.l1
  have l2 := q.l2
  have l3 := q.l3
  have l4 := q.l4
  have hmn := h.mn
  have cls : ∀ u < K + 3, (u < K ∧ u ≠ uei ∧ S'.uE.val u 0 = S.uE.val u 0 ∧ S'.uE.val u 1 = S.uE.val u 1 ∧ S.uE.val u 0 < nv ∧ S.uE.val u 1 < nv) ∨
      (S'.uE.val u 0 = nv ∧ ((u = uei ∧ S'.uE.val u 1 = v1) ∨ (u = K ∧ S'.uE.val u 1 = v3) ∨ (u = K + 1 ∧ S'.uE.val u 1 = v4) ∨
        (u = K + 2 ∧ S'.uE.val u 1 = v2))) := by
    intro u hu
    by_cases e1 : u = K
    · right; rw [e1]; exact ⟨t.UK.1, Or.inr (Or.inl ⟨rfl, t.UK.2⟩)⟩
    by_cases e2 : u = K + 1
    · right; rw [e2]; exact ⟨t.UK1.1, Or.inr (Or.inr (Or.inl ⟨rfl, t.UK1.2⟩))⟩
    by_cases e3 : u = K + 2
    · right; rw [e3]; exact ⟨t.UK2.1, Or.inr (Or.inr (Or.inr ⟨rfl, t.UK2.2⟩))⟩
    by_cases e4 : u = uei
    · right; rw [e4]; exact ⟨t.Uuei.1, Or.inl ⟨rfl, t.Uuei.2⟩⟩
    have hK : u < K := by omega
    left
    exact ⟨hK, e4, (t.U0 u hK e4).1, (t.U0 u hK e4).2, (t.uEold u hK).1, (t.uEold u hK).2⟩
  have n12 := q.n12
  have n13 := q.n13
  have n14 := q.n14
  have n23 := q.n23
  have n24 := q.n24
  have n34 := q.n34
  intro u hu u' hu' he
  rcases cls u hu with ⟨c1, c2, c3, c4, c5, c6⟩ | ⟨c1, c2⟩ <;> rcases cls u' hu' with ⟨b1, b2, b3, b4, b5, b6⟩ | ⟨b1, b2⟩
  · rw [c3, c4, b3, b4] at he
    exact h.huq u c1 u' b1 he
  · exfalso; omega
  · exfalso; omega
  · omega

set_option maxHeartbeats 1000000 in
theorem SplitTabs.hd (h : SInv N M K nv S) (q : SplitNames N M K nv S uei f0 f1 a0 a1 a2 b0 b1 b2 v1 v2 v3 v4 u2 u3 u4 u5)
    (p : SplitPost N M K nv S S' uei f0 f1 a0 a1 a2 b0 b1 b2 v1 v2 v3 v4 u2 u3 u4 u5)
    (t : SplitTabs N M K nv S S' uei f0 f1 a0 a1 a2 b0 b1 b2 v1 v2 v3 v4 u2 u3 u4 u5) (roomF : M + 2 ≤ N) :
    ∀ f < M + 2, ∀ c < 3, S'.F.val f c < nv + 1 ∧ S'.F.val f c ≠ S'.F.val f ((c + 1) % 3) := by
  obtain ⟨⟨k1, k2, k3, k4, k5⟩, ⟨d2, d3, d4, d5⟩, ⟨x23, x24, x53, x54, x34⟩⟩ := q.labels h
  have x25 := q.u25 h
  have A := q.ha
  have B := q.hb
  have q0 := q.h0
  have q1 := q.h1
  have q01 := q.h01
  have A0 := A.l0
  have A1 := A.l1
  have A2 := A.l2
  have B0 := B.l0
  have B1 := B.l1
  have B2 := B.l2
  have l1 := q.l1
  have l2 := q.l2
  have l3 := q.l3
  have l4 := q.l4
  have hmn := h.mn
  intro f hf c hc
  have n12 := q.n12
  have n13 := q.n13
  have n14 := q.n14
  have n23 := q.n23
  have n24 := q.n24
  have n34 := q.n34
  rcases split_cases (f0 := f0) (f1 := f1) A B hf hc with ⟨rfl, rfl⟩ | ⟨rfl, rfl⟩ | ⟨rfl, rfl⟩ | ⟨rfl, rfl⟩ | ⟨rfl, rfl⟩ | ⟨rfl, rfl⟩ |
    ⟨rfl, rfl⟩ | ⟨rfl, rfl⟩ | ⟨rfl, rfl⟩ | ⟨rfl, rfl⟩ | ⟨rfl, rfl⟩ | ⟨rfl, rfl⟩ | ⟨g1, g2, g3⟩
  · rw [A.s01, t.F00, t.F01]; omega
  · rw [A.s11, t.F01, t.F02]; omega
  · rw [A.s21, t.F02, t.F00]; omega
  · rw [B.s01, t.F10, t.F11]; omega
  · rw [B.s11, t.F11, t.F12]; omega
  · rw [B.s21, t.F12, t.F10]; omega
  · show S'.F.val f 0 < _ ∧ _ ≠ S'.F.val f 1; rw [t.FM0, t.FM1]; omega
  · show S'.F.val f 1 < _ ∧ _ ≠ S'.F.val f 2; rw [t.FM1, t.FM2]; omega
  · show S'.F.val f 2 < _ ∧ _ ≠ S'.F.val f 0; rw [t.FM2, t.FM0]; omega
  · show S'.F.val (M + 1) 0 < _ ∧ _ ≠ S'.F.val (M + 1) 1; rw [t.FN0, t.FN1]; omega
  · show S'.F.val (M + 1) 1 < _ ∧ _ ≠ S'.F.val (M + 1) 2; rw [t.FN1, t.FN2]; omega
  · show S'.F.val (M + 1) 2 < _ ∧ _ ≠ S'.F.val (M + 1) 0; rw [t.FN2, t.FN0]; omega
  · rw [t.Fo' f g2 g3 g1 c hc, t.Fo' f g2 g3 g1 _ (by omega)]
    have := h.hd f g1 c hc
    exact ⟨by omega, this.2⟩

/-- A split keeps the data structure consistent. -/
theorem SplitPost.inv (h : SInv N M K nv S) (q : SplitNames N M K nv S uei f0 f1 a0 a1 a2 b0 b1 b2 v1 v2 v3 v4 u2 u3 u4 u5)
    (p : SplitPost N M K nv S S' uei f0 f1 a0 a1 a2 b0 b1 b2 v1 v2 v3 v4 u2 u3 u4 u5)
    (roomF : M + 2 ≤ N) (roomU : K + 3 ≤ S.uE.rows) (roomP : K + 3 ≤ S.uE2E.size) (roomV : nv + 1 ≤ S.V.size)
    (roomH : nv + 1 ≤ S.high.size) (roomL : nv + 1 ≤ S.low.size) :
    SInv N (M + 2) (K + 3) (nv + 1) S' := by
  have t := p.tabs h q roomF
  obtain ⟨⟨k1, k2, k3, k4, k5⟩, _, _⟩ := q.labels h
  have hpr := h.pr
  refine ⟨roomF, by rw [p.Fr, h.fr], by rw [p.Fc, h.fc], by rw [p.Er, h.er], by rw [p.Ec, h.ec], by rw [p.Mr, h.mr], by rw [p.ur]; omega,
    by rw [p.uc, h.uc], by rw [p.pr]; omega, ?_, by rw [p.V]; exact roomV, by rw [p.high]; exact roomH, by rw [p.low]; exact roomL,
    t.hE h q p roomF, t.hem h q p roomF, t.hue h q p roomF, t.hP h q p roomF, t.huq h q p roomF, t.hd h q p roomF⟩
  intro u hu
  rw [p.pr] at hu
  by_cases e1 : u = K
  · rw [e1, p.PK]; rfl
  by_cases e2 : u = K + 1
  · rw [e2, p.PK1]; rfl
  by_cases e3 : u = K + 2
  · rw [e3, p.PK2]; rfl
  by_cases e4 : u = u3
  · rw [e4, p.Pu3, List.length_map]; exact h.pl _ (by omega)
  by_cases e5 : u = u4
  · rw [e5, p.Pu4, List.length_map]; exact h.pl _ (by omega)
  rw [p.Pold u e1 e2 e3 e4 e5]; exact h.pl u hu
end

end Gpy
