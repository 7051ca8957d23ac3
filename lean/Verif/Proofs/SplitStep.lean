import Verif.Proofs.SplitArr

/-! One split. -/

set_option autoImplicit false
namespace Gpy

/-- The data structure is consistent: there are `M` faces, `K` unique edges and `nv` vertices so far, halfedge `c` of face `f` has number
`f + c*N`. -/
structure SInv (N M K nv : ℕ) (S : SplitState) : Prop where
  mn : M ≤ N
  fr : S.F.rows = N
  fc : S.F.cols = 3
  er : S.E.rows = 3 * N
  ec : S.E.cols = 2
  mr : S.EMAP.size = 3 * N
  ur : K ≤ S.uE.rows
  uc : S.uE.cols = 2
  pr : K ≤ S.uE2E.size
  pl : ∀ u < S.uE2E.size, (S.uE2E.val u).length = 2
  vr : nv ≤ S.V.size
  hr : nv ≤ S.high.size
  lr : nv ≤ S.low.size
  hE : ∀ f < M, ∀ c < 3, S.E.val (f + c * N) 0 = S.F.val f ((c + 1) % 3) ∧ S.E.val (f + c * N) 1 = S.F.val f ((c + 2) % 3)
  hem : ∀ f < M, ∀ c < 3, ∃ g d, g < M ∧ d < 3 ∧ g ≠ f ∧ S.EMAP.val (f + c * N) < K ∧ S.EMAP.val (g + d * N) = S.EMAP.val (f + c * N) ∧
    (S.uE2E.val (S.EMAP.val (f + c * N)) = [f + c * N, g + d * N] ∨ S.uE2E.val (S.EMAP.val (f + c * N)) = [g + d * N, f + c * N]) ∧
    S.F.val g ((d + 1) % 3) = S.F.val f ((c + 2) % 3) ∧ S.F.val g ((d + 2) % 3) = S.F.val f ((c + 1) % 3) ∧ S.F.val g d ≠ S.F.val f c
  hue : ∀ f < M, ∀ c < 3,
    (S.uE.val (S.EMAP.val (f + c * N)) 0 = S.F.val f ((c + 1) % 3) ∧ S.uE.val (S.EMAP.val (f + c * N)) 1 = S.F.val f ((c + 2) % 3)) ∨
    (S.uE.val (S.EMAP.val (f + c * N)) 0 = S.F.val f ((c + 2) % 3) ∧ S.uE.val (S.EMAP.val (f + c * N)) 1 = S.F.val f ((c + 1) % 3))
  hP : ∀ u < K, ∃ f c, f < M ∧ c < 3 ∧ S.EMAP.val (f + c * N) = u
  huq : ∀ u < K, ∀ u' < K, (S.uE.val u 0 = S.uE.val u' 0 ∧ S.uE.val u 1 = S.uE.val u' 1) ∨
    (S.uE.val u 0 = S.uE.val u' 1 ∧ S.uE.val u 1 = S.uE.val u' 0) → u = u'
  hd : ∀ f < M, ∀ c < 3, S.F.val f c < nv ∧ S.F.val f c ≠ S.F.val f ((c + 1) % 3)

/-- names for everything that a split of edge `uei` touches -/
structure SplitNames (N M K nv : ℕ) (S : SplitState) (uei f0 f1 a0 a1 a2 b0 b1 b2 v1 v2 v3 v4 u2 u3 u4 u5 : ℕ) : Prop where
  ha : Cyc a0 a1 a2
  hb : Cyc b0 b1 b2
  h0 : f0 < M
  h1 : f1 < M
  h01 : f0 ≠ f1
  hp : S.uE2E.val uei = [f0 + a0 * N, f1 + b0 * N]
  e0 : S.EMAP.val (f0 + a0 * N) = uei
  e1 : S.EMAP.val (f1 + b0 * N) = uei
  e2 : S.EMAP.val (f1 + b1 * N) = u2
  e3 : S.EMAP.val (f1 + b2 * N) = u3
  e4 : S.EMAP.val (f0 + a1 * N) = u4
  e5 : S.EMAP.val (f0 + a2 * N) = u5
  t0 : S.F.val f0 a0 = v4
  t1 : S.F.val f0 a1 = v1
  t2 : S.F.val f0 a2 = v2
  r0 : S.F.val f1 b0 = v3
  r1 : S.F.val f1 b1 = v2
  r2 : S.F.val f1 b2 = v1
  l1 : v1 < nv
  l2 : v2 < nv
  l3 : v3 < nv
  l4 : v4 < nv
  n12 : v1 ≠ v2
  n13 : v1 ≠ v3
  n14 : v1 ≠ v4
  n23 : v2 ≠ v3
  n24 : v2 ≠ v4
  n34 : v3 ≠ v4

theorem splitNames_exist {N M K nv : ℕ} {S : SplitState} (h : SInv N M K nv S) {uei : ℕ} (hu : uei < K) :
    ∃ f0 f1 a0 a1 a2 b0 b1 b2 v1 v2 v3 v4 u2 u3 u4 u5, SplitNames N M K nv S uei f0 f1 a0 a1 a2 b0 b1 b2 v1 v2 v3 v4 u2 u3 u4 u5 := by
  obtain ⟨f, c, hf, hc, hfc⟩ := h.hP uei hu
  obtain ⟨g, d, hg, hd, hgf, _, hgd, hpair, ht1, ht2, ht3⟩ := h.hem f hf c hc
  rw [hfc] at hgd hpair
  have key : ∀ f c g d : ℕ, f < M → c < 3 → g < M → d < 3 → g ≠ f → S.EMAP.val (f + c * N) = uei → S.EMAP.val (g + d * N) = uei →
      S.uE2E.val uei = [f + c * N, g + d * N] → S.F.val g ((d + 1) % 3) = S.F.val f ((c + 2) % 3) →
      S.F.val g ((d + 2) % 3) = S.F.val f ((c + 1) % 3) → S.F.val g d ≠ S.F.val f c →
      ∃ f0 f1 a0 a1 a2 b0 b1 b2 v1 v2 v3 v4 u2 u3 u4 u5, SplitNames N M K nv S uei f0 f1 a0 a1 a2 b0 b1 b2 v1 v2 v3 v4 u2 u3 u4 u5 := by
    intro f c g d hf hc hg hd hgf he0 he1 hp ht1 ht2 ht3
    have A := Cyc.mk' c hc
    have B := Cyc.mk' d hd
    have x0 := h.hd f hf c hc
    have x1 := h.hd f hf _ A.l1
    have x2 := h.hd f hf _ A.l2
    have y0 := h.hd g hg d hd
    have y2 := h.hd g hg _ B.l2
    rw [A.s11] at x1
    rw [A.s21] at x2
    rw [B.s21] at y2
    refine ⟨f, g, c, (c + 1) % 3, (c + 2) % 3, d, (d + 1) % 3, (d + 2) % 3, _, _, _, _, _, _, _, _,
      ⟨A, B, hf, hg, hgf.symm, hp, he0, he1, rfl, rfl, rfl, rfl, rfl, rfl, rfl, rfl, ht1, ht2, x1.1, x2.1, y0.1, x0.1, x1.2, ?_, x0.2.symm, ?_, x2.2, ht3⟩⟩
    · rw [← ht2]; exact y2.2
    · rw [← ht1]; exact y0.2.symm
  rcases hpair with hp | hp
  · exact key f c g d hf hc hg hd hgf hfc hgd hp ht1 ht2 ht3
  · exact key g d f c hg hd hf hc hgf.symm hgd hfc hp ht2.symm ht1.symm ht3.symm


section
variable {N M K nv : ℕ} {S : SplitState} {uei f0 f1 a0 a1 a2 b0 b1 b2 v1 v2 v3 v4 u2 u3 u4 u5 : ℕ}

/-- two halfedges of the same unique edge have the same ends -/
theorem SInv.same_label (h : SInv N M K nv S) {f c f' c' : ℕ} (hf : f < M) (hc : c < 3) (hf' : f' < M) (hc' : c' < 3)
    (he : S.EMAP.val (f + c * N) = S.EMAP.val (f' + c' * N)) :
    (S.F.val f ((c + 1) % 3) = S.F.val f' ((c' + 1) % 3) ∧ S.F.val f ((c + 2) % 3) = S.F.val f' ((c' + 2) % 3)) ∨
    (S.F.val f ((c + 1) % 3) = S.F.val f' ((c' + 2) % 3) ∧ S.F.val f ((c + 2) % 3) = S.F.val f' ((c' + 1) % 3)) := by
  have x := h.hue f hf c hc
  have y := h.hue f' hf' c' hc'
  rw [he] at x
  rcases x with ⟨x1, x2⟩ | ⟨x1, x2⟩ <;> rcases y with ⟨y1, y2⟩ | ⟨y1, y2⟩
  · left; exact ⟨x1.symm.trans y1, x2.symm.trans y2⟩
  · right; exact ⟨x1.symm.trans y1, x2.symm.trans y2⟩
  · right; exact ⟨x2.symm.trans y2, x1.symm.trans y1⟩
  · left; exact ⟨x2.symm.trans y2, x1.symm.trans y1⟩

theorem SInv.lab_lt (h : SInv N M K nv S) {f c : ℕ} (hf : f < M) (hc : c < 3) : S.EMAP.val (f + c * N) < K := by
  obtain ⟨g, d, _, _, _, hl, _⟩ := h.hem f hf c hc
  exact hl

/-- the five labels are different -/
theorem SplitNames.labels (h : SInv N M K nv S) (q : SplitNames N M K nv S uei f0 f1 a0 a1 a2 b0 b1 b2 v1 v2 v3 v4 u2 u3 u4 u5) :
    (uei < K ∧ u2 < K ∧ u3 < K ∧ u4 < K ∧ u5 < K) ∧ (u2 ≠ uei ∧ u3 ≠ uei ∧ u4 ≠ uei ∧ u5 ≠ uei) ∧
    (u2 ≠ u3 ∧ u2 ≠ u4 ∧ u5 ≠ u3 ∧ u5 ≠ u4 ∧ u3 ≠ u4) := by
  have A := q.ha
  have B := q.hb
  have n12 := q.n12
  have n13 := q.n13
  have n14 := q.n14
  have n23 := q.n23
  have n24 := q.n24
  have n34 := q.n34
  refine ⟨⟨?_, ?_, ?_, ?_, ?_⟩, ⟨?_, ?_, ?_, ?_⟩, ⟨?_, ?_, ?_, ?_, ?_⟩⟩
  · rw [← q.e0]; exact h.lab_lt q.h0 A.l0
  · rw [← q.e2]; exact h.lab_lt q.h1 B.l1
  · rw [← q.e3]; exact h.lab_lt q.h1 B.l2
  · rw [← q.e4]; exact h.lab_lt q.h0 A.l1
  · rw [← q.e5]; exact h.lab_lt q.h0 A.l2
  all_goals intro he
  · have := h.same_label q.h1 B.l1 q.h0 A.l0 (by rw [q.e2, q.e0, he])
    rw [A.s01, A.s02, B.s11, B.s12, q.t1, q.t2, q.r0, q.r2] at this
    rcases this with ⟨x, y⟩ | ⟨x, y⟩
    · exact n23 y.symm
    · exact n13 y.symm
  · have := h.same_label q.h1 B.l2 q.h0 A.l0 (by rw [q.e3, q.e0, he])
    rw [A.s01, A.s02, B.s21, B.s22, q.t1, q.t2, q.r0, q.r1] at this
    rcases this with ⟨x, y⟩ | ⟨x, y⟩
    · exact n13 x.symm
    · exact n23 x.symm
  · have := h.same_label q.h0 A.l1 q.h0 A.l0 (by rw [q.e4, q.e0, he])
    rw [A.s01, A.s02, A.s11, A.s12, q.t1, q.t2, q.t0] at this
    rcases this with ⟨x, y⟩ | ⟨x, y⟩
    · exact n12 x.symm
    · exact n14 y.symm
  · have := h.same_label q.h0 A.l2 q.h0 A.l0 (by rw [q.e5, q.e0, he])
    rw [A.s01, A.s02, A.s21, A.s22, q.t1, q.t2, q.t0] at this
    rcases this with ⟨x, y⟩ | ⟨x, y⟩
    · exact n12 y
    · exact n24 x.symm
  · have := h.same_label q.h1 B.l1 q.h1 B.l2 (by rw [q.e2, q.e3, he])
    rw [B.s11, B.s12, B.s21, B.s22, q.r1, q.r2, q.r0] at this
    rcases this with ⟨x, y⟩ | ⟨x, y⟩
    · exact n13 x
    · exact n12 x
  · have := h.same_label q.h1 B.l1 q.h0 A.l1 (by rw [q.e2, q.e4, he])
    rw [B.s11, B.s12, A.s11, A.s12, q.r2, q.r0, q.t2, q.t0] at this
    rcases this with ⟨x, y⟩ | ⟨x, y⟩
    · exact n12 x
    · exact n14 x
  · have := h.same_label q.h0 A.l2 q.h1 B.l2 (by rw [q.e5, q.e3, he])
    rw [B.s21, B.s22, A.s21, A.s22, q.r1, q.r0, q.t1, q.t0] at this
    rcases this with ⟨x, y⟩ | ⟨x, y⟩
    · exact n34 x.symm
    · exact n24 x.symm
  · have := h.same_label q.h0 A.l2 q.h0 A.l1 (by rw [q.e5, q.e4, he])
    rw [A.s11, A.s12, A.s21, A.s22, q.t0, q.t1, q.t2] at this
    rcases this with ⟨x, y⟩ | ⟨x, y⟩
    · exact n24 x.symm
    · exact n12 y
  · have := h.same_label q.h1 B.l2 q.h0 A.l1 (by rw [q.e3, q.e4, he])
    rw [A.s11, A.s12, B.s21, B.s22, q.t0, q.r0, q.r1, q.t2] at this
    rcases this with ⟨x, y⟩ | ⟨x, y⟩
    · exact n23 x.symm
    · exact n34 x

/-- the pair of halfedges of an edge -/
theorem SInv.pair_of (h : SInv N M K nv S) {f c u : ℕ} (hf : f < M) (hc : c < 3) (hu : S.EMAP.val (f + c * N) = u) :
    ∃ x y, S.uE2E.val u = [x, y] ∧ x ≠ y ∧ (f + c * N = x ∨ f + c * N = y) := by
  obtain ⟨g, d, hg, hd, hgf, _, _, hp, _⟩ := h.hem f hf c hc
  have hmn := h.mn
  have hne : f + c * N ≠ g + d * N := by
    intro he
    exact hgf ((hix_inj (by omega) (by omega)).mp he).1.symm
  rw [hu] at hp
  rcases hp with hp | hp
  · exact ⟨_, _, hp, hne, Or.inl rfl⟩
  · exact ⟨_, _, hp, hne.symm, Or.inr rfl⟩

/-- replace a halfedge number -/
def repl (old new x : ℕ) : ℕ := if x = old then new else x

theorem lk_uE (hK : uei < K) (w w1 w3 w4 w2 : ℕ) (old : ℕ → ℕ → ℕ) (u : ℕ) :
    let L := [((uei, 0), w), ((uei, 1), w1), ((K, 0), w), ((K, 1), w3), ((K + 1, 0), w), ((K + 1, 1), w4), ((K + 2, 0), w), ((K + 2, 1), w2)]
    lk L (u, 0) (old u 0) = (if u = uei ∨ u = K ∨ u = K + 1 ∨ u = K + 2 then w else old u 0) ∧
    lk L (u, 1) (old u 1) = (if u = uei then w1 else if u = K then w3 else if u = K + 1 then w4 else if u = K + 2 then w2 else old u 1) := by
  have h1 : K ≠ uei := by omega
  have h2 : K + 1 ≠ uei := by omega
  have h3 : K + 2 ≠ uei := by omega
  simp only [lk, Prod.mk.injEq]
  by_cases e0 : u = uei
  · subst e0; simp [h1.symm, h2.symm, h3.symm]
  by_cases e1 : u = K
  · subst e1; simp [e0]
  by_cases e2 : u = K + 1
  · subst e2; simp [e0]
  by_cases e3 : u = K + 2
  · subst e3; simp [e0]
  simp [e0, e1, e2, e3]

/-- What one split does to the arrays. -/
structure SplitPost (N M K nv : ℕ) (S S' : SplitState) (uei f0 f1 a0 a1 a2 b0 b1 b2 v1 v2 v3 v4 u2 u3 u4 u5 : ℕ) : Prop where
  V : S'.V = ⟨S.V.size, Function.update S.V.val nv ((1 / 2 : ℝ) • (S.V.val v1 + S.V.val v2))⟩
  high : S'.high = ⟨S.high.size, Function.update S.high.val nv ((S.high.val v1 + S.high.val v2) / 2)⟩
  low : S'.low = ⟨S.low.size, Function.update S.low.val nv ((S.low.val v1 + S.low.val v2) / 2)⟩
  Fr : S'.F.rows = S.F.rows
  Fc : S'.F.cols = S.F.cols
  Er : S'.E.rows = S.E.rows
  Ec : S'.E.cols = S.E.cols
  Mr : S'.EMAP.size = S.EMAP.size
  ur : S'.uE.rows = S.uE.rows
  uc : S'.uE.cols = S.uE.cols
  pr : S'.uE2E.size = S.uE2E.size
  F : ∀ f, ∀ c < 3, S'.F.val f c = newTab f0 f1 M a0 a1 b0 b1 v4 v1 nv v3 nv v1 v2 nv v3 v2 v4 nv S.F.val f c
  E0 : ∀ f < N, ∀ c < 3, S'.E.val (f + c * N) 0 =
    newTab f0 f1 M a0 a1 b0 b1 v1 nv v4 nv v1 v3 nv v3 v2 v4 nv v2 (fun f c => S.E.val (f + c * N) 0) f c
  E1 : ∀ f < N, ∀ c < 3, S'.E.val (f + c * N) 1 =
    newTab f0 f1 M a0 a1 b0 b1 nv v4 v1 v1 v3 nv v3 v2 nv nv v2 v4 (fun f c => S.E.val (f + c * N) 1) f c
  EM : ∀ f < N, ∀ c < 3, S'.EMAP.val (f + c * N) =
    newTab f0 f1 M a0 a1 b0 b1 uei (K + 1) u5 uei u2 K K u3 (K + 2) (K + 1) (K + 2) u4 (fun f c => S.EMAP.val (f + c * N)) f c
  uE0 : ∀ u, S'.uE.val u 0 = if u = uei ∨ u = K ∨ u = K + 1 ∨ u = K + 2 then nv else S.uE.val u 0
  uE1 : ∀ u, S'.uE.val u 1 = if u = uei then v1 else if u = K then v3 else if u = K + 1 then v4 else if u = K + 2 then v2 else S.uE.val u 1
  PK : S'.uE2E.val K = [f1 + b2 * N, M]
  PK1 : S'.uE2E.val (K + 1) = [f0 + a1 * N, M + 1]
  PK2 : S'.uE2E.val (K + 2) = [M + 2 * N, M + 1 + N]
  Pu3 : S'.uE2E.val u3 = (S.uE2E.val u3).map (repl (f1 + b2 * N) (M + N))
  Pu4 : S'.uE2E.val u4 = (S.uE2E.val u4).map (repl (f0 + a1 * N) (M + 1 + 2 * N))
  Pold : ∀ u, u ≠ K → u ≠ K + 1 → u ≠ K + 2 → u ≠ u3 → u ≠ u4 → S'.uE2E.val u = S.uE2E.val u

set_option maxHeartbeats 1000000 in
theorem splitStep_eval {n m k i : ℕ} (hM : M = m + 2 * i) (hK : K = k + 3 * i) (hnv : nv = n + i)
    (h : SInv N M K nv S) (q : SplitNames N M K nv S uei f0 f1 a0 a1 a2 b0 b1 b2 v1 v2 v3 v4 u2 u3 u4 u5)
    (roomF : M + 2 ≤ N) (roomU : K + 3 ≤ S.uE.rows) (roomP : K + 3 ≤ S.uE2E.size) (roomV : nv + 1 ≤ S.V.size)
    (roomH : nv + 1 ≤ S.high.size) (roomL : nv + 1 ≤ S.low.size) :
    ∃ S', splitStep n m k N i uei S = some S' ∧ SplitPost N M K nv S S' uei f0 f1 a0 a1 a2 b0 b1 b2 v1 v2 v3 v4 u2 u3 u4 u5 := by
  obtain ⟨⟨k1, k2, k3, k4, k5⟩, ⟨d2, d3, d4, d5⟩, ⟨x23, x24, x53, x54, x34⟩⟩ := q.labels h
  have A := q.ha
  have B := q.hb
  have q0 := q.h0
  have q1 := q.h1
  have q01 := q.h01
  have l1 := q.l1
  have l2 := q.l2
  have A0 := A.l0
  have A1 := A.l1
  have A2 := A.l2
  have B0 := B.l0
  have B1 := B.l1
  have B2 := B.l2
  have hN0 : 0 < N := by omega
  have hmod0 : (f0 + a0 * N) % N = f0 := by rw [Nat.add_mul_mod_self_right, Nat.mod_eq_of_lt (by omega)]
  have hmod1 : (f1 + b0 * N) % N = f1 := by rw [Nat.add_mul_mod_self_right, Nat.mod_eq_of_lt (by omega)]
  have hdiv0 : (f0 + a0 * N) / N = a0 := by rw [Nat.add_mul_div_right _ _ hN0, Nat.div_eq_of_lt (by omega), Nat.zero_add]
  have hdiv1 : (f1 + b0 * N) / N = b0 := by rw [Nat.add_mul_div_right _ _ hN0, Nat.div_eq_of_lt (by omega), Nat.zero_add]
  have ixb : ∀ f c, f < N → c < 3 → f + c * N < 3 * N := by
    intro f c hf hc
    have : c * N ≤ 2 * N := Nat.mul_le_mul_right N (by omega)
    omega
  have rdP : S.uE2E.rd uei = some [f0 + a0 * N, f1 + b0 * N] := by rw [Arr.rd_ok _ _ (by omega), q.hp]
  have rdP0 : S.uE2E.rd2 uei 0 = some (f0 + a0 * N) := by rw [Arr.rd2_ok _ _ _ (by omega), q.hp]; rfl
  have rdP1 : S.uE2E.rd2 uei 1 = some (f1 + b0 * N) := by rw [Arr.rd2_ok _ _ _ (by omega), q.hp]; rfl
  have rdM : ∀ f c, f < M → c < 3 → S.EMAP.rd (f + c * N) = some (S.EMAP.val (f + c * N)) := by
    intro f c hf hc; rw [Arr.rd_ok _ _ (by rw [h.mr]; exact ixb f c (by omega) hc)]
  have m0 := rdM f0 a0 q0 A0
  have m1 := rdM f1 b0 q1 B0
  have m2 := rdM f1 b1 q1 B1
  have m3 := rdM f1 b2 q1 B2
  have m4 := rdM f0 a1 q0 A1
  have m5 := rdM f0 a2 q0 A2
  rw [q.e0] at m0
  rw [q.e1] at m1
  rw [q.e2] at m2
  rw [q.e3] at m3
  rw [q.e4] at m4
  rw [q.e5] at m5
  have rdF : ∀ f c, f < M → c < 3 → S.F.rd f c = some (S.F.val f c) := by
    intro f c hf hc; rw [IMat.rd_ok _ _ _ (by rw [h.fr]; omega) (by rw [h.fc]; exact hc)]
  have g0 := rdF f0 a0 q0 A0
  have g1 := rdF f0 a1 q0 A1
  have g2 := rdF f0 a2 q0 A2
  have g3 := rdF f1 b0 q1 B0
  rw [q.t0] at g0
  rw [q.t1] at g1
  rw [q.t2] at g2
  rw [q.r0] at g3
  have rdE : ∀ f c, f < M → c < 3 → S.E.rd (f + c * N) 0 = some (S.F.val f ((c + 1) % 3)) ∧ S.E.rd (f + c * N) 1 = some (S.F.val f ((c + 2) % 3)) := by
    intro f c hf hc
    rw [IMat.rd_ok _ _ _ (by rw [h.er]; exact ixb f c (by omega) hc) (by rw [h.ec]; omega),
      IMat.rd_ok _ _ _ (by rw [h.er]; exact ixb f c (by omega) hc) (by rw [h.ec]; omega), (h.hE f hf c hc).1, (h.hE f hf c hc).2]
    exact ⟨rfl, rfl⟩
  obtain ⟨E00, E01⟩ := rdE f0 a0 q0 A0
  obtain ⟨E10, E11⟩ := rdE f1 b0 q1 B0
  obtain ⟨E20, E21⟩ := rdE f1 b1 q1 B1
  obtain ⟨E30, E31⟩ := rdE f1 b2 q1 B2
  obtain ⟨E40, E41⟩ := rdE f0 a1 q0 A1
  obtain ⟨E50, E51⟩ := rdE f0 a2 q0 A2
  rw [A.s01, q.t1] at E00
  rw [A.s02, q.t2] at E01
  rw [B.s01, q.r1] at E10
  rw [B.s02, q.r2] at E11
  rw [B.s11, q.r2] at E20
  rw [B.s12, q.r0] at E21
  rw [B.s21, q.r0] at E30
  rw [B.s22, q.r1] at E31
  rw [A.s11, q.t2] at E40
  rw [A.s12, q.t0] at E41
  rw [A.s21, q.t0] at E50
  rw [A.s22, q.t1] at E51
  have V1 := Arr.rd_ok S.V v1 (by omega)
  have V2 := Arr.rd_ok S.V v2 (by omega)
  have Vw := Arr.wr_ok S.V nv ((1 / 2 : ℝ) • (S.V.val v1 + S.V.val v2)) (by omega)
  have H1 := Arr.rd_ok S.high v1 (by omega)
  have H2 := Arr.rd_ok S.high v2 (by omega)
  have Hw := Arr.wr_ok S.high nv ((S.high.val v1 + S.high.val v2) / 2) (by omega)
  have L1 := Arr.rd_ok S.low v1 (by omega)
  have L2 := Arr.rd_ok S.low v2 (by omega)
  have Lw := Arr.wr_ok S.low nv ((S.low.val v1 + S.low.val v2) / 2) (by omega)
  obtain ⟨F', Fw, rF, cF, vF⟩ := IMat.wrs_ok' [(f0, a0, v4), (f0, a1, v1), (f0, a2, nv), (f1, b0, v3), (f1, b1, nv), (f1, b2, v1),
    (M, 0, v2), (M, 1, nv), (M, 2, v3), (M + 1, 0, v2), (M + 1, 1, v4), (M + 1, 2, nv)] S.F (by
      rw [h.fr, h.fc]
      simp only [List.mem_cons, List.not_mem_nil, or_false, forall_eq_or_imp, forall_eq]
      omega)
  obtain ⟨U', Uw, rU, cU, vU⟩ := IMat.wrs_ok' [(uei, 0, nv), (uei, 1, v1), (K, 0, nv), (K, 1, v3), (K + 1, 0, nv), (K + 1, 1, v4), (K + 2, 0, nv), (K + 2, 1, v2)] S.uE (by
      rw [h.uc]
      simp only [List.mem_cons, List.not_mem_nil, or_false, forall_eq_or_imp, forall_eq]
      omega)
  have i0 := ixb f0 a0 (by omega) A0
  have i1 := ixb f0 a1 (by omega) A1
  have i2 := ixb f0 a2 (by omega) A2
  have j0 := ixb f1 b0 (by omega) B0
  have j1 := ixb f1 b1 (by omega) B1
  have j2 := ixb f1 b2 (by omega) B2
  obtain ⟨E', Ew, rE, cE, vE⟩ := IMat.wrs_ok' [(f0 + a0 * N, 0, v1), (f0 + a0 * N, 1, nv), (f0 + a1 * N, 0, nv), (f0 + a1 * N, 1, v4),
    (f0 + a2 * N, 0, v4), (f0 + a2 * N, 1, v1), (f1 + b0 * N, 0, nv), (f1 + b0 * N, 1, v1), (f1 + b1 * N, 0, v1), (f1 + b1 * N, 1, v3),
    (f1 + b2 * N, 0, v3), (f1 + b2 * N, 1, nv), (M + 0 * N, 0, nv), (M + 0 * N, 1, v3), (M + 1 * N, 0, v3), (M + 1 * N, 1, v2),
    (M + 2 * N, 0, v2), (M + 2 * N, 1, nv), (M + 1 + 0 * N, 0, v4), (M + 1 + 0 * N, 1, nv),
    (M + 1 + 1 * N, 0, nv), (M + 1 + 1 * N, 1, v2), (M + 1 + 2 * N, 0, v2), (M + 1 + 2 * N, 1, v4)] S.E (by
      rw [h.er, h.ec]
      simp only [List.mem_cons, List.not_mem_nil, or_false, forall_eq_or_imp, forall_eq]
      omega)
  obtain ⟨M', Mw, rM, vM⟩ := Arr.wrs_ok' [(f0 + a0 * N, uei), (f0 + a1 * N, K + 1), (f0 + a2 * N, u5), (f1 + b0 * N, uei), (f1 + b1 * N, u2), (f1 + b2 * N, K),
    (M + 0 * N, K), (M + 1 * N, u3), (M + 2 * N, K + 2), (M + 1 + 0 * N, K + 1), (M + 1 + 1 * N, K + 2), (M + 1 + 2 * N, u4)] S.EMAP (by
      rw [h.mr]
      simp only [List.mem_cons, List.not_mem_nil, or_false, forall_eq_or_imp, forall_eq]
      omega)
  -- the pairs
  set A1v : ℕ → List ℕ := Function.update (Function.update (Function.update S.uE2E.val K [f1 + b2 * N, M + 0 * N]) (K + 1)
    [f0 + a1 * N, M + 1 + 0 * N]) (K + 2) [M + 2 * N, M + 1 + 1 * N] with hA1v
  have Pw : S.uE2E.wrs2 [(uei, 0, f0 + a0 * N), (uei, 1, f1 + b0 * N), (K, 0, f1 + b2 * N), (K, 1, M + 0 * N),
      (K + 1, 0, f0 + a1 * N), (K + 1, 1, M + 1 + 0 * N), (K + 2, 0, M + 2 * N), (K + 2, 1, M + 1 + 1 * N)] = some ⟨S.uE2E.size, A1v⟩ := by
    have e1 := Arr.wrs2_pair S.uE2E uei (f0 + a0 * N) (f1 + b0 * N) [(K, 0, f1 + b2 * N), (K, 1, M + 0 * N),
      (K + 1, 0, f0 + a1 * N), (K + 1, 1, M + 1 + 0 * N), (K + 2, 0, M + 2 * N), (K + 2, 1, M + 1 + 1 * N)] (by omega) (h.pl _ (by omega))
    rw [e1, ← q.hp, Function.update_eq_self]
    have e2 := Arr.wrs2_pair S.uE2E K (f1 + b2 * N) (M + 0 * N) [(K + 1, 0, f0 + a1 * N), (K + 1, 1, M + 1 + 0 * N), (K + 2, 0, M + 2 * N), (K + 2, 1, M + 1 + 1 * N)] (by omega) (h.pl _ (by omega))
    refine Eq.trans e2 ?_
    have e3 := Arr.wrs2_pair ⟨S.uE2E.size, Function.update S.uE2E.val K [f1 + b2 * N, M + 0 * N]⟩ (K + 1) (f0 + a1 * N) (M + 1 + 0 * N)
      [(K + 2, 0, M + 2 * N), (K + 2, 1, M + 1 + 1 * N)] (by show K + 1 < S.uE2E.size; omega) (by
        simp only [Function.update_apply]
        rw [if_neg (by omega)]; exact h.pl _ (by omega))
    rw [e3]
    have e4 := Arr.wrs2_pair ⟨S.uE2E.size, Function.update (Function.update S.uE2E.val K [f1 + b2 * N, M + 0 * N]) (K + 1) [f0 + a1 * N, M + 1 + 0 * N]⟩
      (K + 2) (M + 2 * N) (M + 1 + 1 * N) [] (by show K + 2 < S.uE2E.size; omega) (by
        simp only [Function.update_apply]
        rw [if_neg (by omega), if_neg (by omega)]; exact h.pl _ (by omega))
    rw [e4]; rfl
  have hA1old : ∀ u < K, A1v u = S.uE2E.val u := by
    intro u hu
    simp only [hA1v, Function.update_apply]
    rw [if_neg (by omega), if_neg (by omega), if_neg (by omega)]
  have hlist : ∀ (old new x y : ℕ), [if x = old then new else x, if y = old then new else y] = [x, y].map (repl old new) := by
    intro old new x y; rfl
  have hid : ∀ (old : ℕ) (l : List ℕ), l.map (repl old old) = l := by
    intro old l
    have : repl old old = id := by funext x; unfold repl; split_ifs with hx <;> simp [hx]
    rw [this, List.map_id]
  obtain ⟨x2, y2, p2, ne2, or2⟩ := h.pair_of q1 B1 q.e2
  obtain ⟨x3, y3, p3, ne3, or3⟩ := h.pair_of q1 B2 q.e3
  obtain ⟨x4, y4, p4, ne4, or4⟩ := h.pair_of q0 A1 q.e4
  obtain ⟨x5, y5, p5, ne5, or5⟩ := h.pair_of q0 A2 q.e5
  have T2 := fixTwin_ok ⟨S.uE2E.size, A1v⟩ u2 (f1 + b1 * N) (f1 + b1 * N) x2 y2 (by show u2 < S.uE2E.size; omega) (by rw [← p2]; exact hA1old u2 k2) ne2 or2
  rw [hlist, hid, ← p2, ← hA1old u2 k2, Function.update_eq_self] at T2
  set A2v : ℕ → List ℕ := Function.update A1v u3 ((S.uE2E.val u3).map (repl (f1 + b2 * N) (M + 1 * N))) with hA2v
  have T3 : fixTwin ⟨S.uE2E.size, A1v⟩ u3 (f1 + b2 * N) (M + 1 * N) = some ⟨S.uE2E.size, A2v⟩ := by
    have := fixTwin_ok ⟨S.uE2E.size, A1v⟩ u3 (f1 + b2 * N) (M + 1 * N) x3 y3 (by show u3 < S.uE2E.size; omega) (by rw [← p3]; exact hA1old u3 k3) ne3 or3
    rw [hlist, ← p3] at this
    exact this
  set A3v : ℕ → List ℕ := Function.update A2v u4 ((S.uE2E.val u4).map (repl (f0 + a1 * N) (M + 1 + 2 * N))) with hA3v
  have T4 : fixTwin ⟨S.uE2E.size, A2v⟩ u4 (f0 + a1 * N) (M + 1 + 2 * N) = some ⟨S.uE2E.size, A3v⟩ := by
    have := fixTwin_ok ⟨S.uE2E.size, A2v⟩ u4 (f0 + a1 * N) (M + 1 + 2 * N) x4 y4 (by show u4 < S.uE2E.size; omega) (by
      rw [← p4, ← hA1old u4 k4]; simp only [hA2v, Function.update_apply]; rw [if_neg x34.symm]) ne4 or4
    rw [hlist, ← p4] at this
    exact this
  have hA3u5 : A3v u5 = S.uE2E.val u5 := by
    simp only [hA3v, hA2v, Function.update_apply]
    rw [if_neg x54, if_neg x53, hA1old u5 k5]
  have T5 : fixTwin ⟨S.uE2E.size, A3v⟩ u5 (f0 + a2 * N) (f0 + a2 * N) = some ⟨S.uE2E.size, A3v⟩ := by
    have := fixTwin_ok ⟨S.uE2E.size, A3v⟩ u5 (f0 + a2 * N) (f0 + a2 * N) x5 y5 (by show u5 < S.uE2E.size; omega) (by
      rw [← p5]; exact hA3u5) ne5 or5
    rw [hlist, hid, ← p5, ← hA3u5, Function.update_eq_self] at this
    exact this
  have am : a0 % 3 = a0 := Nat.mod_eq_of_lt A0
  have bm : b0 % 3 = b0 := Nat.mod_eq_of_lt B0
  refine ⟨⟨⟨S.V.size, Function.update S.V.val nv ((1 / 2 : ℝ) • (S.V.val v1 + S.V.val v2))⟩, F', E', U', M', ⟨S.uE2E.size, A3v⟩,
    ⟨S.high.size, Function.update S.high.val nv ((S.high.val v1 + S.high.val v2) / 2)⟩,
    ⟨S.low.size, Function.update S.low.val nv ((S.low.val v1 + S.low.val v2) / 2)⟩⟩, ?_, ?_⟩
  · have hw : splitWrite n m k N i uei S (f0 + a0 * N) (f1 + b0 * N) f0 f1 a0 b0 v1 v2 v3 v4 u2 u3 u4 u5 (f1 + b1 * N) (f1 + b2 * N) (f0 + a1 * N)
        (f0 + a2 * N) = some ⟨⟨S.V.size, Function.update S.V.val nv ((1 / 2 : ℝ) • (S.V.val v1 + S.V.val v2))⟩, F', E', U', M', ⟨S.uE2E.size, A3v⟩,
          ⟨S.high.size, Function.update S.high.val nv ((S.high.val v1 + S.high.val v2) / 2)⟩,
          ⟨S.low.size, Function.update S.low.val nv ((S.low.val v1 + S.low.val v2) / 2)⟩⟩ := by
      unfold splitWrite
      simp only [← hM, ← hK, ← hnv, V1, V2, H1, H2, L1, L2, Option.bind_eq_bind, Option.bind_some]
      simp only [Vw, Hw, Lw, Option.bind_some, A.s01, A.s02, B.s01, B.s02, am, bm]
      rw [Fw]; simp only [Option.bind_some]
      rw [Uw]; simp only [Option.bind_some]
      rw [Pw]; simp only [Option.bind_some, T2, T3, T4, T5]
      rw [Ew]; simp only [Option.bind_some]
      rw [Mw]; rfl
    unfold splitStep
    refine Option.bind_eq_some_iff.mpr ⟨_, rdP, ?_⟩
    rw [if_neg (by simp)]
    refine Option.bind_eq_some_iff.mpr ⟨_, rdP0, ?_⟩
    refine Option.bind_eq_some_iff.mpr ⟨_, rdP1, ?_⟩
    rw [hmod0, hmod1, hdiv0, hdiv1, A.s01, A.s02, B.s01, B.s02]
    unfold splitRead
    rw [A.s01, A.s02]
    refine Option.bind_eq_some_iff.mpr ⟨_, m2, ?_⟩
    refine Option.bind_eq_some_iff.mpr ⟨_, m3, ?_⟩
    refine Option.bind_eq_some_iff.mpr ⟨_, m4, ?_⟩
    refine Option.bind_eq_some_iff.mpr ⟨_, m5, ?_⟩
    refine Option.bind_eq_some_iff.mpr ⟨_, m0, ?_⟩
    refine Option.bind_eq_some_iff.mpr ⟨_, m1, ?_⟩
    rw [if_neg (by simp)]
    refine Option.bind_eq_some_iff.mpr ⟨_, g1, ?_⟩
    refine Option.bind_eq_some_iff.mpr ⟨_, g2, ?_⟩
    refine Option.bind_eq_some_iff.mpr ⟨_, g0, ?_⟩
    refine Option.bind_eq_some_iff.mpr ⟨_, g3, ?_⟩
    refine Option.bind_eq_some_iff.mpr ⟨_, E20, ?_⟩
    refine Option.bind_eq_some_iff.mpr ⟨_, E21, ?_⟩
    refine Option.bind_eq_some_iff.mpr ⟨_, E30, ?_⟩
    refine Option.bind_eq_some_iff.mpr ⟨_, E31, ?_⟩
    refine Option.bind_eq_some_iff.mpr ⟨_, E40, ?_⟩
    refine Option.bind_eq_some_iff.mpr ⟨_, E41, ?_⟩
    refine Option.bind_eq_some_iff.mpr ⟨_, E50, ?_⟩
    refine Option.bind_eq_some_iff.mpr ⟨_, E51, ?_⟩
    refine Option.bind_eq_some_iff.mpr ⟨_, E00, ?_⟩
    refine Option.bind_eq_some_iff.mpr ⟨_, E01, ?_⟩
    refine Option.bind_eq_some_iff.mpr ⟨_, E10, ?_⟩
    refine Option.bind_eq_some_iff.mpr ⟨_, E11, ?_⟩
    rw [if_neg (by simp), if_neg (by simp [A0, B0, q01])]
    exact hw
  · have flat12 : ∀ {α : Type} (x0 x1 x2 y0 y1 y2 z0 z1 z2 w0 w1 w2 : α) (old : ℕ → α) (f c : ℕ), f < N → c < 3 →
        lk [(f0 + a0 * N, x0), (f0 + a1 * N, x1), (f0 + a2 * N, x2), (f1 + b0 * N, y0), (f1 + b1 * N, y1), (f1 + b2 * N, y2),
          (M + 0 * N, z0), (M + 1 * N, z1), (M + 2 * N, z2), (M + 1 + 0 * N, w0), (M + 1 + 1 * N, w1), (M + 1 + 2 * N, w2)] (f + c * N) (old (f + c * N)) =
        newTab f0 f1 M a0 a1 b0 b1 x0 x1 x2 y0 y1 y2 z0 z1 z2 w0 w1 w2 (fun f c => old (f + c * N)) f c := by
      intro α x0 x1 x2 y0 y1 y2 z0 z1 z2 w0 w1 w2 old f c hf hc
      have := lk_flat (N := N) [((f0, a0), x0), ((f0, a1), x1), ((f0, a2), x2), ((f1, b0), y0), ((f1, b1), y1), ((f1, b2), y2),
        ((M, 0), z0), ((M, 1), z1), ((M, 2), z2), ((M + 1, 0), w0), ((M + 1, 1), w1), ((M + 1, 2), w2)] (by
          simp only [List.mem_cons, List.not_mem_nil, or_false, forall_eq_or_imp, forall_eq]
          omega) f c hf (old (f + c * N))
      refine Eq.trans this ?_
      exact lk_pairs A B q01 q0 q1 x0 x1 x2 y0 y1 y2 z0 z1 z2 w0 w1 w2 (fun f c => old (f + c * N)) f c hc
    refine ⟨rfl, rfl, rfl, rF, cF, rE, cE, rM, rU, cU, rfl, ?_, ?_, ?_, ?_, ?_, ?_, ?_, ?_, ?_, ?_, ?_, ?_⟩
    · intro f c hc
      show F'.val f c = _
      rw [vF]
      exact lk_pairs A B q01 q0 q1 _ _ _ _ _ _ _ _ _ _ _ _ S.F.val f c hc
    · intro f hf c hc
      show E'.val (f + c * N) 0 = _
      rw [vE, lk_col]
      exact flat12 _ _ _ _ _ _ _ _ _ _ _ _ (fun e => S.E.val e 0) f c hf hc
    · intro f hf c hc
      show E'.val (f + c * N) 1 = _
      rw [vE, lk_col]
      exact flat12 _ _ _ _ _ _ _ _ _ _ _ _ (fun e => S.E.val e 1) f c hf hc
    · intro f hf c hc
      show M'.val (f + c * N) = _
      rw [vM]
      exact flat12 _ _ _ _ _ _ _ _ _ _ _ _ S.EMAP.val f c hf hc
    · intro u
      show U'.val u 0 = _
      rw [vU]
      exact (lk_uE k1 nv v1 v3 v4 v2 S.uE.val u).1
    · intro u
      show U'.val u 1 = _
      rw [vU]
      exact (lk_uE k1 nv v1 v3 v4 v2 S.uE.val u).2
    · show A3v K = _
      simp only [hA3v, hA2v, hA1v, Function.update_apply]
      rw [if_neg (by omega), if_neg (by omega), if_neg (by omega), if_neg (by omega), if_true, Nat.zero_mul, Nat.add_zero]
    · show A3v (K + 1) = _
      simp only [hA3v, hA2v, hA1v, Function.update_apply]
      rw [if_neg (by omega), if_neg (by omega), if_neg (by omega), if_true, Nat.zero_mul, Nat.add_zero]
    · show A3v (K + 2) = _
      simp only [hA3v, hA2v, hA1v, Function.update_apply]
      rw [if_neg (by omega), if_neg (by omega), if_true, Nat.one_mul]
    · show A3v u3 = _
      simp only [hA3v, hA2v, Function.update_apply]
      rw [if_neg x34, if_true, Nat.one_mul]
    · show A3v u4 = _
      simp only [hA3v, Function.update_apply]
      rw [if_true]
    · intro u h1 h2 h3 h4 h5
      show A3v u = _
      simp only [hA3v, hA2v, hA1v, Function.update_apply]
      rw [if_neg h5, if_neg h4, if_neg h3, if_neg h2, if_neg h1]
end

end Gpy
