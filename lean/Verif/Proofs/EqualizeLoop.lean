import Verif.Proofs.Equalize

/-! The loop of the pass that flips edges. -/

set_option autoImplicit false
namespace Gpy

/-- some flip that the remesher may make -/
def SomeGoodFlip (V : ℕ → V3 ℝ) (feature : List ℕ) (fe : List Edge) (F F' : List Tri) : Prop := ∃ v1 v2 v3 v4, GoodFlip V feature fe v1 v2 v3 v4 F F'

/-- the invariant -/
structure EqInv (S0 : SplitState) (feature : List ℕ) (fe : List Edge) (st : EqState) : Prop where
  map : IsEdgeMap st.S
  V : st.S.V = S0.V
  om : OrientedManifold (triList st.S.F)
  rg : InRange (triList st.S.F) S0.V.size
  vs : st.val.size = S0.V.size
  vv : ∀ v, st.val.val v = (cornerCount (triList st.S.F) v : ℤ)
  adj : ∀ e ∈ sides (triList st.S.F), e.t ∈ st.A.val e.s ∧ e.s ∈ st.A.val e.t ∧ e.s < st.A.size ∧ e.t < st.A.size
  ur : st.S.uE.rows = S0.uE.rows
  steps : Relation.ReflTransGen (SomeGoodFlip S0.V.val feature fe) (triList S0.F) (triList st.S.F)

/-- the table of neighbours contains only neighbours -/
def ExactAdj (st : EqState) : Prop := ∀ x y, y ∈ st.A.val x → ∃ e ∈ sides (triList st.S.F), Undir ⟨x, y⟩ e

theorem rd_eq {α : Type} {a : Arr α} {i : ℕ} (h : i < a.size) : a.rd i = some (a.val i) := by unfold Arr.rd; rw [if_pos h]

theorem irdE {a : IMat} {i j : ℕ} (h : i < a.rows) (h' : j < a.cols) : a.rd i j = some (a.val i j) := by unfold IMat.rd; rw [if_pos ⟨h, h'⟩]

theorem flipCommit_inv {flip : SplitState → ℕ → Option SplitState} (hflip : FlipSpec flip) {S0 : SplitState} {feature : List ℕ} {fe : List Edge} {st : EqState}
    (h : EqInv S0 feature fe st) {i : ℕ} (hi : i < S0.uE.rows) {e0 e1 v1 v2 v3 v4 : ℕ} (t : TwoSides st.S i e0 e1 v1 v2 v3 v4)
    (hfeat : ¬ ∃ e ∈ fe, Undir ⟨v1, v2⟩ e) (hfix : v1 ∉ feature ∧ v2 ∉ feature ∧ v3 ∉ feature ∧ v4 ∉ feature)
    (hdev : |st.val.val v1 - 6| + |st.val.val v2 - 6| + |st.val.val v4 - 6| + |st.val.val v3 - 6| >
      |st.val.val v1 - 1 - 6| + |st.val.val v2 - 6 - 1| + |st.val.val v4 - 6 + 1| + |st.val.val v3 - 6 + 1|)
    (hgeom : ¬ flipBadGeom (st.S.V.val v1) (st.S.V.val v2) (st.S.V.val v3) (st.S.V.val v4)) (hadj : v4 ∉ st.A.val v3) :
    ∃ st', flipCommit flip st i v1 v2 v3 v4 (st.A.val v3) = some st' ∧ EqInv S0 feature fe st' ∧
      SomeGoodFlip S0.V.val feature fe (triList st.S.F) (triList st'.S.F) := by
  have hi' : i < st.S.uE.rows := by rw [h.ur]; exact hi
  have hFl := t.isFlip
  obtain ⟨b1, b2, b3, b4⟩ := hFl.lt h.rg
  obtain ⟨d1, d2, d3, d4, d5⟩ := hFl.distinct h.om
  have a3 : v3 < st.A.size := by
    obtain ⟨C, s1, _, m1, _⟩ := hFl.sides
    exact (h.adj ⟨v1, v3⟩ (s1.mem_iff.mpr (by simp [m1]))).2.2.2
  have a4 : v4 < st.A.size := by
    obtain ⟨C, s1, _, _, _, m1, _⟩ := hFl.sides
    exact (h.adj ⟨v2, v4⟩ (s1.mem_iff.mpr (by simp [m1]))).2.2.2
  unfold flipCommit
  have h34 : v3 ≠ v4 := by
    rintro rfl
    apply hgeom
    unfold flipBadGeom
    simp only
    right; right; right; right; left
    exact heronSq_same _ _
  have hnew : ¬ ∃ e ∈ sides (triList st.S.F), Undir ⟨v3, v4⟩ e := by
    rintro ⟨⟨x, y⟩, he, hu⟩
    rw [undir_iff] at hu
    have := h.adj _ he
    rcases hu with ⟨rfl, rfl⟩ | ⟨rfl, rfl⟩
    · exact hadj this.1
    · exact hadj this.2.1
  obtain ⟨S', q1, q2, q3, q4, q5, q6, q7⟩ := hflip st.S i e0 e1 v1 v2 v3 v4 h.map h.om hi' t.pair t.r1 t.r2 t.r4 t.r3 h34 hnew
  rw [← q7] at hFl
  rw [q1]
  simp only [Option.bind_eq_bind, Option.bind_some]
  rw [irdE (by rw [q4]; exact hi') (by rw [q2.ucols]; omega), irdE (by rw [q4]; exact hi') (by rw [q2.ucols]; omega)]
  simp only [Option.bind_some]
  have q5' : S'.uE.val i 0 = v3 ∧ S'.uE.val i 1 = v4 := by simpa [edgeRow] using q5
  rw [if_neg (by simp only [not_not]; exact q5')]
  simp only [Arr.rd, Arr.wr, h.vs, b1, b2, b3, b4, a3, a4, if_true, Option.bind_some]
  have hgood : GoodFlip S0.V.val feature fe v1 v2 v3 v4 (triList st.S.F) (triList S'.F) := by
    refine ⟨hFl, ?_, ?_, ⟨h34, hnew⟩, ?_, ?_⟩
    · exact hfeat
    · exact hfix
    · intro n hn
      have := hFl.deviation h.om h34 hn
      simp only [h.vv] at hdev
      linarith
    · obtain ⟨w1, w2, w3, w4⟩ := flip_normals hgeom
      rw [h.V] at w1 w2 w3 w4
      intro old ho new hn
      simp only [List.mem_cons, List.not_mem_nil, or_false] at ho hn
      rcases ho with rfl | rfl <;> rcases hn with rfl | rfl <;> assumption
  refine ⟨_, rfl, ?_, ⟨_, _, _, _, hgood⟩⟩
  have hom : OrientedManifold (triList S'.F) := hFl.oriented h.om h34 hnew
  refine ⟨q2, q3.trans h.V, hom, hFl.range h.rg, rfl, ?_, ?_, q4.trans h.ur, ?_⟩
  · intro v
    have hc := hFl.count v
    have hv := h.vv
    simp only [Function.update_apply, hv]
    clear hgood hgeom hadj hdev hfeat q5 q5' q6 q7 q1 q2 q3 q4 t hFl hom hnew h hflip hfix
    generalize cornerCount (triList S'.F) v = x at *
    by_cases y4 : v = v4
    · subst y4
      simp only [if_true, if_neg h34, if_neg d2, if_neg d2.symm, if_neg d3, if_neg d3.symm, if_neg (Ne.symm h34)] at hc ⊢
      omega
    by_cases y3 : v = v3
    · subst y3
      simp only [if_true, if_neg h34, if_neg d4, if_neg d4.symm, if_neg d5, if_neg d5.symm, if_neg (Ne.symm h34)] at hc ⊢
      omega
    by_cases y2 : v = v2
    · subst y2
      simp only [if_true, if_neg y3, if_neg y4, if_neg d1, if_neg d1.symm, if_neg (Ne.symm y3), if_neg (Ne.symm y4)] at hc ⊢
      omega
    by_cases y1 : v = v1
    · subst y1
      simp only [if_true, if_neg y2, if_neg y3, if_neg y4, if_neg (Ne.symm y2), if_neg (Ne.symm y3), if_neg (Ne.symm y4)] at hc ⊢
      omega
    simp only [if_neg y1, if_neg y2, if_neg y3, if_neg y4, if_neg (Ne.symm y1), if_neg (Ne.symm y2), if_neg (Ne.symm y3), if_neg (Ne.symm y4)] at hc ⊢
    omega
  · have mono : ∀ w x, x ∈ st.A.val w → x ∈ Function.update (Function.update st.A.val v3 (st.A.val v3 ++ [v4])) v4
        (Function.update st.A.val v3 (st.A.val v3 ++ [v4]) v4 ++ [v3]) w := by
      intro w x hx
      by_cases y4 : w = v4
      · subst y4
        rw [Function.update_self, Function.update_of_ne (Ne.symm h34)]
        simp [hx]
      · rw [Function.update_of_ne y4]
        by_cases y3 : w = v3
        · subst y3; rw [Function.update_self]; simp [hx]
        · rw [Function.update_of_ne y3]; exact hx
    have n34 : v4 ∈ Function.update (Function.update st.A.val v3 (st.A.val v3 ++ [v4])) v4
        (Function.update st.A.val v3 (st.A.val v3 ++ [v4]) v4 ++ [v3]) v3 := by
      rw [Function.update_of_ne h34, Function.update_self]; simp
    have n43 : v3 ∈ Function.update (Function.update st.A.val v3 (st.A.val v3 ++ [v4])) v4
        (Function.update st.A.val v3 (st.A.val v3 ++ [v4]) v4 ++ [v3]) v4 := by
      rw [Function.update_self]; simp
    intro e he
    obtain ⟨C, s1, s2, _⟩ := hFl.sides
    have := s2.mem_iff.mp he
    simp only [List.mem_cons] at this
    rcases this with rfl | rfl | hC
    · exact ⟨n34, n43, a3, a4⟩
    · exact ⟨n43, n34, a4, a3⟩
    · obtain ⟨z1, z2, z3, z4⟩ := h.adj e (s1.mem_iff.mpr (by simp [hC]))
      exact ⟨mono _ _ z1, mono _ _ z2, z3, z4⟩
  · exact h.steps.tail ⟨v1, v2, v3, v4, hgood⟩

theorem GoodFlip.notBad {V : ℕ → V3 ℝ} {feature : List ℕ} {fe : List Edge} {v1 v2 v3 v4 : ℕ} {F F' : List Tri} (g : GoodFlip V feature fe v1 v2 v3 v4 F F') :
    ¬ flipBadGeom (V v1) (V v2) (V v3) (V v4) := by
  have n1 := g.normals (v1, v2, v4) (List.mem_cons_self) (v1, v3, v4) (List.mem_cons_self)
  have n2 := g.normals (v1, v2, v4) (List.mem_cons_self) (v2, v4, v3) (List.mem_cons_of_mem _ List.mem_cons_self)
  have n3 := g.normals (v2, v1, v3) (List.mem_cons_of_mem _ List.mem_cons_self) (v1, v3, v4) (List.mem_cons_self)
  have n4 := g.normals (v2, v1, v3) (List.mem_cons_of_mem _ List.mem_cons_self) (v2, v4, v3) (List.mem_cons_of_mem _ List.mem_cons_self)
  exact not_bad_of n1 n2 n3 n4

theorem eqStep_inv {flip : SplitState → ℕ → Option SplitState} (hflip : FlipSpec flip) {S0 : SplitState} {feature : List ℕ} {fe : List Edge} {st : EqState}
    (h : EqInv S0 feature fe st) {isFeat : Arr Bool} (hfs : isFeat.size = S0.V.size) (hfv : ∀ v, isFeat.val v = true ↔ v ∈ feature) {i : ℕ} (hi : i < S0.uE.rows) :
    ∃ st', eqStep flip isFeat fe st i = some st' ∧ EqInv S0 feature fe st' ∧
      (st' = st ∧ (ExactAdj st → ∀ F' w1 w2 w3 w4, Undir ⟨w1, w2⟩ (edgeRow st.S.uE i) → ¬ GoodFlip S0.V.val feature fe w1 w2 w3 w4 (triList st.S.F) F') ∨
        SomeGoodFlip S0.V.val feature fe (triList st.S.F) (triList st'.S.F)) := by
  have hi' : i < st.S.uE.rows := by rw [h.ur]; exact hi
  have hisz : i < st.S.uE2E.size := by rw [h.map.psize]; exact hi'
  unfold eqStep
  rw [rd_eq hisz]
  simp only [Option.bind_eq_bind, Option.bind_some]
  by_cases hl : (st.S.uE2E.val i).length = 2
  swap
  · rw [if_pos hl]
    refine ⟨st, rfl, h, Or.inl ⟨rfl, ?_⟩⟩
    intro _ F' w1 w2 w3 w4 hw hg
    obtain ⟨C, s1, _⟩ := hg.flip.sides
    exact hl (two_of_sides h.map h.om hi' (s1.mem_iff.mpr (by simp)) (s1.mem_iff.mpr (by simp)) (hg.flip.distinct h.om).1 hw)
  rw [if_neg (by simpa using hl)]
  obtain ⟨e0, e1, v1, v2, v3, v4, t⟩ := twoSides h.map h.om hi' hl
  have hFl := t.isFlip
  obtain ⟨b1, b2, b3, b4⟩ := hFl.lt h.rg
  obtain ⟨d1, d2, d3, d4, d5⟩ := hFl.distinct h.om
  rw [t.verts h.map]
  simp only [Option.bind_some]
  rw [rd_eq (by rw [hfs]; exact b1), rd_eq (by rw [hfs]; exact b2), rd_eq (by rw [hfs]; exact b4), rd_eq (by rw [hfs]; exact b3)]
  simp only [Option.bind_some]
  split_ifs with hfeat
  · refine ⟨st, rfl, h, Or.inl ⟨rfl, ?_⟩⟩
    intro _ F' w1 w2 w3 w4 hw hg
    have g := t.good h.map h.om hi' hg hw
    simp only [hfv] at hfeat
    have g2 := g.noFeatureEdge
    obtain ⟨k1, k2, k3, k4⟩ := g.notFixed
    rcases hfeat with z | z | z | z | z
    · exact g2 z
    · exact k1 z
    · exact k2 z
    · exact k4 z
    · exact k3 z
  rw [rd_eq (by rw [h.vs]; exact b1), rd_eq (by rw [h.vs]; exact b2), rd_eq (by rw [h.vs]; exact b4), rd_eq (by rw [h.vs]; exact b3)]
  simp only [Option.bind_some]
  split_ifs with hdev
  swap
  · refine ⟨st, rfl, h, Or.inl ⟨rfl, ?_⟩⟩
    intro _ F' w1 w2 w3 w4 hw hg
    have g := t.good h.map h.om hi' hg hw
    have g5 := g.better S0.V.size (by simp only [List.mem_cons, List.not_mem_nil, or_false]; rintro v (rfl | rfl | rfl | rfl) <;> assumption)
    have := g.flip.deviation h.om g.newEdge.1 (n := S0.V.size) (by simp only [List.mem_cons, List.not_mem_nil, or_false]; rintro v (rfl | rfl | rfl | rfl) <;> assumption)
    simp only [h.vv] at hdev
    linarith
  -- the lambda
  unfold flipEdgeAdjacency
  have c3 := h.map.fcols
  have e3 : ∀ x, x % 3 < 3 := fun x => Nat.mod_lt _ (by omega)
  have a3 : v3 < st.A.size := by
    obtain ⟨C, s1, _, m1, _⟩ := hFl.sides
    exact (h.adj ⟨v1, v3⟩ (s1.mem_iff.mpr (by simp [m1]))).2.2.2
  have a4 : v4 < st.A.size := by
    obtain ⟨C, s1, _, _, _, m1, _⟩ := hFl.sides
    exact (h.adj ⟨v2, v4⟩ (s1.mem_iff.mpr (by simp [m1]))).2.2.2
  have r20 : st.S.uE2E.rd2 i 0 = some e0 := by unfold Arr.rd2; rw [rd_eq hisz, t.pair]; rfl
  have r21 : st.S.uE2E.rd2 i 1 = some e1 := by unfold Arr.rd2; rw [rd_eq hisz, t.pair]; rfl
  rw [rd_eq hisz, r20, r21, t.verts h.map]
  simp only [Option.bind_eq_bind, Option.bind_some]
  rw [if_neg (by simp only [not_not]; exact ⟨t.c0, t.c1, t.ne⟩)]
  rw [irdE t.f1 (by rw [c3]; exact e3 _), irdE t.f1 (by rw [c3]; exact e3 _)]
  simp only [Option.bind_some]
  rw [if_neg (by simp only [not_not]; exact ⟨t.w1, t.w2⟩)]
  rw [rd_eq (by rw [h.V]; exact b1), rd_eq (by rw [h.V]; exact b2), rd_eq (by rw [h.V]; exact b3), rd_eq (by rw [h.V]; exact b4), rd_eq a3]
  simp only [Option.bind_some]
  by_cases hbad : flipBadGeom (st.S.V.val v1) (st.S.V.val v2) (st.S.V.val v3) (st.S.V.val v4) ∨ v4 ∈ st.A.val v3 ∨ (st.S.uE2E.val i).length ≠ 2
  · rw [if_pos hbad]
    refine ⟨st, rfl, h, Or.inl ⟨rfl, ?_⟩⟩
    intro hex F' w1 w2 w3 w4 hw hg
    have g := t.good h.map h.om hi' hg hw
    rcases hbad with hb | hb | hb
    · rw [h.V] at hb
      exact g.notBad hb
    · exact g.newEdge.2 (hex _ _ hb)
    · exact hb hl
  rw [if_neg hbad]
  simp only [not_or] at hbad
  simp only [not_or, hfv] at hfeat
  obtain ⟨st', x1, x2, x3⟩ := flipCommit_inv hflip h hi t hfeat.1 ⟨hfeat.2.1, hfeat.2.2.1, hfeat.2.2.2.2, hfeat.2.2.2.1⟩ hdev hbad.1 hbad.2.1
  exact ⟨st', x1, x2, Or.inr x3⟩

theorem adjList_exact {S : SplitState} (h : IsEdgeMap S) {x y : ℕ} (hy : y ∈ (adjList S.E).val x) : ∃ e ∈ sides (triList S.F), Undir ⟨x, y⟩ e := by
  have row : ∀ i < S.E.rows, (⟨S.E.val i 0, S.E.val i 1⟩ : Edge) ∈ sides (triList S.F) := by
    intro i hi
    rw [h.erows] at hi
    have hm0 : 0 < S.F.rows := by omega
    have hg : i % S.F.rows < S.F.rows := Nat.mod_lt _ hm0
    have hd : i / S.F.rows < 3 := by rw [Nat.div_lt_iff_lt_mul hm0]; exact hi
    have hs := h.side _ hg ⟨_, hd⟩
    rw [side_fin] at hs
    simp only [edgeRow, Nat.mul_comm (i / S.F.rows), Nat.mod_add_div] at hs
    rw [hs]
    exact (mem_sides_triList S.F _).mpr ⟨_, hg, _, hd, rfl⟩
  simp only [adjList, List.mem_dedup, List.mem_append, List.mem_map, List.mem_filter, List.mem_range, decide_eq_true_eq] at hy
  rcases hy with ⟨i, ⟨hi, rfl⟩, rfl⟩ | ⟨i, ⟨hi, rfl⟩, rfl⟩
  · exact ⟨_, row i hi, Or.inl rfl⟩
  · exact ⟨_, row i hi, Or.inr rfl⟩

theorem equalizeValences_inv {flip : SplitState → ℕ → Option SplitState} (hflip : FlipSpec flip) {S : SplitState} (feature : List ℕ) (fe : List Edge)
    (hS : IsEdgeMap S) (hM : OrientedManifold (triList S.F)) (hr : InRange (triList S.F) S.V.size) (hf : ∀ v ∈ feature, v < S.V.size) :
    ∃ st, equalizeValences flip S feature fe = some st.S ∧ EqInv S feature fe st ∧
      (st.S = S ∧ (∀ F', ¬ SomeGoodFlip S.V.val feature fe (triList S.F) F') ∨
        Relation.TransGen (SomeGoodFlip S.V.val feature fe) (triList S.F) (triList st.S.F)) := by
  obtain ⟨val, v1, v2, v3⟩ := valencesInit_ok S.V.size S.F hS.fcols hr
  obtain ⟨fl, f1, f2, f3⟩ := featureFlags_ok S.V.size feature hf
  have h0 : EqInv S feature fe ⟨S, val, adjList S.E⟩ := ⟨hS, rfl, hM, hr, v2, v3, adjList_ok hS, rfl, Relation.ReflTransGen.refl⟩
  have hex : ExactAdj ⟨S, val, adjList S.E⟩ := fun x y hy => adjList_exact hS hy
  have gen : ∀ (l : List ℕ) (st : EqState), (∀ i ∈ l, i < S.uE.rows) → EqInv S feature fe st →
      ∃ st', l.foldlM (eqStep flip fl fe) st = some st' ∧ EqInv S feature fe st' ∧
        (st' = st ∧ (ExactAdj st → ∀ i ∈ l, ∀ F' w1 w2 w3 w4, Undir ⟨w1, w2⟩ (edgeRow st.S.uE i) → ¬ GoodFlip S.V.val feature fe w1 w2 w3 w4 (triList st.S.F) F') ∨
          Relation.TransGen (SomeGoodFlip S.V.val feature fe) (triList st.S.F) (triList st'.S.F)) := by
    intro l
    induction l with
    | nil => intro st _ h; exact ⟨st, rfl, h, Or.inl ⟨rfl, fun _ i hi => by simp at hi⟩⟩
    | cons i l ih =>
      intro st hl h
      obtain ⟨st1, e1, h1, d1⟩ := eqStep_inv hflip h f2 f3 (hl i (by simp))
      obtain ⟨st2, e2, h2, d2⟩ := ih st1 (fun j hj => hl j (by simp [hj])) h1
      refine ⟨st2, ?_, h2, ?_⟩
      · rw [List.foldlM_cons, e1]
        exact e2
      · rcases d1 with ⟨rfl, d1⟩ | d1
        · rcases d2 with ⟨rfl, d2⟩ | d2
          · left
            refine ⟨rfl, fun hx j hj => ?_⟩
            rcases List.mem_cons.mp hj with rfl | hj
            · exact d1 hx
            · exact d2 hx j hj
          · exact Or.inr d2
        · right
          rcases d2 with ⟨rfl, _⟩ | d2
          · exact Relation.TransGen.single d1
          · exact Relation.TransGen.head d1 d2
  obtain ⟨st, e, h, d⟩ := gen (List.range S.uE.rows) _ (fun i hi => List.mem_range.mp hi) h0
  refine ⟨st, ?_, h, ?_⟩
  · unfold equalizeValences
    rw [v1, f1]
    simp only [Option.bind_eq_bind, Option.bind_some]
    rw [e]
    rfl
  · rcases d with ⟨rfl, d⟩ | d
    · left
      refine ⟨rfl, ?_⟩
      rintro F' ⟨w1, w2, w3, w4, hg⟩
      obtain ⟨C, s1, _⟩ := hg.flip.sides
      have hside : (⟨w1, w2⟩ : Edge) ∈ sides (triList S.F) := s1.mem_iff.mpr (by simp)
      obtain ⟨f, hf, c, hc, he⟩ := (mem_sides_triList S.F _).mp hside
      have hix : f + c * S.F.rows < 3 * S.F.rows := by
        have : c * S.F.rows ≤ 2 * S.F.rows := Nat.mul_le_mul_right _ (by omega)
        omega
      obtain ⟨l1, l2⟩ := hS.lab _ hix
      have hs := hS.side f hf ⟨c, hc⟩
      rw [side_fin] at hs
      have hs' : edgeRow S.E (f + c * S.F.rows) = ⟨w1, w2⟩ := hs.trans he.symm
      rw [hs'] at l2
      exact d hex _ (List.mem_range.mpr l1) F' w1 w2 w3 w4 l2 hg
    · exact Or.inr d

end Gpy
