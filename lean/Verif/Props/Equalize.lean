import Verif.Proofs.EqualizeLoop
import Verif.Proofs.UniqueEdgeMap
import Mathlib.Tactic.FinCases
import Mathlib.Tactic.IntervalCases

/-! # C76: the flipping pass of the remesher -/

set_option autoImplicit false
namespace Gpy

/-- **C76** (flips).  On a consistently oriented edge-manifold mesh (with or without boundary) the flipping pass succeeds (no array is accessed out of range and no
assertion fails).  The result is obtained from the mesh by a sequence of good flips: the vertices keep their places, and every single flip
replaces the diagonal of a quadrilateral, is not a flip of a feature edge, does not touch a fixed vertex, creates no edge that is already there, brings the valences
closer to six and turns no normal by more than 60 degrees.  The returned edge data structure is correct. -/
theorem C76_flips (flip : SplitState → ℕ → Option SplitState) (hflip : FlipSpec flip) (S : SplitState) (feature : List ℕ) (fe : List Edge)
    (hS : IsEdgeMap S) (hM : OrientedManifold (triList S.F)) (hr : InRange (triList S.F) S.V.size) (hf : ∀ v ∈ feature, v < S.V.size) :
    ∃ S', equalizeValences flip S feature fe = some S' ∧ IsEdgeMap S' ∧ S'.V = S.V ∧ S'.uE.rows = S.uE.rows ∧
      Relation.ReflTransGen (fun F F' => ∃ v1 v2 v3 v4, GoodFlip S.V.val feature fe v1 v2 v3 v4 F F') (triList S.F) (triList S'.F) := by
  obtain ⟨st, h1, h2, _⟩ := equalizeValences_inv hflip feature fe hS hM hr hf
  exact ⟨st.S, h1, h2.map, h2.V, h2.ur, h2.steps⟩

/-- **C76** (when it does something).  The pass leaves the mesh alone exactly if no good flip is possible; otherwise it makes at least one. -/
theorem C76_complete (flip : SplitState → ℕ → Option SplitState) (hflip : FlipSpec flip) (S : SplitState) (feature : List ℕ) (fe : List Edge)
    (hS : IsEdgeMap S) (hM : OrientedManifold (triList S.F)) (hr : InRange (triList S.F) S.V.size) (hf : ∀ v ∈ feature, v < S.V.size) :
    ∃ S', equalizeValences flip S feature fe = some S' ∧
      (S' = S ↔ ¬ ∃ F' v1 v2 v3 v4, GoodFlip S.V.val feature fe v1 v2 v3 v4 (triList S.F) F') ∧
      ((∃ F' v1 v2 v3 v4, GoodFlip S.V.val feature fe v1 v2 v3 v4 (triList S.F) F') → totalDeviation S.V.size (triList S'.F) < totalDeviation S.V.size (triList S.F)) := by
  obtain ⟨st, h1, h2, d⟩ := equalizeValences_inv hflip feature fe hS hM hr hf
  have dev : ∀ {F F' : List Tri}, Relation.TransGen (SomeGoodFlip S.V.val feature fe) F F' → InRange F S.V.size →
      totalDeviation S.V.size F' < totalDeviation S.V.size F := by
    intro F F' h hF
    have : InRange F' S.V.size ∧ totalDeviation S.V.size F' < totalDeviation S.V.size F := by
      have one : ∀ {F F' : List Tri}, SomeGoodFlip S.V.val feature fe F F' → InRange F S.V.size → InRange F' S.V.size ∧ totalDeviation S.V.size F' < totalDeviation S.V.size F := by
        rintro F F' ⟨v1, v2, v3, v4, g⟩ hF
        obtain ⟨b1, b2, b3, b4⟩ := g.flip.lt hF
        refine ⟨g.flip.range hF, g.better _ ?_⟩
        simp only [List.mem_cons, List.not_mem_nil, or_false]
        rintro v (rfl | rfl | rfl | rfl) <;> assumption
      induction h with
      | single h => exact one h hF
      | tail _ h ih =>
        obtain ⟨i1, i2⟩ := ih
        obtain ⟨j1, j2⟩ := one h i1
        exact ⟨j1, j2.trans i2⟩
    exact this.2
  refine ⟨st.S, h1, ?_, ?_⟩
  · rcases d with ⟨d1, d2⟩ | d
    · refine ⟨fun _ => ?_, fun _ => d1⟩
      rintro ⟨F', v1, v2, v3, v4, g⟩
      exact d2 F' ⟨v1, v2, v3, v4, g⟩
    · constructor
      · intro he
        have := dev d hr
        rw [he] at this
        exact absurd this (lt_irrefl _)
      · intro hno
        exfalso
        obtain ⟨F', ⟨v1, v2, v3, v4, g⟩, _⟩ := Relation.TransGen.head'_iff.mp d
        exact hno ⟨F', v1, v2, v3, v4, g⟩
  · rintro ⟨F', v1, v2, v3, v4, g⟩
    rcases d with ⟨d1, d2⟩ | d
    · exact absurd ⟨v1, v2, v3, v4, g⟩ (d2 F')
    · exact dev d hr

/-- what survives a good flip -/
structure FlipKeeps (n : ℕ) (feature : List ℕ) (fe : List Edge) (F F' : List Tri) : Prop where
  manifold : OrientedManifold F'
  range : InRange F' n
  length : F'.length = F.length
  bdry : ∀ e, IsBdrySide F' e ↔ IsBdrySide F e
  used : ∀ v, 0 < cornerCount F' v ↔ 0 < cornerCount F v
  twin : NoTwin F → NoTwin F'
  featureEdge : ∀ e ∈ fe, (∃ e' ∈ sides F, Undir e e') → ∃ e' ∈ sides F', Undir e e'
  fixed : ∀ (i : ℕ) (t : Tri), F[i]? = some t → (t.a ∈ feature ∨ t.b ∈ feature ∨ t.c ∈ feature) → F'[i]? = some t
  count : ∀ v ∈ feature, cornerCount F' v = cornerCount F v
  deviation : totalDeviation n F' ≤ totalDeviation n F

theorem noTwin_perm {F F' : List Tri} (h : F.Perm F') (hn : NoTwin F) : NoTwin F' :=
  h.pairwise hn (fun hab hba => hab (fun v => (hba v).symm))

theorem cornerCount_pos {F : List Tri} {v : ℕ} : 0 < cornerCount F v ↔ ∃ t ∈ F, v = t.a ∨ v = t.b ∨ v = t.c := by
  unfold cornerCount
  rw [List.count_pos_iff]
  simp only [List.mem_flatMap, List.mem_cons, List.not_mem_nil, or_false]

theorem isBdrySide_pair {F : List Tri} {C : List Edge} {p q : ℕ} (h : (sides F).Perm (⟨p, q⟩ :: ⟨q, p⟩ :: C)) (hC : ∀ e ∈ C, e ≠ ⟨p, q⟩ ∧ e ≠ ⟨q, p⟩) (e : Edge) :
    IsBdrySide F e ↔ e ∈ C ∧ e.flip ∉ C := by
  unfold IsBdrySide
  rw [h.mem_iff, h.mem_iff]
  simp only [List.mem_cons, not_or]
  obtain ⟨x, y⟩ := e
  constructor
  · rintro ⟨h1 | h1 | h1, h2, h3, h4⟩
    · cases h1; exact absurd rfl h3
    · cases h1; exact absurd rfl h2
    · exact ⟨h1, h4⟩
  · rintro ⟨h1, h2⟩
    refine ⟨Or.inr (Or.inr h1), ?_, ?_, h2⟩
    · intro h; cases h; exact (hC _ h1).2 rfl
    · intro h; cases h; exact (hC _ h1).1 rfl

theorem IsFlip.used {v1 v2 v3 v4 : ℕ} {F F' : List Tri} (h : IsFlip v1 v2 v3 v4 F F') (v : ℕ) : 0 < cornerCount F' v ↔ 0 < cornerCount F v := by
  rw [cornerCount_pos, cornerCount_pos]
  obtain ⟨t, t', rest, ht, ht', p1, p2⟩ := h.perm
  simp only [p1.mem_iff, p2.mem_iff, List.mem_cons, exists_eq_or_imp, ht.mem v, ht'.mem v]
  clear p1 p2 ht ht' h
  generalize (∃ a ∈ rest, v = a.a ∨ v = a.b ∨ v = a.c) = R
  tauto

theorem flipKeeps_one {n : ℕ} {V : ℕ → V3 ℝ} {feature : List ℕ} {fe : List Edge} {v1 v2 v3 v4 : ℕ} {F F' : List Tri} (hM : OrientedManifold F) (hr : InRange F n)
    (g : GoodFlip V feature fe v1 v2 v3 v4 F F') : FlipKeeps n feature fe F F' := by
  obtain ⟨d1, d2, d3, d4, d5⟩ := g.flip.distinct hM
  obtain ⟨b1, b2, b3, b4⟩ := g.flip.lt hr
  obtain ⟨h34, hnew⟩ := g.newEdge
  obtain ⟨n1, n2, n3, n4⟩ := g.notFixed
  have hM' := g.flip.oriented hM h34 hnew
  obtain ⟨C, s1, s2, m1, m2, m3, m4⟩ := g.flip.sides
  have q34 : ∀ e ∈ sides F, e ≠ ⟨v3, v4⟩ ∧ e ≠ ⟨v4, v3⟩ := by
    intro e he
    constructor
    · rintro rfl; exact hnew ⟨_, he, Or.inl rfl⟩
    · rintro rfl; exact hnew ⟨_, he, Or.inr rfl⟩
  have hC : ∀ e ∈ C, e ∈ sides F := fun e he => s1.mem_iff.mpr (by simp [he])
  have nC : ∀ e ∈ C, e ≠ ⟨v1, v2⟩ ∧ e ≠ ⟨v2, v1⟩ := by
    have := s1.nodup_iff.mp hM.1
    simp only [List.nodup_cons, List.mem_cons, not_or] at this
    intro e he
    constructor
    · rintro rfl; exact this.1.2 he
    · rintro rfl; exact this.2.1 he
  refine ⟨hM', g.flip.range hr, g.flip.length, ?_, ?_, ?_, ?_, ?_, ?_, ?_⟩
  · intro e
    rw [isBdrySide_pair s2 (fun e he => q34 e (hC e he)) e, isBdrySide_pair s1 nC e]
  · exact g.flip.used
  · intro hn
    obtain ⟨t, t', rest, ht, ht', p1, p2⟩ := g.flip.perm
    have hn1 := noTwin_perm p1 hn
    unfold NoTwin at hn1
    rw [List.pairwise_cons, List.pairwise_cons] at hn1
    have noedge : ∀ u ∈ rest, ¬ ((v3 = u.a ∨ v3 = u.b ∨ v3 = u.c) ∧ (v4 = u.a ∨ v4 = u.b ∨ v4 = u.c)) := by
      rintro u hu ⟨k3, k4⟩
      have huF : u ∈ F := p1.mem_iff.mpr (by simp [hu])
      have hside : ∀ e ∈ [u.side 0, u.side 1, u.side 2], e ∈ sides F := fun e he => mem_sides_iff.mpr ⟨u, huF, he⟩
      simp only [Tri.side, List.mem_cons, List.not_mem_nil, or_false, forall_eq_or_imp, forall_eq] at hside
      obtain ⟨z1, z2, z3⟩ := hside
      have w1 := q34 _ z1
      have w2 := q34 _ z2
      have w3 := q34 _ z3
      simp only [ne_eq, Edge.mk.injEq, not_and] at w1 w2 w3
      rcases k3 with k3 | k3 | k3 <;> rcases k4 with k4 | k4 | k4 <;> grind
    refine noTwin_perm p2.symm ?_
    unfold NoTwin
    rw [List.pairwise_cons, List.pairwise_cons]
    refine ⟨?_, ?_, hn1.2.2⟩
    · intro u hu hs
      rcases List.mem_cons.mp hu with rfl | hu
      · have := (hs v1).mp (Or.inl rfl)
        simp only at this
        rcases this with h | h | h
        · exact d1 h
        · exact d3 h.symm
        · exact d4 h
      · exact noedge u hu ⟨(hs v3).mp (by simp), (hs v4).mp (by simp)⟩
    · intro u hu hs
      exact noedge u hu ⟨(hs v3).mp (by simp), (hs v4).mp (by simp)⟩
  · rintro e he ⟨e', he', hu⟩
    refine ⟨e', ?_, hu⟩
    have h1 := s1.mem_iff.mp he'
    simp only [List.mem_cons] at h1
    rw [s2.mem_iff]
    simp only [List.mem_cons]
    have hno := g.noFeatureEdge
    obtain ⟨x, y⟩ := e
    rcases h1 with rfl | rfl | h1
    · exact absurd ⟨_, he, hu.symm'⟩ hno
    · refine absurd ⟨_, he, ?_⟩ hno
      have := hu.symm'
      rw [undir_iff] at this ⊢
      tauto
    · exact Or.inr (Or.inr h1)
  · intro k t hk hfx
    obtain ⟨i, j, t1, t2, hij, hi, hj, ht1, ht2, rfl⟩ := g.flip
    have fx : ∃ v ∈ feature, v = t.a ∨ v = t.b ∨ v = t.c := by
      rcases hfx with h | h | h
      · exact ⟨_, h, Or.inl rfl⟩
      · exact ⟨_, h, Or.inr (Or.inl rfl)⟩
      · exact ⟨_, h, Or.inr (Or.inr rfl)⟩
    obtain ⟨v, hv, hvt⟩ := fx
    have ki : i ≠ k := by
      rintro rfl
      rw [hi] at hk
      cases hk
      rcases (ht1.mem v).mp hvt with rfl | rfl | rfl <;> contradiction
    have kj : j ≠ k := by
      rintro rfl
      rw [hj] at hk
      cases hk
      rcases (ht2.mem v).mp hvt with rfl | rfl | rfl <;> contradiction
    rw [List.getElem?_set_ne kj, List.getElem?_set_ne ki]
    exact hk
  · intro v hv
    have hc := g.flip.count v
    have e1 : v1 ≠ v := by rintro rfl; exact n1 hv
    have e2 : v2 ≠ v := by rintro rfl; exact n2 hv
    have e3 : v3 ≠ v := by rintro rfl; exact n3 hv
    have e4 : v4 ≠ v := by rintro rfl; exact n4 hv
    simpa [e1, e2, e3, e4] using hc
  · refine le_of_lt (g.better _ ?_)
    simp only [List.mem_cons, List.not_mem_nil, or_false]
    rintro v (rfl | rfl | rfl | rfl) <;> assumption

/-- **C76** (the mesh afterwards).  After the flipping pass the mesh is still a consistently oriented edge-manifold mesh with the same vertices, the same number of triangles and
the same boundary; no two triangles coincide if none did before; every feature edge that was an edge of the mesh still is one; every triangle with a fixed corner is
still in its place and the triangles around a fixed vertex are the same ones; and the total deviation of the valences from six has not increased. -/
theorem C76_mesh (flip : SplitState → ℕ → Option SplitState) (hflip : FlipSpec flip) (S : SplitState) (feature : List ℕ) (fe : List Edge)
    (hS : IsEdgeMap S) (hM : OrientedManifold (triList S.F)) (hr : InRange (triList S.F) S.V.size) (hf : ∀ v ∈ feature, v < S.V.size) :
    ∃ S', equalizeValences flip S feature fe = some S' ∧ S'.V = S.V ∧
      OrientedManifold (triList S'.F) ∧ InRange (triList S'.F) S.V.size ∧ (triList S'.F).length = (triList S.F).length ∧
      (∀ e, IsBdrySide (triList S'.F) e ↔ IsBdrySide (triList S.F) e) ∧
      (∀ v, 0 < cornerCount (triList S'.F) v ↔ 0 < cornerCount (triList S.F) v) ∧
      (NoTwin (triList S.F) → NoTwin (triList S'.F)) ∧
      (∀ e ∈ fe, (∃ e' ∈ sides (triList S.F), Undir e e') → ∃ e' ∈ sides (triList S'.F), Undir e e') ∧
      (∀ (i : ℕ) (t : Tri), (triList S.F)[i]? = some t → (t.a ∈ feature ∨ t.b ∈ feature ∨ t.c ∈ feature) → (triList S'.F)[i]? = some t) ∧
      (∀ v ∈ feature, cornerCount (triList S'.F) v = cornerCount (triList S.F) v) ∧
      totalDeviation S.V.size (triList S'.F) ≤ totalDeviation S.V.size (triList S.F) := by
  obtain ⟨S', h1, _, h3, _, h4⟩ := C76_flips flip hflip S feature fe hS hM hr hf
  have key : ∀ F', Relation.ReflTransGen (fun F F' => ∃ v1 v2 v3 v4, GoodFlip S.V.val feature fe v1 v2 v3 v4 F F') (triList S.F) F' →
      FlipKeeps S.V.size feature fe (triList S.F) F' := by
    intro F' h
    induction h with
    | refl => exact ⟨hM, hr, rfl, fun _ => Iff.rfl, fun _ => Iff.rfl, id, fun _ _ h => h, fun _ _ h _ => h, fun _ _ => rfl, le_refl _⟩
    | tail _ h ih =>
      obtain ⟨v1, v2, v3, v4, g⟩ := h
      have k := flipKeeps_one ih.manifold ih.range g
      exact ⟨k.manifold, k.range, k.length.trans ih.length, fun e => (k.bdry e).trans (ih.bdry e), fun v => (k.used v).trans (ih.used v), fun h => k.twin (ih.twin h),
        fun e he h => k.featureEdge e he (ih.featureEdge e he h), fun i t h hx => k.fixed i t (ih.fixed i t h hx) hx, fun v hv => (k.count v hv).trans (ih.count v hv),
        k.deviation.trans ih.deviation⟩
  have k := key _ h4
  exact ⟨S', h1, h3, k.manifold, k.range, k.length, k.bdry, k.used, k.twin, k.featureEdge, k.fixed, k.count, k.deviation⟩

/-! Non-vacuity: a flat fan of seven triangles around the vertex 0 -/

/-- the triangles of the fan -/
def fan7 : List Tri := [⟨0, 1, 2⟩, ⟨0, 2, 3⟩, ⟨0, 3, 4⟩, ⟨0, 4, 5⟩, ⟨0, 5, 6⟩, ⟨0, 6, 7⟩, ⟨0, 7, 1⟩]

/-- its vertices -/
noncomputable def fan7V (i : ℕ) : V3 ℝ :=
  if i = 1 then ⟨4, 0, 0⟩ else if i = 2 then ⟨2, 2, 0⟩ else if i = 3 then ⟨0, 2, 0⟩ else if i = 4 then ⟨-2, 1, 0⟩ else if i = 5 then ⟨-2, -1, 0⟩ else
    if i = 6 then ⟨0, -2, 0⟩ else if i = 7 then ⟨2, -2, 0⟩ else ⟨0, 0, 0⟩

theorem fan7_good : GoodFlip fan7V [4] [⟨0, 3⟩] 0 1 7 2 fan7 ((fan7.set 0 ⟨0, 7, 2⟩).set 6 ⟨1, 2, 7⟩) := by
  refine ⟨⟨0, 6, _, _, by decide, rfl, rfl, Or.inl rfl, ?_, rfl⟩, by decide, by decide, by decide, ?_, ?_⟩
  · right; left; rfl
  · intro n hn
    have h7 : 7 < n := hn 7 (by simp)
    obtain ⟨k, rfl⟩ : ∃ k, n = k + 8 := ⟨n - 8, by omega⟩
    have hb : ∀ k, ∀ F : List Tri, InRange F 8 → totalDeviation (k + 8) F = totalDeviation 8 F + 6 * k := by
      intro k F hF
      induction k with
      | zero => simp
      | succ k ih =>
        unfold totalDeviation at ih ⊢
        rw [show k + 1 + 8 = (k + 8) + 1 by omega, Finset.sum_range_succ, ih]
        have : cornerCount F (k + 8) = 0 := by
          rcases Nat.eq_zero_or_pos (cornerCount F (k + 8)) with h | h
          · exact h
          · obtain ⟨t, ht, h⟩ := cornerCount_pos.mp h
            have := hF t ht
            omega
        rw [this]
        push_cast
        norm_num
        ring
    rw [hb k _ (by decide), hb k _ (by decide)]
    have : totalDeviation 8 ((fan7.set 0 ⟨0, 7, 2⟩).set 6 ⟨1, 2, 7⟩) < totalDeviation 8 fan7 := by
      unfold totalDeviation
      decide +kernel
    linarith
  · have sq : ∀ x : ℝ, 0 ≤ x → Real.sqrt (x * x) = x := fun x hx => Real.sqrt_mul_self hx
    have w : ∀ x y : ℝ, 0 < x → 0 < y → Within60 ⟨0, 0, x⟩ ⟨0, 0, y⟩ := by
      intro x y hx hy
      refine ⟨?_, ?_, ?_⟩
      · simp only [V3.normSq, V3.dot]; nlinarith
      · simp only [V3.normSq, V3.dot]; nlinarith
      · simp only [V3.normSq, V3.dot, mul_zero, zero_add]
        rw [sq x hx.le, sq y hy.le]
        nlinarith [mul_pos hx hy]
    intro old ho new hn
    simp only [List.mem_cons, List.not_mem_nil, or_false] at ho hn
    rcases ho with rfl | rfl <;> rcases hn with rfl | rfl <;>
    · simp [fan7V, triNrm, V3.cross]
      norm_num
      apply w <;> norm_num

/-- the hypotheses of C76 are met by this mesh (with the fixed vertex 4 and the feature edge 0 3) and an implementation of the flip, and the pass does flip edges -/
example : ∃ S', equalizeValences rebuildFlip (uniqueEdgeMap ⟨8, fan7V⟩ ⟨8, fun _ => 1⟩ ⟨8, fun _ => 0⟩ fan7) [4] [⟨0, 3⟩] = some S' ∧
    totalDeviation 8 (triList S'.F) < totalDeviation 8 fan7 := by
  have hF := uniqueEdgeMap_F ⟨8, fan7V⟩ ⟨8, fun _ => 1⟩ ⟨8, fun _ => 0⟩ fan7
  obtain ⟨S', h1, _, h3⟩ := C76_complete rebuildFlip rebuildFlip_spec (uniqueEdgeMap ⟨8, fan7V⟩ ⟨8, fun _ => 1⟩ ⟨8, fun _ => 0⟩ fan7) [4] [⟨0, 3⟩]
    (uniqueEdgeMap_isEdgeMap _ _ _ _) (by rw [hF]; decide) (by rw [hF]; show InRange fan7 8; decide) (by show ∀ v ∈ [4], v < 8; decide)
  rw [hF] at h3
  exact ⟨S', h1, h3 ⟨_, _, _, _, _, fan7_good⟩⟩

end Gpy
