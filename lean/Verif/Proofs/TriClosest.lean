import Verif.Proofs.TriFace
import Mathlib.Analysis.Convex.StdSimplex
import Mathlib.Topology.Order.Compact

/-! Two triangles: a closest pair and the feature that carries it. -/

set_option autoImplicit false
namespace Gpy

variable {S T : Pt 3 × Pt 3 × Pt 3}

theorem fin3_a (m : Fin 3) : m = m + 1 + 2 := by revert m; decide
theorem fin3_b (m : Fin 3) : m + 1 + 1 = m + 2 := by revert m; decide

/-- `(X, Y)` is a closest pair of points of the two triangles -/
structure Closest (S T : Pt 3 × Pt 3 × Pt 3) (X Y : Pt 3) : Prop where
  inS : InTri S X
  inT : InTri T Y
  isMin : ∀ x y, InTri S x → InTri T y → psq (Y - X) ≤ psq (y - x)

theorem Closest.symm {X Y : Pt 3} (h : Closest S T X Y) : Closest T S Y X :=
  ⟨h.inT, h.inS, fun x y hx hy => by rw [psq_neg_sub, psq_neg_sub y]; exact h.isMin y x hy hx⟩

theorem inTri_comp : ∃ f : (Fin 3 → ℝ) → Pt 3, Continuous f ∧ ∀ x, InTri S x ↔ ∃ w ∈ stdSimplex ℝ (Fin 3), x = f w := by
  refine ⟨fun w i => w 0 * corner S 0 i + w 1 * corner S 1 i + w 2 * corner S 2 i, by fun_prop, fun x => ?_⟩
  constructor
  · rintro ⟨w, h0, h1, rfl⟩
    exact ⟨w, ⟨h0, by rw [Fin.sum_univ_three]; exact h1⟩, rfl⟩
  · rintro ⟨w, ⟨h0, h1⟩, rfl⟩
    exact ⟨w, h0, by rw [Fin.sum_univ_three] at h1; exact h1, rfl⟩

theorem exists_closest (S T : Pt 3 × Pt 3 × Pt 3) : ∃ X Y, Closest S T X Y := by
  obtain ⟨f, hf, hfx⟩ := inTri_comp (S := S)
  obtain ⟨g, hg, hgx⟩ := inTri_comp (S := T)
  have hK : IsCompact (stdSimplex ℝ (Fin 3) ×ˢ stdSimplex ℝ (Fin 3)) := (isCompact_stdSimplex ℝ (Fin 3)).prod (isCompact_stdSimplex ℝ (Fin 3))
  have hne : (stdSimplex ℝ (Fin 3) ×ˢ stdSimplex ℝ (Fin 3)).Nonempty := by
    obtain ⟨w, hw, -⟩ := (hfx _).mp (inTri_corner S 0)
    exact ⟨(w, w), hw, hw⟩
  have hc : Continuous (fun p : (Fin 3 → ℝ) × (Fin 3 → ℝ) => psq (g p.2 - f p.1)) := by
    simp only [psq3, Pi.sub_apply]
    fun_prop
  obtain ⟨⟨w, v⟩, ⟨hw, hv⟩, hm⟩ := hK.exists_isMinOn hne hc.continuousOn
  refine ⟨f w, g v, (hfx _).mpr ⟨w, hw, rfl⟩, (hgx _).mpr ⟨v, hv, rfl⟩, ?_⟩
  intro x y hx hy
  obtain ⟨w', hw', rfl⟩ := (hfx _).mp hx
  obtain ⟨v', hv', rfl⟩ := (hgx _).mp hy
  exact hm (Set.mk_mem_prod hw' hv')

/-- first order condition of a closest pair -/
theorem Closest.dot_le {X Y : Pt 3} (h : Closest S T X Y) {x : Pt 3} (hx : InTri S x) : pdot (x - X) (Y - X) ≤ 0 := by
  by_contra hcon
  push Not at hcon
  have hB : 0 ≤ psq (x - X) := psq_nonneg _
  obtain ⟨τ, hτ⟩ : ∃ τ, τ = min 1 (pdot (x - X) (Y - X) / (psq (x - X) + 1)) := ⟨_, rfl⟩
  have t0 : 0 < τ := by rw [hτ]; exact lt_min one_pos (div_pos hcon (by linarith))
  have t1 : τ ≤ 1 := by rw [hτ]; exact min_le_left _ _
  have t2 : τ * (psq (x - X) + 1) ≤ pdot (x - X) (Y - X) := by
    have : τ ≤ pdot (x - X) (Y - X) / (psq (x - X) + 1) := by rw [hτ]; exact min_le_right _ _
    rwa [le_div_iff₀ (by linarith)] at this
  have h1 := h.isMin _ _ (h.inS.conv hx t0.le t1) h.inT
  have e : psq (Y - fun i => X i + τ * (x i - X i)) = psq (Y - X) - 2 * τ * pdot (x - X) (Y - X) + τ ^ 2 * psq (x - X) := by
    simp only [psq3, pdot3, Pi.sub_apply]; ring
  rw [e] at h1
  nlinarith

theorem Closest.le_dot {X Y : Pt 3} (h : Closest S T X Y) {y : Pt 3} (hy : InTri T y) : 0 ≤ pdot (y - Y) (Y - X) := by
  have := h.symm.dot_le hy
  have e : pdot (y - Y) (Y - X) = - pdot (y - Y) (X - Y) := by simp only [pdot3, Pi.sub_apply]; ring
  rw [e]; linarith

/-- the triangle is orthogonal to `V` -/
def Flat (S : Pt 3 × Pt 3 × Pt 3) (X V : Pt 3) : Prop := ∀ k, pdot (corner S k - X) V = 0

theorem weights_dot {S : Pt 3 × Pt 3 × Pt 3} {w : Fin 3 → ℝ} (h1 : w 0 + w 1 + w 2 = 1) (V : Pt 3) {X : Pt 3}
    (hX : X = fun i => w 0 * corner S 0 i + w 1 * corner S 1 i + w 2 * corner S 2 i) :
    w 0 * pdot (corner S 0 - X) V + w 1 * pdot (corner S 1 - X) V + w 2 * pdot (corner S 2 - X) V = 0 := by
  have e : w 0 * pdot (corner S 0 - X) V + w 1 * pdot (corner S 1 - X) V + w 2 * pdot (corner S 2 - X) V =
      pdot (fun i => w 0 * corner S 0 i + w 1 * corner S 1 i + w 2 * corner S 2 i) V - (w 0 + w 1 + w 2) * pdot X V := by
    simp only [pdot3, Pi.sub_apply]; ring
  rw [e, ← hX, h1]; ring

/-- If a corner is strictly lower then the point and every other corner on the top level lie on the opposite edge. -/
theorem onEdge_of_lower {X V : Pt 3} (hX : InTri S X) (hle : ∀ k, pdot (corner S k - X) V ≤ 0) {e : Fin 3}
    (hlt : pdot (corner S (e + 2) - X) V < 0) : OnEdge S e X := by
  obtain ⟨w, h0, h1, hX⟩ := hX
  have hs := weights_dot h1 V hX
  have hterm : ∀ k, w k * pdot (corner S k - X) V ≤ 0 := fun k => mul_nonpos_of_nonneg_of_nonpos (h0 k) (hle k)
  have hall : ∀ k, w k * pdot (corner S k - X) V = 0 := by
    have a := hterm 0
    have b := hterm 1
    have c := hterm 2
    rw [forall3]
    refine ⟨?_, ?_, ?_⟩ <;> linarith
  have hw : w (e + 2) = 0 := by
    rcases mul_eq_zero.mp (hall (e + 2)) with h | h
    · exact h
    · exact absurd h hlt.ne
  clear hs hterm hall hlt hle
  refine ⟨w (e + 1), h0 _, ?_, ?_⟩
  · have a0 := h0 0
    have a1 := h0 1
    have a2 := h0 2
    revert hw
    fin_cases e <;> simp <;> intros <;> linarith
  · rw [hX]
    funext i
    obtain ⟨s0, s1, s2⟩ := S
    revert hw
    fin_cases e
    · simp only [side0, corner0, corner1, corner2, Fin.isValue, Fin.zero_eta, Pi.sub_apply, zero_add]
      intro hw
      rw [hw] at h1 ⊢
      linear_combination (s0 i) * h1
    · simp only [side1, corner0, corner1, corner2, Fin.isValue, Fin.mk_one, Pi.sub_apply, Fin.reduceAdd]
      intro hw
      rw [hw] at h1 ⊢
      linear_combination (s1 i) * h1
    · simp only [side2, corner0, corner1, corner2, Fin.isValue, Fin.reduceFinMk, Pi.sub_apply, Fin.reduceAdd]
      intro hw
      rw [hw] at h1 ⊢
      linear_combination (s2 i) * h1

/-- no pair of points on edges is a closest pair -/
def NoEdgePair (S T : Pt 3 × Pt 3 × Pt 3) (X Y : Pt 3) : Prop :=
  ∀ e f x y, OnEdge S e x → OnEdge T f y → y - x ≠ Y - X

/-- The face test of `S` against the corners of `T`, when `S` is orthogonal to `V` and `T` touches the upper side of the slab. -/
theorem fires_of_flat (hS : 1e-15 < pdot (nrm S) (nrm S)) {X Y : Pt 3} (hc : Closest S T X Y) (hV : 0 < psq (Y - X))
    (hflat : Flat S X (Y - X))
    (hin : ∀ k, pdot (corner T k - Y) (Y - X) = 0 → ∀ e, 0 < Lf S e (corner T k)) : ∃ r, ttFace S T = .inl r := by
  have hS' : 0 < pdot (nrm S) (nrm S) := lt_trans (by norm_num) hS
  obtain ⟨c, hVc⟩ : ∃ c : ℝ, Y - X = fun i => c * nrm S i := by
    apply parallel_nrm hS'
    intro k
    have e : pdot (corner S k - corner S 0) (Y - X) = pdot (corner S k - X) (Y - X) - pdot (corner S 0 - X) (Y - X) := by
      simp only [pdot3, Pi.sub_apply]; ring
    rw [e, hflat k, hflat 0, sub_zero]
  have hc0 : c ≠ 0 := by
    rintro rfl
    rw [hVc] at hV
    simp [psq3] at hV
  -- the level of a corner of `T`
  have hlev : ∀ m, -c * pdot (nrm S) (corner S 0 - corner T m) = pdot (corner T m - Y) (Y - X) + psq (Y - X) := by
    intro m
    have e1 : -c * pdot (nrm S) (corner S 0 - corner T m) = pdot (corner T m - corner S 0) (Y - X) := by
      rw [hVc]; simp only [pdot3, Pi.sub_apply]; ring
    have e2 : pdot (corner T m - corner S 0) (Y - X) = pdot (corner T m - Y) (Y - X) + psq (Y - X) - pdot (corner S 0 - X) (Y - X) := by
      simp only [pdot3, psq3, Pi.sub_apply]; ring
    rw [e1, e2, hflat 0, sub_zero]
  have hpos : ∀ m, 0 < -c * pdot (nrm S) (corner S 0 - corner T m) := fun m => by
    rw [hlev]; linarith [hc.le_dot (inTri_corner T m)]
  refine face_fires hS ?_ ?_
  · rcases lt_or_gt_of_ne hc0 with h | h
    · left
      intro m
      have := hpos m
      by_contra hcon
      push Not at hcon
      nlinarith
    · right
      intro m
      have := hpos m
      by_contra hcon
      push Not at hcon
      nlinarith
  · intro k hk
    apply hin k
    -- the level of a nearest corner is the lowest
    have hmin : ∀ m, pdot (corner T k - Y) (Y - X) ≤ pdot (corner T m - Y) (Y - X) := by
      intro m
      have h1 := mul_le_mul_of_nonneg_left (hk m) (abs_nonneg (-c))
      rw [← abs_mul, ← abs_mul, abs_of_pos (hpos k), abs_of_pos (hpos m), hlev, hlev] at h1
      linarith
    apply le_antisymm _ (hc.le_dot (inTri_corner T k))
    obtain ⟨v, h0, h1, hY⟩ := hc.inT
    have hs := weights_dot h1 (Y - X) hY
    have a0 := mul_le_mul_of_nonneg_left (hmin 0) (h0 0)
    have a1 := mul_le_mul_of_nonneg_left (hmin 1) (h0 1)
    have a2 := mul_le_mul_of_nonneg_left (hmin 2) (h0 2)
    have e : pdot (corner T k - Y) (Y - X) = v 0 * pdot (corner T k - Y) (Y - X) + v 1 * pdot (corner T k - Y) (Y - X) + v 2 * pdot (corner T k - Y) (Y - X) := by
      linear_combination (-pdot (corner T k - Y) (Y - X)) * h1
    linarith

/-- `S` orthogonal to `V`, `T` not: the face test of `S` finds the distance -/
theorem fires_one_flat (hS : 1e-15 < pdot (nrm S) (nrm S)) {X Y : Pt 3} (hc : Closest S T X Y) (hV : 0 < psq (Y - X))
    (hne : NoEdgePair S T X Y) (hflat : Flat S X (Y - X)) (hnot : ¬ Flat T Y (Y - X)) : ∃ r, ttFace S T = .inl r := by
  have hS' : 0 < pdot (nrm S) (nrm S) := lt_trans (by norm_num) hS
  have hneg : ∀ y, pdot (y - Y) (Y - X) = - pdot (y - Y) (X - Y) := fun y => by simp only [pdot3, Pi.sub_apply]; ring
  obtain ⟨m, hm⟩ : ∃ m, pdot (corner T m - Y) (Y - X) ≠ 0 := by
    by_contra hcon; push Not at hcon; exact hnot hcon
  obtain ⟨f, rfl⟩ : ∃ f : Fin 3, m = f + 2 := ⟨m + 1, fin3_a m⟩
  have hmlt : pdot (corner T (f + 2) - Y) (X - Y) < 0 := by
    have := lt_of_le_of_ne (hc.le_dot (inTri_corner T (f + 2))) hm.symm
    rw [hneg] at this; linarith
  have hYe : OnEdge T f Y := onEdge_of_lower hc.inT (fun k => hc.symm.dot_le (inTri_corner T k)) hmlt
  refine fires_of_flat hS hc hV hflat ?_
  intro k hk
  have hke : OnEdge T f (corner T k) := by
    rcases corner_cases f k with rfl | rfl | rfl
    · exact onEdge_left T _
    · exact onEdge_right T _
    · exact absurd hk hm
  by_contra hcon
  push Not at hcon
  obtain ⟨e0, he0⟩ := hcon
  have hX := (inTri_iff hS' X).mp hc.inS
  -- the corner, moved into the plane of `S`
  obtain ⟨c, hVc⟩ : ∃ c : ℝ, Y - X = fun i => c * nrm S i := by
    apply parallel_nrm hS'
    intro k
    have e : pdot (corner S k - corner S 0) (Y - X) = pdot (corner S k - X) (Y - X) - pdot (corner S 0 - X) (Y - X) := by
      simp only [pdot3, Pi.sub_apply]; ring
    rw [e, hflat k, hflat 0, sub_zero]
  have hVi : ∀ i, Y i - X i = c * nrm S i := fun i => congrFun hVc i
  have hc0 : c ≠ 0 := by
    rintro rfl
    rw [hVc] at hV
    simp [psq3] at hV
  have hsh : ∀ e, Lf S e (fun i => corner T k i - (Y i - X i)) = Lf S e (corner T k) := by
    intro e
    rw [← Lf_shift (corner T k) (-c) e]
    congr 1
    funext i
    rw [hVi]; ring
  obtain ⟨τ, t0, t1, h1, e1, h2⟩ := walk (a := fun e => Lf S e X) (b := fun e => Lf S e (fun i => corner T k i - (Y i - X i))) hX.2
    ⟨e0, by rw [hsh]; exact he0⟩
  simp only [← Lf_affine] at h1 h2
  have hx : InTri S (fun i => X i + τ * (corner T k i - (Y i - X i) - X i)) := by
    rw [inTri_iff hS']
    refine ⟨?_, h1⟩
    have hk2 : c * pdot (nrm S) (corner T k - Y) = 0 := by
      rw [← hk, hVc]; simp only [pdot3, Pi.sub_apply]; ring
    have hk3 := (mul_eq_zero.mp hk2).resolve_left hc0
    have hX1 := hX.1
    simp only [pdot3, Pi.sub_apply] at hX1 hk3 ⊢
    linear_combination hX1 + τ * hk3
  have hxe := onEdge_of_zero hS' hx h2
  have hye := hYe.conv hke t0 t1
  refine hne e1 f _ _ hxe hye ?_
  funext i
  simp only [Pi.sub_apply]
  ring

/-- both orthogonal to `V` -/
theorem fires_both_flat (hS : 1e-15 < pdot (nrm S) (nrm S)) (hT : 1e-15 < pdot (nrm T) (nrm T)) {X Y : Pt 3} (hc : Closest S T X Y)
    (hV : 0 < psq (Y - X)) (hne : NoEdgePair S T X Y) (hfS : Flat S X (Y - X)) (hfT : Flat T Y (Y - X)) :
    (∃ r, ttFace S T = .inl r) ∨ ∃ r, ttFace T S = .inl r := by
  have hS' : 0 < pdot (nrm S) (nrm S) := lt_trans (by norm_num) hS
  have hT' : 0 < pdot (nrm T) (nrm T) := lt_trans (by norm_num) hT
  have par : ∀ {U : Pt 3 × Pt 3 × Pt 3} {Z : Pt 3}, 0 < pdot (nrm U) (nrm U) → Flat U Z (Y - X) → ∃ c : ℝ, c ≠ 0 ∧ ∀ i, Y i - X i = c * nrm U i := by
    intro U Z hU hfl
    obtain ⟨c, hVc⟩ : ∃ c : ℝ, Y - X = fun i => c * nrm U i := by
      apply parallel_nrm hU
      intro k
      have e : pdot (corner U k - corner U 0) (Y - X) = pdot (corner U k - Z) (Y - X) - pdot (corner U 0 - Z) (Y - X) := by
        simp only [pdot3, Pi.sub_apply]; ring
      rw [e, hfl k, hfl 0, sub_zero]
    refine ⟨c, ?_, fun i => congrFun hVc i⟩
    rintro rfl
    rw [hVc] at hV
    simp [psq3] at hV
  obtain ⟨c, hc0, hcS⟩ := par hS' hfS
  obtain ⟨b, hb0, hbT⟩ := par hT' hfT
  have hX := (inTri_iff hS' X).mp hc.inS
  have hY := (inTri_iff hT' Y).mp hc.inT
  have shS : ∀ e y, Lf S e (fun i => y i - (Y i - X i)) = Lf S e y := by
    intro e y
    rw [← Lf_shift y (-c) e]
    congr 1
    funext i
    rw [hcS]; ring
  have shT : ∀ e x, Lf T e (fun i => x i + (Y i - X i)) = Lf T e x := by
    intro e x
    rw [← Lf_shift x b e]
    congr 1
    funext i
    rw [hbT]
  -- moving a point of the plane of `T` down keeps it in the plane of `S`, and vice versa
  have plS : ∀ y, InTri T y → pdot (nrm S) ((fun i => y i - (Y i - X i)) - corner S 0) = 0 := by
    intro y hy
    have h1 : pdot (y - Y) (Y - X) = 0 := by
      apply le_antisymm
      · exact hy.dot_le (fun k => (hfT k).le)
      · exact hy.le_dot (fun k => (hfT k).ge)
    have h2 : c * pdot (nrm S) (y - Y) = 0 := by
      rw [← h1]; simp only [pdot3, Pi.sub_apply, hcS]; ring
    have h3 := (mul_eq_zero.mp h2).resolve_left hc0
    have hX1 := hX.1
    simp only [pdot3, Pi.sub_apply] at hX1 h3 ⊢
    linear_combination hX1 + h3
  have plT : ∀ x, InTri S x → pdot (nrm T) ((fun i => x i + (Y i - X i)) - corner T 0) = 0 := by
    intro x hx
    have h1 : pdot (x - X) (Y - X) = 0 := by
      apply le_antisymm
      · exact hx.dot_le (fun k => (hfS k).le)
      · exact hx.le_dot (fun k => (hfS k).ge)
    have h2 : b * pdot (nrm T) (x - X) = 0 := by
      rw [← h1]; simp only [pdot3, Pi.sub_apply, hbT]; ring
    have h3 := (mul_eq_zero.mp h2).resolve_left hb0
    have hY1 := hY.1
    simp only [pdot3, Pi.sub_apply] at hY1 h3 ⊢
    linear_combination hY1 + h3
  by_cases hall : ∀ k, pdot (corner T k - Y) (Y - X) = 0 → ∀ e, 0 < Lf S e (corner T k)
  · exact Or.inl (fires_of_flat hS hc hV hfS hall)
  · right
    push Not at hall
    obtain ⟨k, hk, e0, he0⟩ := hall
    -- a point on an edge of `S` above which `T` lies
    obtain ⟨τ, t0, t1, h1, e1, h2⟩ := walk (a := fun e => Lf S e X) (b := fun e => Lf S e (fun i => corner T k i - (Y i - X i))) hX.2
      ⟨e0, by rw [shS]; exact he0⟩
    simp only [← Lf_affine] at h1 h2
    have hyT := hc.inT.conv (inTri_corner T k) t0 t1
    have exy : (fun i => (fun i => Y i + τ * (corner T k i - Y i)) i - (Y i - X i)) =
        fun i => X i + τ * (corner T k i - (Y i - X i) - X i) := by funext i; ring
    have hx : InTri S (fun i => X i + τ * (corner T k i - (Y i - X i) - X i)) := by
      rw [inTri_iff hS']
      exact ⟨by rw [← exy]; exact plS _ hyT, h1⟩
    have hxe := onEdge_of_zero hS' hx h2
    -- points of an edge of `S` stay inside `T`
    have inside : ∀ e x, OnEdge S e x → InTri T (fun i => x i + (Y i - X i)) → ∀ x', OnEdge S e x' → ∀ f, 0 < Lf T f x' := by
      intro e x hx hxT x' hx'
      by_contra hcon
      push Not at hcon
      obtain ⟨f0, hf0⟩ := hcon
      obtain ⟨σ, s0, s1, g1, f1, g2⟩ := walk (a := fun f => Lf T f x) (b := fun f => Lf T f x')
        (fun f => by rw [← shT]; exact ((inTri_iff hT' _).mp hxT).2 f) ⟨f0, hf0⟩
      simp only [← Lf_affine] at g1 g2
      have hxx := hx.conv hx' s0 s1
      have hyy : InTri T (fun i => (fun i => x i + σ * (x' i - x i)) i + (Y i - X i)) := by
        rw [inTri_iff hT']
        exact ⟨plT _ hxx.inTri, fun f => by rw [shT f (fun i => x i + σ * (x' i - x i))]; exact g1 f⟩
      have hye := onEdge_of_zero hT' hyy (e := f1) (by rw [shT f1 (fun i => x i + σ * (x' i - x i))]; exact g2)
      refine hne e f1 _ _ hxx hye ?_
      funext i
      simp only [Pi.sub_apply]
      ring
    have up : ∀ x, OnEdge S e1 x → (∀ f, 0 < Lf T f x) → InTri T (fun i => x i + (Y i - X i)) := by
      intro x hx hf
      rw [inTri_iff hT']
      exact ⟨plT _ hx.inTri, fun f => by rw [shT]; exact (hf f).le⟩
    have hstart : InTri T (fun i => (fun i => X i + τ * (corner T k i - (Y i - X i) - X i)) i + (Y i - X i)) := by
      have : (fun i => (fun i => X i + τ * (corner T k i - (Y i - X i) - X i)) i + (Y i - X i)) = fun i => Y i + τ * (corner T k i - Y i) := by
        funext i; ring
      rw [this]; exact hyT
    have hA := inside e1 _ hxe hstart _ (onEdge_left S e1)
    have hB := inside e1 _ hxe hstart _ (onEdge_right S e1)
    have hC := inside (e1 + 1) _ (onEdge_left S (e1 + 1)) (up _ (onEdge_right S e1) hB) _ (onEdge_right S (e1 + 1))
    refine fires_of_flat hT hc.symm (by rw [psq_neg_sub]; exact hV) ?_ ?_
    · intro k
      have e : pdot (corner T k - Y) (X - Y) = - pdot (corner T k - Y) (Y - X) := by simp only [pdot3, Pi.sub_apply]; ring
      rw [e, hfT k, neg_zero]
    · intro l _ f
      rcases corner_cases e1 l with rfl | rfl | rfl
      · exact hA f
      · exact hB f
      · have := fin3_b e1
        rw [this] at hC
        exact hC f

/-- If the distance is positive and not attained on a pair of edges, one of the face tests returns. -/
theorem face_complete (hS : 1e-15 < pdot (nrm S) (nrm S)) (hT : 1e-15 < pdot (nrm T) (nrm T)) {X Y : Pt 3} (hc : Closest S T X Y)
    (hV : 0 < psq (Y - X)) (hne : NoEdgePair S T X Y) : (∃ r, ttFace S T = .inl r) ∨ ∃ r, ttFace T S = .inl r := by
  have hne' : NoEdgePair T S Y X := by
    intro e f x y hx hy h
    refine hne f e y x hy hx ?_
    rw [← neg_sub, h, neg_sub]
  by_cases hfS : Flat S X (Y - X)
  · by_cases hfT : Flat T Y (Y - X)
    · exact fires_both_flat hS hT hc hV hne hfS hfT
    · exact Or.inl (fires_one_flat hS hc hV hne hfS hfT)
  · by_cases hfT : Flat T Y (Y - X)
    · right
      have hflip : ∀ {U : Pt 3 × Pt 3 × Pt 3} {Z : Pt 3}, Flat U Z (X - Y) ↔ Flat U Z (Y - X) := by
        intro U Z
        have e : ∀ k, pdot (corner U k - Z) (X - Y) = - pdot (corner U k - Z) (Y - X) := fun k => by simp only [pdot3, Pi.sub_apply]; ring
        unfold Flat
        simp only [e, neg_eq_zero]
      exact fires_one_flat hT hc.symm (by rw [psq_neg_sub]; exact hV) hne' (hflip.mpr hfT) (fun h => hfS (hflip.mp h))
    · exfalso
      obtain ⟨m, hm⟩ : ∃ m, pdot (corner S m - X) (Y - X) ≠ 0 := by
        by_contra hcon; push Not at hcon; exact hfS hcon
      obtain ⟨n, hn⟩ : ∃ m, pdot (corner T m - Y) (Y - X) ≠ 0 := by
        by_contra hcon; push Not at hcon; exact hfT hcon
      obtain ⟨e, rfl⟩ : ∃ e : Fin 3, m = e + 2 := ⟨m + 1, fin3_a m⟩
      obtain ⟨f, rfl⟩ : ∃ e : Fin 3, n = e + 2 := ⟨n + 1, fin3_a n⟩
      have h1 : OnEdge S e X := onEdge_of_lower hc.inS (fun k => hc.dot_le (inTri_corner S k))
        (lt_of_le_of_ne (hc.dot_le (inTri_corner S _)) hm)
      have h2 : OnEdge T f Y := by
        refine onEdge_of_lower hc.inT (fun k => hc.symm.dot_le (inTri_corner T k)) (lt_of_le_of_ne (hc.symm.dot_le (inTri_corner T _)) ?_)
        intro h
        apply hn
        have e : pdot (corner T (f + 2) - Y) (Y - X) = - pdot (corner T (f + 2) - Y) (X - Y) := by simp only [pdot3, Pi.sub_apply]; ring
        rw [e, h, neg_zero]
      exact hne e f X Y h1 h2 rfl

end Gpy
