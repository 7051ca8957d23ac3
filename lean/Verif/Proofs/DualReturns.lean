import Verif.Proofs.DualMesh
import Mathlib.Tactic.Positivity
import Mathlib.Tactic.FieldSimp

/-! Hermite positions stay on their edges, so that the extraction finds them. -/

set_option autoImplicit false
namespace Gpy.Dual

/-- the point lies on the segment -/
def OnSeg (a b p : Pt 3) : Prop := ∃ t : ℝ, 0 ≤ t ∧ t ≤ 1 ∧ p = (1 - t) • a + t • b

theorem OnSeg.symm {a b p : Pt 3} (h : OnSeg a b p) : OnSeg b a p := by
  obtain ⟨t, h0, h1, rfl⟩ := h
  refine ⟨1 - t, by linarith, by linarith, ?_⟩
  funext i; simp only [Pi.add_apply, Pi.smul_apply, smul_eq_mul]; ring

theorem OnSeg.blend {a b p q : Pt 3} (hp : OnSeg a b p) (hq : OnSeg a b q) (w : ℝ) (h0 : 0 ≤ w) (h1 : w ≤ 1) : OnSeg a b ((1 - w) • p + w • q) := by
  obtain ⟨t, t0, t1, rfl⟩ := hp
  obtain ⟨u, u0, u1, rfl⟩ := hq
  refine ⟨(1 - w) * t + w * u, ?_, ?_, ?_⟩
  · have := mul_nonneg (by linarith : 0 ≤ 1 - w) t0; have := mul_nonneg h0 u0; linarith
  · nlinarith
  · funext i; simp only [Pi.add_apply, Pi.smul_apply, smul_eq_mul]; ring

theorem psq_nn (x : Pt 3) : 0 ≤ psq x := Finset.sum_nonneg (fun i _ => sq_nonneg _)

theorem psq3 (x : Pt 3) : psq x = x 0 ^ 2 + x 1 ^ 2 + x 2 ^ 2 := by unfold psq; rw [Fin.sum_univ_three]

theorem pdot3 (x y : Pt 3) : pdot x y = x 0 * y 0 + x 1 * y 1 + x 2 * y 2 := by unfold pdot; rw [Fin.sum_univ_three]

theorem lerp_range (fa fb : ℝ) (h : fa * fb < 0) (ha : fa < 0 ∨ 1 / 10 ^ 16 ≤ fa) (hb : fb < 0 ∨ 1 / 10 ^ 16 ≤ fb) : 0 ≤ lerpT fa fb ∧ lerpT fa fb ≤ 1 := by
  unfold lerpT
  rw [sub_zero]
  rcases mul_neg_iff.mp h with ⟨h1, h2⟩ | ⟨h1, h2⟩
  · have hd : (0 : ℝ) < fa - fb + 1 / 10 ^ 16 := by have : (0 : ℝ) < 1 / 10 ^ 16 := by positivity
                                                    linarith
    refine ⟨div_nonneg h1.le hd.le, (div_le_one hd).mpr ?_⟩
    have : (0 : ℝ) < 1 / 10 ^ 16 := by positivity
    linarith
  · rcases hb with hb | hb
    · linarith
    · have hd : fa - fb + 1 / 10 ^ 16 < 0 := by linarith
      refine ⟨div_nonneg_of_nonpos h1.le hd.le, (div_le_one_of_neg hd).mpr ?_⟩
      linarith

/-- no sample lies strictly between zero and the number that `lerp_t` adds to avoid a division by zero -/
def NoTiny (g : Grid) : Prop := ∀ v, g.at v ≤ 0 ∨ 1 / 10 ^ 16 ≤ g.at v

/-- positions on edges with a sign change lie on the edge -/
def OnEdge (b : Cell) (e : ℕ) (p : Pt 3) : Prop := b.sdf (endA e) * b.sdf (endB e) < 0 → OnSeg (b.corners (endA e)) (b.corners (endB e)) p

theorem gen_pos (g : Grid) (c : Ijk) (e : ℕ) (p : Pt 3) (h : (gen g c).pos e = some p) :
    p = (1 - lerpT (g.at (cv c (endA e))) (g.at (cv c (endB e)))) • (gen g c).corners (endA e) + lerpT (g.at (cv c (endA e))) (g.at (cv c (endB e))) • (gen g c).corners (endB e) := by
  unfold gen genCell fillHermite at h ⊢
  split_ifs at h ⊢ with h1
  · simp only at h
    split_ifs at h with h2
    exact (Option.some.inj h).symm

theorem gen_onEdge {g₀ : Grid} (hg : NoTiny g₀) (c : Ijk) (e : ℕ) (p : Pt 3) (h : (gen g₀ c).pos e = some p) : OnEdge (gen g₀ c) e p := by
  intro hs
  simp only [(gen_basic g₀ c).2.2.2.1] at hs
  rw [gen_pos g₀ c e p h]
  have ne : ∀ x : ℝ, x ≠ 0 → (x ≤ 0 ∨ 1 / 10 ^ 16 ≤ x) → (x < 0 ∨ 1 / 10 ^ 16 ≤ x) := fun x hx h => h.imp (fun h => lt_of_le_of_ne h hx) id
  obtain ⟨t0, t1⟩ := lerp_range _ _ hs (ne _ (left_ne_zero_of_mul hs.ne) (hg _)) (ne _ (right_ne_zero_of_mul hs.ne) (hg _))
  exact ⟨_, t0, t1, rfl⟩

theorem pnorm_lt (x : Pt 3) (r : ℝ) (hr : 0 < r) (h : psq x < r ^ 2) : pnorm x < r := by
  unfold pnorm
  rw [Real.sqrt_lt' hr]; exact h

theorem onSeg_found (v0 v1 p : Pt 3) (h : OnSeg v0 v1 p) : isPointOnEdge p v0 v1 = true := by
  obtain ⟨t, t0, t1, rfl⟩ := h
  have hp : (1 - t) • v0 + t • v1 - v0 = t • (v1 - v0) := by
    funext i; simp only [Pi.add_apply, Pi.sub_apply, Pi.smul_apply, smul_eq_mul]; ring
  have hsq : psq (t • (v1 - v0)) = t ^ 2 * psq (v1 - v0) := by
    simp only [psq3, Pi.smul_apply, smul_eq_mul]; ring
  unfold isPointOnEdge
  simp only
  by_cases hs : psq (v1 - v0) < 1 / 10 ^ 12
  · rw [if_pos hs, hp, decide_eq_true_eq]
    refine pnorm_lt _ _ (by positivity) ?_
    rw [hsq]
    have : t ^ 2 * psq (v1 - v0) ≤ 1 * psq (v1 - v0) := mul_le_mul_of_nonneg_right (by nlinarith) (psq_nn _)
    calc t ^ 2 * psq (v1 - v0) ≤ psq (v1 - v0) := by linarith
      _ < (1 / 10 ^ 6) ^ 2 := by rw [div_pow, one_pow, ← pow_mul]; exact hs
  · have h0 : psq (v1 - v0) ≠ 0 := by
      intro h; rw [h] at hs; exact hs (by positivity)
    have ht : pdot (t • (v1 - v0)) (v1 - v0) / psq (v1 - v0) = t := by
      rw [div_eq_iff h0]
      simp only [psq3, pdot3, Pi.smul_apply, smul_eq_mul]; ring
    rw [if_neg hs, hp, ht, if_neg (by push Not; constructor <;> linarith), decide_eq_true_eq]
    have : (1 - t) • v0 + t • v1 - (v0 + t • (v1 - v0)) = 0 := by
      funext i; simp only [Pi.add_apply, Pi.sub_apply, Pi.smul_apply, smul_eq_mul, Pi.zero_apply]; ring
    rw [this]
    refine pnorm_lt _ _ (by positivity) ?_
    have : psq (0 : Pt 3) = 0 := by simp [psq3]
    rw [this]; positivity

theorem pnorm_mul_self (x : Pt 3) : pnorm x * pnorm x = psq x := Real.mul_self_sqrt (psq_nn x)

theorem planeHit_onSeg (b0 : Cell) (e0 : ℕ) (n m x : Pt 3) (h : planeHit b0 e0 n m = some x) : OnSeg (b0.corners (endA e0)) (b0.corners (endB e0)) x := by
  unfold planeHit at h
  simp only at h
  change (if 1 / 10 ^ 6 < |pdot n (normalized (b0.corners (endB e0) - b0.corners (endA e0)))| then
    if pdot n (m - b0.corners (endA e0)) / pdot n (normalized (b0.corners (endB e0) - b0.corners (endA e0))) < 0 ∨
        pnorm (b0.corners (endB e0) - b0.corners (endA e0)) < pdot n (m - b0.corners (endA e0)) / pdot n (normalized (b0.corners (endB e0) - b0.corners (endA e0))) then none
    else some (b0.corners (endA e0) + max 0 (min (pdot n (m - b0.corners (endA e0)) / pdot n (normalized (b0.corners (endB e0) - b0.corners (endA e0)))) (pnorm (b0.corners (endB e0) - b0.corners (endA e0)))) •
      normalized (b0.corners (endB e0) - b0.corners (endA e0))) else none) = some x at h
  generalize b0.corners (endA e0) = A at h ⊢
  generalize b0.corners (endB e0) = B at h ⊢
  generalize pdot n (m - A) / pdot n (normalized (B - A)) = t at h
  split_ifs at h with h1 h2
  cases h
  have hpos : 0 < psq (B - A) := by
    by_contra hn
    have h0 : psq (B - A) = 0 := le_antisymm (not_lt.mp hn) (psq_nn _)
    rw [normalized, if_neg hn] at h1
    have : B - A = 0 := by
      rw [psq3] at h0
      have a0 := sq_nonneg ((B - A) 0); have a1 := sq_nonneg ((B - A) 1); have a2 := sq_nonneg ((B - A) 2)
      funext i
      fin_cases i
      · exact pow_eq_zero_iff (two_ne_zero) |>.mp (by simp only [Fin.zero_eta]; linarith)
      · exact pow_eq_zero_iff (two_ne_zero) |>.mp (by simp only [Fin.mk_one]; linarith)
      · exact pow_eq_zero_iff (two_ne_zero) |>.mp (show (B - A) 2 ^ 2 = 0 by linarith)
    rw [this] at h1
    simp [pdot3] at h1
    norm_num at h1
  have hn : 0 < pnorm (B - A) := Real.sqrt_pos.mpr hpos
  rw [normalized, if_pos hpos]
  generalize hs : max 0 (min t (pnorm (B - A))) = s
  have s0 : 0 ≤ s := by rw [← hs]; exact le_max_left _ _
  have s1 : s ≤ pnorm (B - A) := by rw [← hs]; exact max_le hn.le (min_le_right _ _)
  refine ⟨s / pnorm (B - A), div_nonneg s0 hn.le, (div_le_one hn).mpr s1, ?_⟩
  funext i
  simp only [Pi.add_apply, Pi.sub_apply, Pi.smul_apply, smul_eq_mul]
  field_simp
  ring

theorem onEdge_closed (w : ℝ) (h0 : 0 ≤ w) (h1 : w ≤ 1) : Closed OnEdge w := by
  intro b b0 e e0 n m x y hends hx hy hs
  have hx' := planeHit_onSeg b0 e0 n m x hx
  refine (hy hs).blend ?_ w h0 h1
  rcases hends with ⟨q1, q2⟩ | ⟨q1, q2⟩
  · rw [q1, q2]; exact hx'
  · rw [q1, q2]; exact hx'.symm

/-- the number of an edge in the first of the cells around it -/
theorem local_edge (g : Grid) (e : GEdge) (he : g.Inner e) : ∃ e' < 12, (cv (around e 0) (endA e') = e.v ∧ cv (around e 0) (endB e') = up e.ax e.v) ∨ (cv (around e 0) (endA e') = up e.ax e.v ∧ cv (around e 0) (endB e') = e.v) := by
  obtain ⟨ax, i, j, k⟩ := e
  unfold Grid.Inner at he
  fin_cases ax
  · simp at he
    refine ⟨6, by omega, Or.inr ?_⟩
    simp [cv, around, across, down, up, endA, endB, edgePairs, off]; omega
  · simp at he
    refine ⟨5, by omega, Or.inl ?_⟩
    simp [cv, around, across, down, up, endA, endB, edgePairs, off]; omega
  · simp at he
    refine ⟨10, by omega, Or.inl ?_⟩
    simp [cv, around, across, down, up, endA, endB, edgePairs, off]; omega

theorem hasNormal_some {g : Grid} {cells : List Cell} (h : Inv OnEdge g cells) (e : GEdge) (he : g.Inner e) (hs : g.Changes e) :
    hasNormal cells g (g.x e.v.1 e.v.2.1 e.v.2.2) (g.x (up e.ax e.v).1 (up e.ax e.v).2.1 (up e.ax e.v).2.2) (around e 0).1 (around e 0).2.1 (around e 0).2.2 = some () := by
  have hA := around_active e he hs 0
  obtain ⟨x, hx, hk⟩ := h.get (around e 0) (active_cell hA)
  obtain ⟨e', he', hends⟩ := local_edge g e he
  have hprod := (changes_iff e).mp hs
  have hp' : g.at (cv (around e 0) (endA e')) * g.at (cv (around e 0) (endB e')) < 0 := by
    rcases hends with ⟨q1, q2⟩ | ⟨q1, q2⟩ <;> rw [q1, q2]
    · exact hprod
    · rw [mul_comm]; exact hprod
  have hsome : (x.pos e').isSome = true := by
    rw [hk.pos e']
    exact ((gen_slot g _ e').1).mpr ⟨(gen_active g _ (active_cell hA)).mpr hA, he', not_lt.mpr hp'.le⟩
  obtain ⟨p, hp⟩ := Option.isSome_iff_exists.mp hsome
  have hon := hk.sat e' p hp (by simp only [(gen_basic g (around e 0)).2.2.2.1]; exact hp')
  simp only [(gen_basic g (around e 0)).2.2.2.2] at hon
  have hon' : OnSeg (g.x e.v.1 e.v.2.1 e.v.2.2) (g.x (up e.ax e.v).1 (up e.ax e.v).2.1 (up e.ax e.v).2.2) p := by
    rcases hends with ⟨q1, q2⟩ | ⟨q1, q2⟩
    · rw [q1, q2] at hon; exact hon
    · rw [q1, q2] at hon; exact hon.symm
  unfold hasNormal
  rw [cellIdx_eq g _ (active_cell hA), Int.toNat_natCast, hx]
  simp only
  rw [if_pos]
  rw [List.any_eq_true]
  exact ⟨e', by simpa using he', by rw [hp]; exact onSeg_found _ _ _ hon'⟩

theorem mapM_some {α β : Type} (f : α → Option β) : ∀ l : List α, (∀ a ∈ l, ∃ b, f a = some b) → ∃ r, l.mapM f = some r := by
  intro l
  induction l with
  | nil => exact fun _ => ⟨[], rfl⟩
  | cons a l ih =>
    intro h
    obtain ⟨b, hb⟩ := h a List.mem_cons_self
    obtain ⟨r, hr⟩ := ih (fun a ha => h a (List.mem_cons_of_mem _ ha))
    exact ⟨b :: r, by rw [List.mapM_cons]; simp [hb, hr]⟩

theorem extract_returns {g : Grid} {cells : List Cell} (h : Inv OnEdge g cells) : ∃ m, extract g cells = some m := by
  obtain ⟨r, hr⟩ := mapM_some (quadOf g cells) (edgesOf g) (fun e he => by
    by_cases hs : g.Changes e
    · rw [quadOf_changes h e ((mem_edges g e).mp he) hs, hasNormal_some h e ((mem_edges g e).mp he) hs]
      exact ⟨_, rfl⟩
    · exact ⟨_, quadOf_none e hs⟩)
  exact ⟨_, by rw [extract_eq, hr]; rfl⟩

end Gpy.Dual
