import Verif.Proofs.Matryoshka2

/-! Lemmas for C98: feasibility, the binary search and the tracker. -/

set_option autoImplicit false
namespace Gpy

noncomputable section

theorem mTransform_eq (s : ℝ) (Bc x : Pt 3) (g : MCfg) : mTransform s g.R g.c Bc x = nestMap s Bc g x := by
  funext i
  unfold mTransform nestMap
  rw [add_comm, Finset.mul_sum]
  congr 1
  exact Finset.sum_congr rfl (fun j _ => by ring)

theorem mFeasible_iff (o : MQuery) (l : List (Pt 3)) (g : MCfg) :
    mFeasible o l g = true ↔ ∀ q ∈ l, o.sd q ≤ -(1 / 10 ^ 6) ∧
      (∀ t, o.ray q (fun i => -mNormalize g.ap i) = some t → planeSide g (fun i => q i + t * -mNormalize g.ap i) ≤ 1 / 10 ^ 6) ∧
      (∀ t, o.ray q (fun i => -mNormalize g.am i) = some t → -(1 / 10 ^ 6) ≤ planeSide g (fun i => q i + t * -mNormalize g.am i)) := by
  have any1 : ∀ (d : Pt 3), (l.any (fun p => ((hitSide o g.cp g.n p d).map (fun s => @decide (s > 1 / 10 ^ 6) (Classical.propDecidable _))).getD false) = true) ↔
      ∃ q ∈ l, ∃ t, o.ray q d = some t ∧ 1 / 10 ^ 6 < planeSide g (fun i => q i + t * d i) := by
    intro d
    rw [List.any_eq_true]
    refine exists_congr (fun q => and_congr_right (fun _ => ?_))
    unfold hitSide planeSide
    cases o.ray q d with
    | none => simp
    | some t => simp
  have any2 : ∀ (d : Pt 3), (l.any (fun p => ((hitSide o g.cp g.n p d).map (fun s => @decide (s < -(1 / 10 ^ 6)) (Classical.propDecidable _))).getD false) = true) ↔
      ∃ q ∈ l, ∃ t, o.ray q d = some t ∧ planeSide g (fun i => q i + t * d i) < -(1 / 10 ^ 6) := by
    intro d
    rw [List.any_eq_true]
    refine exists_congr (fun q => and_congr_right (fun _ => ?_))
    unfold hitSide planeSide
    cases o.ray q d with
    | none => simp
    | some t => simp
  unfold mFeasible
  simp only
  split_ifs with h1 h2 h3
  · rw [List.any_eq_true] at h1
    obtain ⟨q, hq, h1⟩ := h1
    simp only [decide_eq_true_eq] at h1
    constructor
    · intro h; cases h
    · intro h; exact absurd (h q hq).1 (not_le.mpr h1)
  · obtain ⟨q, hq, t, ht, h⟩ := (any1 _).mp h2
    constructor
    · intro h; cases h
    · intro h'; exact absurd ((h' q hq).2.1 t ht) (not_le.mpr h)
  · obtain ⟨q, hq, t, ht, h⟩ := (any2 _).mp h3
    constructor
    · intro h; cases h
    · intro h'; exact absurd ((h' q hq).2.2 t ht) (not_le.mpr h)
  · refine ⟨fun _ q hq => ⟨?_, ?_, ?_⟩, fun _ => rfl⟩
    · by_contra hc
      refine h1 (List.any_eq_true.mpr ⟨q, hq, ?_⟩)
      simp only [decide_eq_true_eq]
      exact not_le.mp hc
    · intro t ht
      by_contra hc
      exact h2 ((any1 _).mpr ⟨q, hq, t, ht, not_le.mp hc⟩)
    · intro t ht
      by_contra hc
      exact h3 ((any2 _).mpr ⟨q, hq, t, ht, not_le.mp hc⟩)

theorem feasAt_iff (o : MQuery) (B : List (Pt 3)) (Bc : Pt 3) (g : MCfg) (hp : psq g.ap = 1) (hm : psq g.am = 1) (s : ℝ) :
    mFeasAt o B Bc g s = true ↔ Nested o B s Bc g := by
  unfold mFeasAt Nested
  rw [mFeasible_iff, mNormalize_of_unit hp, mNormalize_of_unit hm]
  constructor
  · intro h x hx
    have := h _ (List.mem_map.mpr ⟨x, hx, rfl⟩)
    rwa [mTransform_eq] at this
  · intro h q hq
    obtain ⟨x, hx, rfl⟩ := List.mem_map.mp hq
    rw [mTransform_eq]
    exact h x hx

theorem bisect_spec (feas : ℝ → Bool) (tol : ℝ) (k : ℕ) (lo hi : ℝ) (hlt : lo < hi) (hlo : feas lo = true) (hhi : feas hi = false) :
    feas (mBisect feas tol k lo hi) = true ∧ lo ≤ mBisect feas tol k lo hi ∧ mBisect feas tol k lo hi < hi ∧
    ∃ s', feas s' = false ∧ mBisect feas tol k lo hi < s' ∧ s' ≤ hi ∧ s' ≤ mBisect feas tol k lo hi + max tol ((hi - lo) / 2 ^ k) := by
  induction k generalizing lo hi with
  | zero =>
    simp only [mBisect, pow_zero, div_one]
    exact ⟨hlo, le_refl _, hlt, hi, hhi, hlt, le_refl _, by linarith [le_max_right tol (hi - lo)]⟩
  | succ k ih =>
    have hmid1 : lo < 1 / 2 * (lo + hi) := by linarith
    have hmid2 : 1 / 2 * (lo + hi) < hi := by linarith
    unfold mBisect
    simp only
    by_cases hf : feas (1 / 2 * (lo + hi)) = true
    · rw [if_pos hf]
      simp only
      split_ifs with ht
      · exact ⟨hf, hmid1.le, hmid2, hi, hhi, hmid2, le_refl _, by linarith [le_max_left tol ((hi - lo) / 2 ^ (k + 1))]⟩
      · obtain ⟨a, b, c, s', d, e, e', f⟩ := ih (1 / 2 * (lo + hi)) hi hmid2 hf hhi
        have : (hi - 1 / 2 * (lo + hi)) / 2 ^ k = (hi - lo) / 2 ^ (k + 1) := by rw [pow_succ]; field_simp; ring
        rw [this] at f
        exact ⟨a, by linarith, c, s', d, e, e', f⟩
    · rw [if_neg hf]
      simp only
      have hf' : feas (1 / 2 * (lo + hi)) = false := by simpa using hf
      split_ifs with ht
      · exact ⟨hlo, le_refl _, hlt, _, hf', hmid1, hmid2.le, by linarith [le_max_left tol ((hi - lo) / 2 ^ (k + 1))]⟩
      · obtain ⟨a, b, c, s', d, e, e', f⟩ := ih lo (1 / 2 * (lo + hi)) hmid1 hlo hf'
        have : (1 / 2 * (lo + hi) - lo) / 2 ^ k = (hi - lo) / 2 ^ (k + 1) := by rw [pow_succ]; field_simp; ring
        rw [this] at f
        exact ⟨a, b, by linarith, s', d, e, by linarith, f⟩

/-- The answer of the search: nothing fits, everything fits, or a scale with a failing one just above. -/
theorem largestScale_spec (feas : ℝ → Bool) (tol : ℝ) :
    (largestScale feas tol = 0 ∧ feas (1 / 10 ^ 3) = false) ∨ (largestScale feas tol = 1 ∧ feas 1 = true) ∨
    (1 / 10 ^ 3 ≤ largestScale feas tol ∧ largestScale feas tol < 1 ∧ feas (largestScale feas tol) = true ∧
      ∃ s', feas s' = false ∧ largestScale feas tol < s' ∧ s' ≤ 1 ∧ s' ≤ largestScale feas tol + max tol ((1 - 1 / 10 ^ 3) / 2 ^ 15)) := by
  unfold largestScale
  split_ifs with h1 h2
  · left; exact ⟨rfl, by simpa using h1⟩
  · right; left; exact ⟨rfl, h2⟩
  · right; right
    obtain ⟨a, b, c, d⟩ := bisect_spec feas tol 15 (1 / 10 ^ 3) 1 (by norm_num) (by simpa using h1) (by simpa using h2)
    exact ⟨b, c, a, d⟩

theorem bisect_mono (f g : ℝ → Bool) (hfg : ∀ s, f s = true → g s = true) (tol : ℝ) (k : ℕ) (lo hi : ℝ) (hlt : lo < hi) (hg : g lo = true) (hf : f lo = true)
    (hfh : f hi = false) (hgh : g hi = false) : mBisect f tol k lo hi ≤ mBisect g tol k lo hi := by
  induction k generalizing lo hi with
  | zero => exact le_refl _
  | succ k ih =>
    have hmid1 : lo < 1 / 2 * (lo + hi) := by linarith
    have hmid2 : 1 / 2 * (lo + hi) < hi := by linarith
    by_cases hfm : f (1 / 2 * (lo + hi)) = true
    · have hgm := hfg _ hfm
      unfold mBisect
      simp only [if_pos hfm, if_pos hgm]
      split_ifs with ht
      · exact le_refl _
      · exact ih _ _ hmid2 hgm hfm hfh hgh
    · by_cases hgm : g (1 / 2 * (lo + hi)) = true
      · have e1 := (bisect_spec f tol k lo (1 / 2 * (lo + hi)) hmid1 hf (by simpa using hfm)).2.2.1
        have e2 := (bisect_spec g tol k (1 / 2 * (lo + hi)) hi hmid2 hgm hgh).2.1
        unfold mBisect
        simp only [if_neg hfm, if_pos hgm]
        split_ifs <;> linarith
      · unfold mBisect
        simp only [if_neg hfm, if_neg hgm]
        split_ifs with ht
        · exact le_refl _
        · exact ih _ _ hmid1 hg hf (by simpa using hfm) (by simpa using hgm)

/-- A configuration that is feasible whenever another one is never gets a smaller scale. -/
theorem largestScale_mono (f g : ℝ → Bool) (hfg : ∀ s, f s = true → g s = true) (tol : ℝ) : largestScale f tol ≤ largestScale g tol := by
  by_cases h0 : f (1 / 10 ^ 3) = true
  · have g0 := hfg _ h0
    by_cases h1 : f 1 = true
    · have g1 := hfg _ h1
      unfold largestScale
      rw [if_neg (by rw [h0]; simp), if_pos h1, if_neg (by rw [g0]; simp), if_pos g1]
    · by_cases g1 : g 1 = true
      · have e : largestScale g tol = 1 := by
          unfold largestScale; rw [if_neg (by rw [g0]; simp), if_pos g1]
        rw [e]
        rcases largestScale_spec f tol with h | h | h
        · rw [h.1]; norm_num
        · rw [h.1]
        · exact h.2.1.le
      · unfold largestScale
        rw [if_neg (by rw [h0]; simp), if_neg h1, if_neg (by rw [g0]; simp), if_neg g1]
        exact bisect_mono f g hfg tol 15 _ _ (by norm_num) g0 h0 (by simpa using h1) (by simpa using g1)
  · have e : largestScale f tol = 0 := by
      unfold largestScale; rw [if_pos (by simpa using h0)]
    rw [e]
    rcases largestScale_spec g tol with h | h | h
    · rw [h.1]
    · rw [h.1]; norm_num
    · exact le_trans (by norm_num) h.1

/-- The tracker: what it holds after a list of evaluations. -/
theorem track_spec {n : ℕ} (score : Pt n → ℝ) (b0 : ℝ × Option (Pt n)) (l : List (Pt n)) :
    let b := l.foldl (trackBest score) b0
    b0.1 ≤ b.1 ∧ (∀ x ∈ l, score x ≤ b.1) ∧ (b = b0 ∨ ∃ x ∈ l, b = (score x, some x) ∧ b0.1 < score x) := by
  induction l generalizing b0 with
  | nil => exact ⟨le_refl _, by simp, Or.inl rfl⟩
  | cons y l ih =>
    obtain ⟨h1, h2, h3⟩ := ih (trackBest score b0 y)
    simp only [List.foldl_cons] at *
    have hstep : b0.1 ≤ (trackBest score b0 y).1 ∧ score y ≤ (trackBest score b0 y).1 ∧ (trackBest score b0 y = b0 ∨ (trackBest score b0 y = (score y, some y) ∧ b0.1 < score y)) := by
      unfold trackBest
      split_ifs with h
      · exact ⟨h.le, le_refl _, Or.inr ⟨rfl, h⟩⟩
      · exact ⟨le_refl _, not_lt.mp h, Or.inl rfl⟩
    refine ⟨le_trans hstep.1 h1, ?_, ?_⟩
    · intro x hx
      rcases List.mem_cons.mp hx with rfl | hx
      · exact le_trans hstep.2.1 h1
      · exact h2 x hx
    · rcases h3 with h3 | ⟨x, hx, hb, hlt⟩
      · rw [h3]
        rcases hstep.2.2 with h | h
        · exact Or.inl h
        · exact Or.inr ⟨y, by simp, h⟩
      · exact Or.inr ⟨x, by simp [hx], hb, lt_of_le_of_lt hstep.1 hlt⟩

end

end Gpy
