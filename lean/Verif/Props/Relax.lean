import Verif.Proofs.Relax

/-! # C77: the relaxation pass of the remesher -/

set_option autoImplicit false
namespace Gpy

section
variable (V : Arr (V3 ℝ)) (F : List Tri) (feature : List ℕ) (fe : List Edge) (N : Arr (V3 ℝ)) (proj : V3 ℝ → V3 ℝ) (lam : Arr ℝ) (featV0 : Arr (V3 ℝ))
  (featE0 : List Edge) (project : Bool)

/-- **C77** (exact result).  The relaxation pass succeeds (no out-of-range access).  Its result comes from smoothed positions `W` (see `Smoothed`): pinned vertices are where
they were, free vertices are at the projection of their smoothed position, a vertex on a feature line is at the point of the original feature lines closest to its
smoothed position if there are any and `project` is set, and at its smoothed position otherwise. -/
theorem C77_relaxed (hF : InRange F V.size) (hu : ∀ v < V.size, 0 < cornerCount F v) (hf : ∀ v ∈ feature, v < V.size) (hfe : ∀ e ∈ fe, e.s < V.size ∧ e.t < V.size)
    (hN : N.size = V.size) (hl : lam.size = V.size) (h0 : ∀ e ∈ featE0, e.s < featV0.size ∧ e.t < featV0.size) :
    ∃ V' W, relax V F feature fe N proj lam featV0 featE0 project = some V' ∧ V'.size = V.size ∧ Smoothed V.size F feature fe N.val lam.val V.val W ∧
      ∀ v < V.size, (Pinned feature fe v → V'.val v = V.val v) ∧ (Free feature fe v → V'.val v = proj (W v)) ∧
        (OnLine feature fe v → project = true → featE0 ≠ [] → ClosestIn (OnPolyline featV0.val featE0) (W v) (V'.val v)) ∧
        (OnLine feature fe v → ¬ (project = true ∧ featE0 ≠ []) → V'.val v = W v) := by
  obtain ⟨pin, p1, p2, p3⟩ := featureFlags_ok V.size feature hf
  obtain ⟨fadj, f1, f2, f3⟩ := featAdj_ok V.size fe hfe
  have ok : RelaxOk V.size F feature fe ⟨pin, fadj, adjListF F, N, lam⟩ := by
    refine ⟨p2, p3, f2, f3, ?_, fun v => (adjListF_ok hF v).1, fun v => (adjListF_ok hF v).2, hN, hl, hfe⟩
    by_cases hz : V.size = 0
    · rw [hz]; exact Nat.zero_le _
    · have := adjListF_size (hu (V.size - 1) (by omega))
      show V.size ≤ (adjListF F).size
      omega
  obtain ⟨W, w1, w2, _, w4⟩ := smooth_loop ok rfl V.size (le_refl _)
  obtain ⟨U, u1, u2, _, u4⟩ := proj_loop ok rfl w2 proj featV0 featE0 h0 project V.size (le_refl _)
  refine ⟨U, W.val, ?_, u2, w4, u4⟩
  unfold relax
  rw [show pinFlags V.size feature = featureFlags V.size feature from rfl, p1, f1]
  simp only [Option.bind_eq_bind, Option.bind_some]
  rw [w1]
  simp only [Option.bind_some]
  exact u1

/-- **C77** (what is preserved).  With projection, and a projection that returns the closest point of the original surface `V0,F0`: vertices that are fixed, that are corners of feature lines
or that are ends of feature lines do not move, vertices on feature lines end on the original feature lines, and all other vertices end on the original surface. -/
theorem C77_features (V0 : ℕ → V3 ℝ) (F0 : List Tri) (hproj : ∀ p, ClosestIn (OnSurface V0 F0) p (proj p))
    (hF : InRange F V.size) (hu : ∀ v < V.size, 0 < cornerCount F v) (hf : ∀ v ∈ feature, v < V.size) (hfe : ∀ e ∈ fe, e.s < V.size ∧ e.t < V.size)
    (hN : N.size = V.size) (hl : lam.size = V.size) (h0 : ∀ e ∈ featE0, e.s < featV0.size ∧ e.t < featV0.size) :
    ∃ V', relax V F feature fe N proj lam featV0 featE0 project = some V' ∧ V'.size = V.size ∧
      ∀ v < V.size, (v ∈ feature → V'.val v = V.val v) ∧
        (v ∉ feature → featNbrs fe v ≠ [] → (featNbrs fe v).length ≠ 2 → V'.val v = V.val v) ∧
        (v ∉ feature → (featNbrs fe v).length = 2 → project = true → featE0 ≠ [] → OnPolyline featV0.val featE0 (V'.val v)) ∧
        (v ∉ feature → featNbrs fe v = [] → OnSurface V0 F0 (V'.val v)) := by
  obtain ⟨V', W, h1, h2, _, h4⟩ := C77_relaxed V F feature fe N proj lam featV0 featE0 project hF hu hf hfe hN hl h0
  refine ⟨V', h1, h2, ?_⟩
  intro v hv
  obtain ⟨k1, k2, k3, k4⟩ := h4 v hv
  refine ⟨fun h => k1 (Or.inl h), fun h hne h2 => k1 (Or.inr ⟨fun hz => hne (List.length_eq_zero_iff.mp hz), h2⟩), fun h h2 hp he => (k3 ⟨h, h2⟩ hp he).1, ?_⟩
  intro h hnil
  rw [k2 ⟨h, hnil⟩]
  exact (hproj _).1

/-- **C77** (tangency).  Before the projection, a vertex that is on no feature edge moves in its tangent plane, towards the average of its neighbours: at most as far from that average as before if
`0 ≤ lambda ≤ 2`. -/
theorem C77_tangential (W : ℕ → V3 ℝ) (n : ℕ) (N : ℕ → V3 ℝ) (lam : ℕ → ℝ) (V : ℕ → V3 ℝ) (h : Smoothed n F feature fe N lam V W) (v : ℕ) (hv : v < n) (hfree : Free feature fe v)
    (hunit : V3.normSq (N v) = 1) :
    V3.dot (W v - V v) (N v) = 0 ∧ ∃ L : List ℕ, L.Nodup ∧ (∀ j, j ∈ L ↔ ∃ e ∈ sides F, Undir ⟨v, j⟩ e) ∧
      (0 ≤ lam v → lam v ≤ 2 → V3.normSq ((1 / (L.length : ℝ)) • (L.map (before V W v)).sum - W v) ≤ V3.normSq ((1 / (L.length : ℝ)) • (L.map (before V W v)).sum - V v)) := by
  obtain ⟨L, l1, l2, l3⟩ := h.free v hv hfree
  have l3' := l3
  generalize (1 / (L.length : ℝ)) • (L.map (before V W v)).sum = q at l3
  unfold V3.normSq V3.dot at hunit
  constructor
  · rw [l3]
    unfold tangential V3.dot
    simp
    linear_combination (lam v) * ((N v).x * (q.x - (V v).x) + (N v).y * (q.y - (V v).y) + (N v).z * (q.z - (V v).z)) * (1 - 0) * (-1) * hunit
  · refine ⟨L, l1, l2, ?_⟩
    intro h0 h2
    generalize (1 / (L.length : ℝ)) • (L.map (before V W v)).sum = q at l3' ⊢
    rw [l3']
    set t := tangential (N v) (q - V v) with ht
    set d := q - V v with hd
    have e1 : q - (V v + lam v • t) = d - lam v • t := by rw [hd]; ext <;> simp <;> ring
    have e2 : V3.dot d t = V3.normSq t := by
      rw [ht]; unfold tangential V3.normSq V3.dot; simp
      linear_combination -(((N v).x * d.x + (N v).y * d.y + (N v).z * d.z) ^ 2) * hunit
    have e3 : V3.normSq (d - lam v • t) = V3.normSq d - 2 * lam v * V3.dot d t + lam v ^ 2 * V3.normSq t := by
      unfold V3.normSq V3.dot; simp; ring
    have e4 : 0 ≤ V3.normSq t := by unfold V3.normSq V3.dot; nlinarith [sq_nonneg t.x, sq_nonneg t.y, sq_nonneg t.z]
    rw [e1, e3, e2]
    nlinarith [mul_nonneg (mul_nonneg h0 (sub_nonneg.mpr h2)) e4]

/-- **C77** (no projection).  Without projection a vertex on a feature line ends in the middle of its two neighbours on that line, where a neighbour with a smaller number has already
been moved and one with a larger number has not. -/
theorem C77_line (hF : InRange F V.size) (hu : ∀ v < V.size, 0 < cornerCount F v) (hf : ∀ v ∈ feature, v < V.size) (hfe : ∀ e ∈ fe, e.s < V.size ∧ e.t < V.size)
    (hN : N.size = V.size) (hl : lam.size = V.size) (h0 : ∀ e ∈ featE0, e.s < featV0.size ∧ e.t < featV0.size) (hp : project = false) :
    ∃ V', relax V F feature fe N proj lam featV0 featE0 project = some V' ∧ ∀ v < V.size, v ∉ feature → ∀ a b, featNbrs fe v = [a, b] →
      V'.val v = (1 / 2 : ℝ) • (before V.val V'.val v a + before V.val V'.val v b) := by
  obtain ⟨V', W, h1, h2, h3, h4⟩ := C77_relaxed V F feature fe N proj lam featV0 featE0 project hF hu hf hfe hN hl h0
  refine ⟨V', h1, ?_⟩
  intro v hv hvf a b hab
  have hline : OnLine feature fe v := ⟨hvf, by rw [hab]; rfl⟩
  have hnp : ¬ (project = true ∧ featE0 ≠ []) := by rw [hp]; simp
  obtain ⟨a', b', e1, e2⟩ := h3.line v hv hline
  rw [hab] at e1
  obtain ⟨rfl, rfl⟩ : a = a' ∧ b = b' := by simpa using e1
  have symm : ∀ j, j ∈ featNbrs fe v → v ∈ featNbrs fe j := by
    intro j hj
    unfold featNbrs at hj ⊢
    simp only [List.mem_flatMap, List.mem_append] at hj ⊢
    obtain ⟨e, he, h | h⟩ := hj
    · split_ifs at h with c
      · simp at h; exact ⟨e, he, Or.inr (by rw [if_pos h.symm, c]; simp)⟩
      · simp at h
    · split_ifs at h with c
      · simp at h; exact ⟨e, he, Or.inl (by rw [if_pos h.symm, c]; simp)⟩
      · simp at h
  have same : ∀ j ∈ featNbrs fe v, before V.val V'.val v j = before V.val W v j := by
    intro j hj
    have hjn := featNbrs_lt hfe hj
    unfold before
    by_cases hjv : j < v
    · rw [if_pos hjv, if_pos hjv]
      obtain ⟨k1, k2, k3, k4⟩ := h4 j hjn
      rcases pinned_trichotomy feature fe j with hpin | hl | hfr
      · rw [k1 hpin, h3.pinned j hjn hpin]
      · exact k4 hl hnp
      · have := symm j hj
        rw [hfr.2] at this
        simp at this
    · rw [if_neg hjv, if_neg hjv]
  rw [(h4 v hv).2.2.2 hline hnp, e2, same a (by rw [hab]; simp), same b (by rw [hab]; simp)]

end

/-- the hypotheses of C77 are met: a square cut along a diagonal that is a feature line with the middle vertex 4; vertex 4 slides along the line and ends on it, the others are fixed -/
example : ∃ V', relax ⟨5, fun i => if i = 0 then ⟨0, 0, 0⟩ else if i = 1 then ⟨2, 0, 0⟩ else if i = 2 then ⟨2, 2, 0⟩ else if i = 3 then ⟨0, 2, 0⟩ else ⟨1, 1, 1⟩⟩
    [⟨0, 1, 4⟩, ⟨1, 2, 4⟩, ⟨2, 3, 4⟩, ⟨3, 0, 4⟩] [0, 1, 2, 3] [⟨0, 4⟩, ⟨4, 2⟩] ⟨5, fun _ => ⟨0, 0, 1⟩⟩ id ⟨5, fun _ => 1⟩
    ⟨2, fun i => if i = 0 then ⟨0, 0, 0⟩ else ⟨2, 2, 0⟩⟩ [⟨0, 1⟩] true = some V' ∧ V'.val 2 = ⟨2, 2, 0⟩ ∧ V'.val 4 = ⟨1, 1, 0⟩ := by
  obtain ⟨V', W, h1, _, h3, h4⟩ := C77_relaxed ⟨5, fun i => if i = 0 then ⟨0, 0, 0⟩ else if i = 1 then ⟨2, 0, 0⟩ else if i = 2 then ⟨2, 2, 0⟩ else if i = 3 then ⟨0, 2, 0⟩ else ⟨1, 1, 1⟩⟩
    [⟨0, 1, 4⟩, ⟨1, 2, 4⟩, ⟨2, 3, 4⟩, ⟨3, 0, 4⟩] [0, 1, 2, 3] [⟨0, 4⟩, ⟨4, 2⟩] ⟨5, fun _ => ⟨0, 0, 1⟩⟩ id ⟨5, fun _ => 1⟩
    ⟨2, fun i => if i = 0 then ⟨0, 0, 0⟩ else ⟨2, 2, 0⟩⟩ [⟨0, 1⟩] true (by decide) (by decide) (by decide) (by decide) rfl rfl (by decide)
  have hl : OnLine [0, 1, 2, 3] [⟨0, 4⟩, ⟨4, 2⟩] 4 := by unfold OnLine; decide
  refine ⟨V', h1, (h4 2 (by decide)).1 (Or.inl (by decide)), ?_⟩
  obtain ⟨a, b, e1, e2⟩ := h3.line 4 (by decide) hl
  have : featNbrs [⟨0, 4⟩, ⟨4, 2⟩] 4 = [0, 2] := by decide
  rw [this] at e1
  obtain ⟨rfl, rfl⟩ : 0 = a ∧ 2 = b := by simpa using e1
  have w0 := h3.pinned 0 (by decide) (Or.inl (by decide))
  have w2 := h3.pinned 2 (by decide) (Or.inl (by decide))
  have w4 : W 4 = ⟨1, 1, 0⟩ := by
    rw [e2]
    unfold before
    rw [if_pos (by decide), if_pos (by decide), w0, w2]
    ext <;> simp
  obtain ⟨⟨e, he, t, _, _, ht⟩, hc⟩ := (h4 4 (by decide)).2.2.1 hl rfl (by simp)
  simp only [List.mem_singleton] at he
  subst he
  have := hc ⟨1, 1, 0⟩ ⟨⟨0, 1⟩, by simp, 1 / 2, by norm_num, by norm_num, by ext <;> simp⟩
  rw [w4, ht] at this
  simp [V3.normSq, V3.dot] at this
  have h12 : t = 1 / 2 := by nlinarith [sq_nonneg (2 * t - 1)]
  rw [ht, h12]
  ext <;> simp

end Gpy
