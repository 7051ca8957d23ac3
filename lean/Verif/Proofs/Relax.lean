import Verif.Model.Relax
import Verif.Spec.Relax
import Verif.Proofs.EqualizeLoop
import Mathlib.Tactic.Linarith
import Mathlib.Tactic.Ring
import Mathlib.Tactic.FieldSimp

/-! The relaxation pass of the remesher. -/

set_option autoImplicit false
namespace Gpy

theorem closestOnSeg_spec (p a b : V3 ℝ) : ClosestIn (OnSeg3 a b) p (closestOnSeg p a b) := by
  unfold closestOnSeg
  simp only
  have hd0 : 0 ≤ V3.dot (b - a) (b - a) := by unfold V3.dot; nlinarith [sq_nonneg (b - a).x, sq_nonneg (b - a).y, sq_nonneg (b - a).z]
  have expand : ∀ t : ℝ, V3.normSq (p - (a + t • (b - a))) = V3.normSq (p - a) - 2 * t * V3.dot (p - a) (b - a) + t ^ 2 * V3.dot (b - a) (b - a) := by
    intro t; unfold V3.normSq V3.dot; simp; ring
  by_cases hd : V3.dot (b - a) (b - a) ≤ 0
  · rw [if_pos hd]
    have hz : V3.dot (b - a) (b - a) = 0 := le_antisymm hd hd0
    have h1 : (b - a).x = 0 ∧ (b - a).y = 0 ∧ (b - a).z = 0 := by
      unfold V3.dot at hz
      refine ⟨?_, ?_, ?_⟩ <;> nlinarith [mul_self_nonneg (b - a).x, mul_self_nonneg (b - a).y, mul_self_nonneg (b - a).z]
    refine ⟨⟨0, le_refl _, zero_le_one, by ext <;> simp⟩, ?_⟩
    rintro y ⟨t, _, _, rfl⟩
    have : a + t • (b - a) = a := by
      obtain ⟨x1, x2, x3⟩ := h1
      ext
      · rw [V3.add_x, V3.smul_x, x1]; ring
      · rw [V3.add_y, V3.smul_y, x2]; ring
      · rw [V3.add_z, V3.smul_z, x3]; ring
    rw [this]
  · rw [if_neg hd]
    push Not at hd
    set D := V3.dot (b - a) (b - a) with hD
    set B := V3.dot (p - a) (b - a) with hB
    have hq : B / D * D = B := div_mul_cancel₀ _ (ne_of_gt hd)
    set t0 := B / D with ht0
    have key : ∀ s : ℝ, 0 ≤ s → s ≤ 1 → (∀ t : ℝ, 0 ≤ t → t ≤ 1 → (s - t) * (s + t - 2 * t0) ≤ 0) → ClosestIn (OnSeg3 a b) p (a + s • (b - a)) := by
      intro s h0 h1 h
      refine ⟨⟨s, h0, h1, rfl⟩, ?_⟩
      rintro y ⟨t, ht0', ht1, rfl⟩
      rw [expand, expand]
      have := h t ht0' ht1
      rw [← hq]
      nlinarith
    by_cases c1 : t0 < 0
    · rw [if_pos c1, if_neg (by norm_num)]
      exact key 0 (le_refl _) zero_le_one (fun t h0 h1 => by nlinarith)
    · rw [if_neg c1]
      by_cases c2 : t0 > 1
      · rw [if_pos c2]
        exact key 1 zero_le_one (le_refl _) (fun t h0 h1 => by nlinarith)
      · rw [if_neg c2]
        push Not at c1 c2
        exact key t0 c1 c2 (fun t h0 h1 => by nlinarith [sq_nonneg (t0 - t)])

theorem closestOnFeature_spec (featV0 : Arr (V3 ℝ)) (featE0 : List Edge) (p : V3 ℝ) (hr : ∀ e ∈ featE0, e.s < featV0.size ∧ e.t < featV0.size) (hne : featE0 ≠ []) :
    ∃ c, closestOnFeature featV0 featE0 p = some c ∧ ClosestIn (OnPolyline featV0.val featE0) p c := by
  have gen : ∀ (l : List Edge) (done : List Edge) (s : Option ℝ × V3 ℝ), (∀ e ∈ l, e.s < featV0.size ∧ e.t < featV0.size) →
      (done = [] ∧ s.1 = none ∨ s.1 = some (V3.normSq (p - s.2)) ∧ ClosestIn (OnPolyline featV0.val done) p s.2) →
      ∃ r, l.foldlM (closestStep featV0 p) s = some r ∧
        (done ++ l = [] ∧ r.1 = none ∨ r.1 = some (V3.normSq (p - r.2)) ∧ ClosestIn (OnPolyline featV0.val (done ++ l)) p r.2) := by
    intro l
    induction l with
    | nil => intro done s _ h; exact ⟨s, rfl, by simpa using h⟩
    | cons e l ih =>
      intro done s hl h
      obtain ⟨b1, b2⟩ := hl e (by simp)
      have hcs := closestOnSeg_spec p (featV0.val e.s) (featV0.val e.t)
      rw [List.foldlM_cons]
      unfold closestStep
      rw [rd_eq b1, rd_eq b2]
      change ∃ r, Option.bind _ (fun s' => List.foldlM (closestStep featV0 p) s' l) = some r ∧ _
      simp only [Option.bind_eq_bind, Option.bind_some]
      have happ : done ++ e :: l = (done ++ [e]) ++ l := by simp
      rw [happ]
      have poly : ∀ x, OnPolyline featV0.val (done ++ [e]) x ↔ OnPolyline featV0.val done x ∨ OnSeg3 (featV0.val e.s) (featV0.val e.t) x := by
        intro x
        unfold OnPolyline
        simp only [List.mem_append, List.mem_singleton]
        constructor
        · rintro ⟨e', h | rfl, hx⟩
          · exact Or.inl ⟨e', h, hx⟩
          · exact Or.inr hx
        · rintro (⟨e', h, hx⟩ | hx)
          · exact ⟨e', Or.inl h, hx⟩
          · exact ⟨e, Or.inr rfl, hx⟩
      rcases h with ⟨hd, hs⟩ | ⟨hs, hc⟩
      · rw [hs]
        simp only [Option.bind_some]
        refine ih (done ++ [e]) _ (fun e' he' => hl e' (by simp [he'])) (Or.inr ⟨rfl, ?_⟩)
        subst hd
        refine ⟨(poly _).mpr (Or.inr hcs.1), fun y hy => ?_⟩
        rcases (poly y).mp hy with ⟨e', h, _⟩ | h
        · simp at h
        · exact hcs.2 y h
      · rw [hs]
        simp only
        by_cases hlt : V3.normSq (p - closestOnSeg p (featV0.val e.s) (featV0.val e.t)) < V3.normSq (p - s.2)
        · rw [if_pos hlt]
          simp only [Option.bind_some]
          refine ih (done ++ [e]) _ (fun e' he' => hl e' (by simp [he'])) (Or.inr ⟨rfl, ?_⟩)
          refine ⟨(poly _).mpr (Or.inr hcs.1), fun y hy => ?_⟩
          rcases (poly y).mp hy with h | h
          · exact hlt.le.trans (hc.2 y h)
          · exact hcs.2 y h
        · rw [if_neg hlt]
          simp only [Option.bind_some]
          push Not at hlt
          refine ih (done ++ [e]) _ (fun e' he' => hl e' (by simp [he'])) (Or.inr ⟨hs, ?_⟩)
          refine ⟨(poly _).mpr (Or.inl hc.1), fun y hy => ?_⟩
          rcases (poly y).mp hy with h | h
          · exact hc.2 y h
          · exact hlt.trans (hcs.2 y h)
  obtain ⟨r, h1, h2⟩ := gen featE0 [] (none, p) hr (Or.inl ⟨rfl, rfl⟩)
  refine ⟨r.2, ?_, ?_⟩
  · unfold closestOnFeature
    rw [h1]
    rfl
  · rcases h2 with ⟨h2, _⟩ | ⟨_, h2⟩
    · exact absurd (by simpa using h2) hne
    · simpa using h2

theorem featAdj_ok (n : ℕ) (fe : List Edge) (hr : ∀ e ∈ fe, e.s < n ∧ e.t < n) :
    ∃ A, featAdj n fe = some A ∧ A.size = n ∧ ∀ v, A.val v = featNbrs fe v := by
  have gen : ∀ (l done : List Edge) (A : Arr (List ℕ)), (∀ e ∈ l, e.s < n ∧ e.t < n) → A.size = n → (∀ v, A.val v = featNbrs done v) →
      ∃ A', l.foldlM (fun A e => do
        let l ← Arr.rd A e.s
        let A ← A.wr e.s (l ++ [e.t])
        let l ← A.rd e.t
        A.wr e.t (l ++ [e.s])) A = some A' ∧ A'.size = n ∧ ∀ v, A'.val v = featNbrs (done ++ l) v := by
    intro l
    induction l with
    | nil => intro done A _ h1 h2; exact ⟨A, rfl, h1, by simpa using h2⟩
    | cons e l ih =>
      intro done A hl h1 h2
      obtain ⟨b1, b2⟩ := hl e (by simp)
      rw [List.foldlM_cons]
      simp only [Arr.rd, Arr.wr, h1, b1, b2, if_true, Option.bind_eq_bind, Option.bind_some]
      rw [show done ++ e :: l = (done ++ [e]) ++ l by simp]
      refine ih (done ++ [e]) ⟨n, _⟩ (fun e' he' => hl e' (by simp [he'])) rfl ?_
      intro v
      have h3 : featNbrs (done ++ [e]) v = featNbrs done v ++ ((if e.s = v then [e.t] else []) ++ (if e.t = v then [e.s] else [])) := by
        unfold featNbrs; rw [List.flatMap_append]; simp
      rw [h3]
      simp only [Function.update_apply, h2]
      by_cases c1 : e.s = v <;> by_cases c2 : e.t = v
      · subst c1; simp [c2]
      · subst c1; simp [c2, Ne.symm c2]
      · subst c2; simp [c1, Ne.symm c1]
      · simp [c1, c2, Ne.symm c1, Ne.symm c2]
  obtain ⟨A, h1, h2, h3⟩ := gen fe [] ⟨n, fun _ => []⟩ hr rfl (fun v => rfl)
  exact ⟨A, h1, h2, by simpa using h3⟩


theorem foldl_scaled (c : ℝ) (l : List (V3 ℝ)) : l.foldl (fun q x => q + c • x) 0 = c • l.sum := by
  have hx : ∀ (l : List (V3 ℝ)) (q : V3 ℝ), l.foldl (fun q x => q + c • x) q = q + c • l.sum := by
    intro l
    induction l with
    | nil => intro q; ext <;> simp [List.sum]
    | cons a l ih =>
      intro q
      rw [List.foldl_cons, ih, show (a :: l).sum = a + l.sum from rfl]
      ext <;> simp <;> ring
  rw [hx]
  ext <;> simp

theorem mapM_rd {α : Type} (V : Arr α) (L : List ℕ) (h : ∀ j ∈ L, j < V.size) : L.mapM V.rd = some (L.map V.val) := by
  induction L with
  | nil => rfl
  | cons a L ih =>
    rw [List.mapM_cons, rd_eq (h a (by simp)), ih (fun j hj => h j (by simp [hj]))]
    rfl

theorem before_succ {V W W' : ℕ → V3 ℝ} {k : ℕ} (h : ∀ j < k, W' j = W j) {v : ℕ} (hv : v ≤ k) : before V W' v = before V W v := by
  funext j
  unfold before
  by_cases hj : j < v
  · rw [if_pos hj, if_pos hj, h j (by omega)]
  · rw [if_neg hj, if_neg hj]

section
variable {n : ℕ} {F : List Tri} {feature : List ℕ} {fe : List Edge} {R : RelaxIn} {V : Arr (V3 ℝ)}

/-- the tables are right -/
structure RelaxOk (n : ℕ) (F : List Tri) (feature : List ℕ) (fe : List Edge) (R : RelaxIn) : Prop where
  ps : R.pin.size = n
  pv : ∀ v, R.pin.val v = true ↔ v ∈ feature
  fs : R.fadj.size = n
  fv : ∀ v, R.fadj.val v = featNbrs fe v
  As : n ≤ R.A.size
  Av : ∀ v, (R.A.val v).Nodup ∧ ∀ j, j ∈ R.A.val v ↔ ∃ e ∈ sides F, Undir ⟨v, j⟩ e
  Ar : ∀ v, ∀ j ∈ R.A.val v, j < n
  Ns : R.N.size = n
  ls : R.lam.size = n
  fr : ∀ e ∈ fe, e.s < n ∧ e.t < n

theorem pinned_iff (h : RelaxOk n F feature fe R) (v : ℕ) :
    (R.pin.val v = true ∨ ((R.fadj.val v).length ≥ 1 ∧ (R.fadj.val v).length ≠ 2)) ↔ Pinned feature fe v := by
  rw [h.pv, h.fv]
  unfold Pinned
  constructor
  · rintro (h | ⟨h1, h2⟩)
    · exact Or.inl h
    · exact Or.inr ⟨by omega, h2⟩
  · rintro (h | ⟨h1, h2⟩)
    · exact Or.inl h
    · exact Or.inr ⟨by omega, h2⟩

theorem featNbrs_lt (hr : ∀ e ∈ fe, e.s < n ∧ e.t < n) {v j : ℕ} (h : j ∈ featNbrs fe v) : j < n := by
  unfold featNbrs at h
  simp only [List.mem_flatMap, List.mem_append] at h
  obtain ⟨e, he, h | h⟩ := h
  · split_ifs at h
    · simp at h; rw [h]; exact (hr e he).2
    · simp at h
  · split_ifs at h
    · simp at h; rw [h]; exact (hr e he).1
    · simp at h

theorem pinned_trichotomy (feature : List ℕ) (fe : List Edge) (v : ℕ) : Pinned feature fe v ∨ OnLine feature fe v ∨ Free feature fe v := by
  unfold Pinned OnLine Free
  by_cases h1 : v ∈ feature
  · exact Or.inl (Or.inl h1)
  by_cases h2 : (featNbrs fe v).length = 2
  · exact Or.inr (Or.inl ⟨h1, h2⟩)
  by_cases h0 : (featNbrs fe v).length = 0
  · exact Or.inr (Or.inr ⟨h1, List.length_eq_zero_iff.mp h0⟩)
  · exact Or.inl (Or.inr ⟨h0, h2⟩)

theorem OnLine.not_pinned {v : ℕ} (h : OnLine feature fe v) : ¬ Pinned feature fe v := by
  rintro (h1 | ⟨_, h2⟩)
  · exact h.1 h1
  · exact h2 h.2

theorem Free.not_pinned {v : ℕ} (h : Free feature fe v) : ¬ Pinned feature fe v := by
  rintro (h1 | ⟨h2, _⟩)
  · exact h.1 h1
  · rw [h.2] at h2; exact h2 rfl

theorem smooth_loop (h : RelaxOk n F feature fe R) (hV : V.size = n) (k : ℕ) (hk : k ≤ n) :
    ∃ W, (List.range k).foldlM (smoothStep R) V = some W ∧ W.size = n ∧ (∀ j, k ≤ j → W.val j = V.val j) ∧
      Smoothed k F feature fe R.N.val R.lam.val V.val W.val := by
  induction k with
  | zero => exact ⟨V, rfl, hV, fun _ _ => rfl, ⟨fun v hv => by omega, fun v hv => by omega, fun v hv => by omega⟩⟩
  | succ k ih =>
    obtain ⟨W, h1, h2, h3, h4⟩ := ih (by omega)
    have hkn : k < n := by omega
    have step : ∀ x, (Pinned feature fe k → x = V.val k) →
        (OnLine feature fe k → ∃ a b, featNbrs fe k = [a, b] ∧ x = (1 / 2 : ℝ) • (before V.val W.val k a + before V.val W.val k b)) →
        (Free feature fe k → ∃ L : List ℕ, L.Nodup ∧ (∀ j, j ∈ L ↔ ∃ e ∈ sides F, Undir ⟨k, j⟩ e) ∧
          x = V.val k + R.lam.val k • tangential (R.N.val k) ((1 / (L.length : ℝ)) • (L.map (before V.val W.val k)).sum - V.val k)) →
        smoothStep R W k = some ⟨n, Function.update W.val k x⟩ →
        ∃ W', (List.range (k + 1)).foldlM (smoothStep R) V = some W' ∧ W'.size = n ∧ (∀ j, k + 1 ≤ j → W'.val j = V.val j) ∧
          Smoothed (k + 1) F feature fe R.N.val R.lam.val V.val W'.val := by
      intro x hx1 hx2 hx3 hs
      refine ⟨⟨n, Function.update W.val k x⟩, ?_, rfl, ?_, ?_⟩
      · rw [List.range_succ, List.foldlM_append, h1]
        simp only [List.foldlM_cons, List.foldlM_nil, Option.bind_eq_bind, Option.bind_some, hs]
        rfl
      · intro j hj
        show Function.update W.val k x j = _
        rw [Function.update_of_ne (by omega), h3 j (by omega)]
      · have hlt : ∀ j < k, Function.update W.val k x j = W.val j := fun j hj => Function.update_of_ne (by omega) _ _
        refine ⟨?_, ?_, ?_⟩
        · intro v hv hp
          show Function.update W.val k x v = _
          rcases Nat.lt_succ_iff_lt_or_eq.mp hv with hv | rfl
          · rw [hlt v hv]; exact h4.pinned v hv hp
          · rw [Function.update_self]; exact hx1 hp
        · intro v hv hp
          show ∃ a b, _ ∧ Function.update W.val k x v = _
          rcases Nat.lt_succ_iff_lt_or_eq.mp hv with hv | rfl
          · rw [hlt v hv, before_succ hlt (by omega)]; exact h4.line v hv hp
          · rw [Function.update_self, before_succ hlt (le_refl _)]; exact hx2 hp
        · intro v hv hp
          show ∃ L : List ℕ, _ ∧ _ ∧ Function.update W.val k x v = _
          rcases Nat.lt_succ_iff_lt_or_eq.mp hv with hv | rfl
          · rw [hlt v hv, before_succ hlt (by omega)]; exact h4.free v hv hp
          · rw [Function.update_self, before_succ hlt (le_refl _)]; exact hx3 hp
    have hbef : ∀ j, W.val j = before V.val W.val k j := by
      intro j
      unfold before
      by_cases hj : j < k
      · rw [if_pos hj]
      · rw [if_neg hj, h3 j (by omega)]
    have heval : smoothStep R W k = (if Pinned feature fe k then some W else if (featNbrs fe k).length = 2 then do
        let a ← (featNbrs fe k)[0]?
        let b ← (featNbrs fe k)[1]?
        let x ← W.rd a
        let y ← W.rd b
        W.wr k ((1 / 2 : ℝ) • (x + y))
      else do
        let L ← R.A.rd k
        let pts ← L.mapM W.rd
        let q := pts.foldl (fun q x => q + (1 / (L.length : ℝ)) • x) 0
        let nrm ← R.N.rd k
        let lam ← R.lam.rd k
        let v ← W.rd k
        W.wr k (v - lam • ((v - q) - (V3.dot nrm (v - q)) • nrm))) := by
      classical
      unfold smoothStep
      rw [rd_eq (by rw [h.fs]; exact hkn), rd_eq (by rw [h.ps]; exact hkn)]
      simp only [Option.bind_eq_bind, Option.bind_some]
      rw [if_congr (pinned_iff h k) rfl rfl, h.fv]
    rcases pinned_trichotomy feature fe k with hp | hl | hf
    · refine step (V.val k) (fun _ => rfl) (fun hl => absurd hp hl.not_pinned) (fun hf => absurd hp hf.not_pinned) ?_
      rw [heval, if_pos hp, ← h3 k (le_refl _), Function.update_eq_self, ← h2]
    · have hlen := hl.2
      obtain ⟨a, b, hab⟩ := List.length_eq_two.mp hlen
      have ha : a < n := featNbrs_lt h.fr (v := k) (by rw [hab]; simp)
      have hb : b < n := featNbrs_lt h.fr (v := k) (by rw [hab]; simp)
      refine step _ (fun hp => absurd hp hl.not_pinned) (fun _ => ⟨a, b, hab, rfl⟩) (fun hf => ?_) ?_
      · rw [hf.2] at hlen; simp at hlen
      · rw [heval, if_neg hl.not_pinned, if_pos hlen, hab]
        simp only [List.getElem?_cons_zero, List.getElem?_cons_succ, Option.bind_eq_bind, Option.bind_some, rd_eq (show a < W.size by rw [h2]; exact ha),
          rd_eq (show b < W.size by rw [h2]; exact hb), Arr.wr, h2, hkn, if_true, ← hbef]
    · have hlen : ¬ (featNbrs fe k).length = 2 := by rw [hf.2]; simp
      refine step _ (fun hp => absurd hp hf.not_pinned) (fun hl => absurd hl.2 hlen) (fun _ => ⟨R.A.val k, (h.Av k).1, (h.Av k).2, rfl⟩) ?_
      rw [heval, if_neg hf.not_pinned, if_neg hlen, rd_eq (show k < R.A.size by have := h.As; omega)]
      simp only [Option.bind_eq_bind, Option.bind_some]
      rw [mapM_rd W _ (fun j hj => by rw [h2]; exact h.Ar k j hj), rd_eq (by rw [h.Ns]; exact hkn), rd_eq (by rw [h.ls]; exact hkn), rd_eq (by rw [h2]; exact hkn)]
      simp only [Option.bind_some, foldl_scaled, Arr.wr, h2, hkn, if_true]
      rw [h3 k (le_refl _), show before V.val W.val k = W.val from funext (fun j => (hbef j).symm)]
      congr 3
      unfold tangential V3.dot
      ext <;> simp <;> ring

/-- the second loop -/
theorem proj_loop (h : RelaxOk n F feature fe R) (hV : V.size = n) {W : Arr (V3 ℝ)} (hW : W.size = n) (proj : V3 ℝ → V3 ℝ) (featV0 : Arr (V3 ℝ)) (featE0 : List Edge)
    (hr : ∀ e ∈ featE0, e.s < featV0.size ∧ e.t < featV0.size) (project : Bool) (k : ℕ) (hk : k ≤ n) :
    ∃ U, (List.range k).foldlM (projStep R V ⟨W.size, fun i => proj (W.val i)⟩ featV0 featE0 project) W = some U ∧ U.size = n ∧ (∀ j, k ≤ j → U.val j = W.val j) ∧
      ∀ v < k, (Pinned feature fe v → U.val v = V.val v) ∧ (Free feature fe v → U.val v = proj (W.val v)) ∧
        (OnLine feature fe v → project = true → featE0 ≠ [] → ClosestIn (OnPolyline featV0.val featE0) (W.val v) (U.val v)) ∧
        (OnLine feature fe v → ¬ (project = true ∧ featE0 ≠ []) → U.val v = W.val v) := by
  induction k with
  | zero => exact ⟨W, rfl, hW, fun _ _ => rfl, fun v hv => by omega⟩
  | succ k ih =>
    obtain ⟨U, h1, h2, h3, h4⟩ := ih (by omega)
    have hkn : k < n := by omega
    have step : ∀ x, ((Pinned feature fe k → x = V.val k) ∧ (Free feature fe k → x = proj (W.val k)) ∧
        (OnLine feature fe k → project = true → featE0 ≠ [] → ClosestIn (OnPolyline featV0.val featE0) (W.val k) x) ∧
        (OnLine feature fe k → ¬ (project = true ∧ featE0 ≠ []) → x = W.val k)) →
        projStep R V ⟨W.size, fun i => proj (W.val i)⟩ featV0 featE0 project U k = some ⟨n, Function.update U.val k x⟩ →
        ∃ U', (List.range (k + 1)).foldlM (projStep R V ⟨W.size, fun i => proj (W.val i)⟩ featV0 featE0 project) W = some U' ∧ U'.size = n ∧
          (∀ j, k + 1 ≤ j → U'.val j = W.val j) ∧
          ∀ v < k + 1, (Pinned feature fe v → U'.val v = V.val v) ∧ (Free feature fe v → U'.val v = proj (W.val v)) ∧
            (OnLine feature fe v → project = true → featE0 ≠ [] → ClosestIn (OnPolyline featV0.val featE0) (W.val v) (U'.val v)) ∧
            (OnLine feature fe v → ¬ (project = true ∧ featE0 ≠ []) → U'.val v = W.val v) := by
      intro x hx hs
      refine ⟨⟨n, Function.update U.val k x⟩, ?_, rfl, ?_, ?_⟩
      · rw [List.range_succ, List.foldlM_append, h1]
        simp only [List.foldlM_cons, List.foldlM_nil, Option.bind_eq_bind, Option.bind_some, hs]
        rfl
      · intro j hj
        show Function.update U.val k x j = _
        rw [Function.update_of_ne (by omega), h3 j (by omega)]
      · intro v hv
        simp only
        rcases Nat.lt_succ_iff_lt_or_eq.mp hv with hv | rfl
        · rw [Function.update_of_ne (by omega)]; exact h4 v hv
        · rw [Function.update_self]; exact hx
    have heval : projStep R V ⟨W.size, fun i => proj (W.val i)⟩ featV0 featE0 project U k =
        (if Pinned feature fe k then U.wr k (V.val k) else if (featNbrs fe k).length = 2 then
          if project = true ∧ featE0.length > 0 then (closestOnFeature featV0 featE0 (U.val k)).bind (fun c => U.wr k c) else some U
        else U.wr k (proj (W.val k))) := by
      classical
      unfold projStep
      rw [rd_eq (by rw [h.fs]; exact hkn), rd_eq (by rw [h.ps]; exact hkn), rd_eq (by rw [hV]; exact hkn), rd_eq (by rw [h2]; exact hkn),
        rd_eq (show k < (⟨W.size, fun i => proj (W.val i)⟩ : Arr (V3 ℝ)).size by show k < W.size; rw [hW]; exact hkn)]
      simp only [Option.bind_eq_bind, Option.bind_some]
      rw [if_congr (pinned_iff h k) rfl rfl, h.fv]
    have hwr : ∀ x, U.wr k x = some ⟨n, Function.update U.val k x⟩ := by intro x; unfold Arr.wr; rw [if_pos (by rw [h2]; exact hkn), h2]
    have hUk : U.val k = W.val k := h3 k (le_refl _)
    rcases pinned_trichotomy feature fe k with hp | hl | hf
    · refine step (V.val k) ⟨fun _ => rfl, fun hf => absurd hp hf.not_pinned, fun hl => absurd hp hl.not_pinned, fun hl => absurd hp hl.not_pinned⟩ ?_
      rw [heval, if_pos hp, hwr]
    · have hno : ¬ Free feature fe k := by intro hf; have := hl.2; rw [hf.2] at this; simp at this
      by_cases hpr : project = true ∧ featE0 ≠ []
      · obtain ⟨c, hc1, hc2⟩ := closestOnFeature_spec featV0 featE0 (W.val k) hr hpr.2
        refine step c ⟨fun hp => absurd hp hl.not_pinned, fun hf => absurd hf hno, fun _ _ _ => hc2, fun _ hn => absurd hpr hn⟩ ?_
        rw [heval, if_neg hl.not_pinned, if_pos hl.2, if_pos ⟨hpr.1, List.length_pos_iff.mpr hpr.2⟩, hUk, hc1]
        exact hwr c
      · refine step (W.val k) ⟨fun hp => absurd hp hl.not_pinned, fun hf => absurd hf hno, fun _ a b => absurd ⟨a, b⟩ hpr, fun _ _ => rfl⟩ ?_
        rw [heval, if_neg hl.not_pinned, if_pos hl.2, if_neg (by rw [gt_iff_lt, List.length_pos_iff]; exact hpr), ← hUk, Function.update_eq_self, ← h2]
    · have hlen : ¬ (featNbrs fe k).length = 2 := by rw [hf.2]; simp
      refine step (proj (W.val k)) ⟨fun hp => absurd hp hf.not_pinned, fun _ => rfl, fun hl => absurd hl.2 hlen, fun hl => absurd hl.2 hlen⟩ ?_
      rw [heval, if_neg hf.not_pinned, if_neg hlen, hwr]

end

theorem adjListF_ok {F : List Tri} {n : ℕ} (hr : InRange F n) (v : ℕ) :
    (((adjListF F).val v).Nodup ∧ ∀ j, j ∈ (adjListF F).val v ↔ ∃ e ∈ sides F, Undir ⟨v, j⟩ e) ∧ ∀ j ∈ (adjListF F).val v, j < n := by
  have hm : ∀ j, j ∈ (adjListF F).val v ↔ ∃ e ∈ sides F, Undir ⟨v, j⟩ e := by
    intro j
    simp only [adjListF, List.mem_dedup, List.mem_append, List.mem_map, List.mem_filter, decide_eq_true_eq]
    constructor
    · rintro (⟨e, ⟨he, rfl⟩, rfl⟩ | ⟨e, ⟨he, rfl⟩, rfl⟩)
      · exact ⟨e, he, Or.inl rfl⟩
      · exact ⟨e, he, Or.inr rfl⟩
    · rintro ⟨e, he, rfl | rfl⟩
      · exact Or.inl ⟨_, ⟨he, rfl⟩, rfl⟩
      · exact Or.inr ⟨_, ⟨he, rfl⟩, rfl⟩
  refine ⟨⟨List.nodup_dedup _, hm⟩, ?_⟩
  intro j hj
  obtain ⟨e, he, hu⟩ := (hm j).mp hj
  obtain ⟨t, ht, he⟩ := mem_sides_iff.mp he
  obtain ⟨b1, b2, b3⟩ := hr t ht
  simp only [Tri.side, List.mem_cons, List.not_mem_nil, or_false] at he
  rcases hu with rfl | rfl <;> rcases he with h | h | h <;> simp only [Edge.flip, Edge.mk.injEq] at h <;> omega

theorem adjListF_size {F : List Tri} {v : ℕ} (h : 0 < cornerCount F v) : v < (adjListF F).size := by
  unfold cornerCount at h
  rw [List.count_pos_iff] at h
  simp only [List.mem_flatMap, List.mem_cons, List.not_mem_nil, or_false] at h
  obtain ⟨t, ht, h⟩ := h
  have := (foldl_max_ge0 (F.map (fun t => max t.a (max t.b t.c))) 0).2 _ (List.mem_map.mpr ⟨t, ht, rfl⟩)
  have h1 : v ≤ max t.a (max t.b t.c) := by
    rcases h with rfl | rfl | rfl <;> simp
  show v < _ + 1
  omega

end Gpy
