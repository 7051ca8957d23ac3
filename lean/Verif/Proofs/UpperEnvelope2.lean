import Verif.Proofs.UpperEnvelope

set_option autoImplicit false
namespace Gpy

variable {m : ℕ}

/-- What holds of every proper tet during the run. -/
def TetOK (V0 : List (UVert m)) (T : List UTet) (V : List (UVert m)) (t : UTet) : Prop :=
  (∃ t0 ∈ T, UHull V0 V t0 t) ∧ ((∀ t0 ∈ T, 0 ≤ uVol V0 t0) → 0 ≤ uVol V t)

theorem UHull.mono {V0 V V' : List (UVert m)} {t0 t : UTet} (h : V <+: V') (ht : UHull V0 V t0 t) : UHull V0 V' t0 t :=
  ⟨ht.1, fun c hc => by obtain ⟨x, hx, hp⟩ := ht.2 c hc; exact ⟨x, get_prefix h hx, hp⟩⟩

theorem TetOK.uin {V0 V : List (UVert m)} {T : List UTet} {t : UTet} (h : TetOK V0 T V t) : UIn V t := by
  obtain ⟨⟨t0, -, h⟩, -⟩ := h; exact h.uin

theorem TetOK.mono {V0 V V' : List (UVert m)} {T : List UTet} {t : UTet} (h : V <+: V') (ht : TetOK V0 T V t) : TetOK V0 T V' t := by
  obtain ⟨⟨t0, h0, hh⟩, hp⟩ := ht
  exact ⟨⟨t0, h0, hh.mono h⟩, fun hT => by rw [uVol_prefix h hh.uin]; exact hp hT⟩

theorem TetOK.ne_zero {V0 V : List (UVert m)} {T : List UTet} {t : UTet} (h : TetOK V0 T V t) : t ≠ UTet.zero := by
  rintro rfl
  obtain ⟨⟨t0, -, h, -⟩, -⟩ := h
  simp [UTet.zero, UTet.corners] at h

/-- The invariant of the state: proper tets followed by zero rows. -/
def StOK (V0 : List (UVert m)) (T : List UTet) (vol : ℝ) (s : UState m) : Prop :=
  V0 <+: s.V ∧ ∃ (R : List UTet) (n : ℕ), s.F = R ++ List.replicate n UTet.zero ∧ R.length ≤ s.idxF ∧ (n ≠ 0 → R.length = s.idxF) ∧
    (∀ t ∈ R, TetOK V0 T s.V t) ∧ volSum s.V R = vol

/-- During a pass. -/
def PassOK (V0 : List (UVert m)) (T : List UTet) (vol : ℝ) (s : UState m) : Prop :=
  V0 <+: s.V ∧ ∃ (R : List UTet) (n : ℕ), s.F = R ++ List.replicate n UTet.zero ∧ R.length = s.idxF ∧
    (∀ t ∈ R, TetOK V0 T s.V t) ∧ volSum s.V R = vol

theorem uGrow_ok {V0 : List (UVert m)} {T : List UTet} {vol : ℝ} {s : UState m} (nV nF : ℕ) (h : PassOK V0 T vol s) : PassOK V0 T vol (uGrow nV nF s) := by
  obtain ⟨h0, R, n, hF, hR, hok, hv⟩ := h
  unfold uGrow
  dsimp only
  split_ifs
  · exact ⟨h0, R, n + nF, by simp [hF], hR, hok, hv⟩
  · exact ⟨h0, R, n, hF, hR, hok, hv⟩
  · exact ⟨h0, R, n + nF, by simp [hF], hR, hok, hv⟩
  · exact ⟨h0, R, n, hF, hR, hok, hv⟩

theorem uGrow_V (nV nF : ℕ) (s : UState m) : (uGrow nV nF s).V = s.V := by
  unfold uGrow; dsimp only; split_ifs <;> rfl

theorem setBlock_spec {R : List UTet} {n : ℕ} {rows F : List UTet} (h : setBlock (R ++ List.replicate n UTet.zero) R.length rows = some F) :
    ∃ k, F = R ++ rows ++ List.replicate k UTet.zero := by
  unfold setBlock at h
  split_ifs at h with hc
  refine ⟨n - rows.length, ?_⟩
  rw [← Option.some.inj h]
  rw [List.take_left, List.drop_append]
  simp

theorem list_set_append_sum {V : List (UVert m)} {R : List UTet} {k : ℕ} {t t' : UTet} (hk : R[k]? = some t) : volSum V (R.set k t') + |uVol V t| = volSum V R + |uVol V t'| := by
  induction R generalizing k with
  | nil => simp at hk
  | cons a R ih =>
    cases k with
    | zero =>
      have hk : a = t := by simpa using hk
      simp [volSum, hk]; ring
    | succ k =>
      have := ih (k := k) (by simpa using hk)
      simp only [volSum, List.set_cons_succ, List.map_cons, List.sum_cons] at this ⊢
      linarith

theorem uPos_lt {V : List (UVert m)} {t : UTet} (h : UIn V t) {c : ℕ} (hc : c ∈ t.corners) : c < V.length := by
  obtain ⟨x, hx⟩ := h c hc
  exact (List.getElem?_eq_some_iff.mp hx).1

theorem uStep_ok {V0 : List (UVert m)} {T : List UTet} {vol : ℝ} {nV nF : ℕ} {V1 : List (UVert m)} {i j : Fin m} {s s' : UState m × List ((ℕ × ℕ) × ℕ)} {tetid : ℕ}
    (h : PassOK V0 T vol s.1) (h1 : V1 <+: s.1.V) (hm : MidsOK V1.length s.1.V s.2) (hs : uStep nV nF V1 i j s tetid = some s') :
    PassOK V0 T vol s'.1 ∧ V1 <+: s'.1.V ∧ MidsOK V1.length s'.1.V s'.2 := by
  have hg := uGrow_ok nV nF h
  have hgV := uGrow_V nV nF s.1
  unfold uStep at hs
  dsimp only at hs
  generalize uGrow nV nF s.1 = st at hs hg hgV
  rw [← hgV] at h1 hm
  obtain ⟨t, ht, hs⟩ := Option.bind_eq_some_iff.mp hs
  obtain ⟨xs, hxs, hs⟩ := Option.bind_eq_some_iff.mp hs
  split_ifs at hs with hc
  · cases Option.some.inj hs
    exact ⟨hg, h1, hm⟩
  · obtain ⟨r, hr, hs⟩ := Option.bind_eq_some_iff.mp hs
    obtain ⟨tt, htt, hs⟩ := Option.bind_eq_some_iff.mp hs
    obtain ⟨st', hst', hs⟩ := Option.bind_eq_some_iff.mp hs
    cases Option.some.inj hs
    obtain ⟨h0, R, n, hF, hR, hok, hv⟩ := hg
    push Not at hc
    obtain ⟨hc1, hc2, -⟩ := hc
    have hkR : tetid < R.length := by
      by_contra hge
      push Not at hge
      rw [hF, List.getElem?_append_right hge] at ht
      have ht0 : t = UTet.zero := List.eq_of_mem_replicate (List.mem_of_getElem? ht)
      subst ht0
      simp only [UTet.zero, UTet.corners, List.mem_cons, List.not_mem_nil, or_false, or_self, exists_eq_left] at hc1 hc2
      linarith
    have htR : R[tetid]? = some t := by rwa [hF, List.getElem?_append_left hkR] at ht
    have htok := hok t (List.mem_of_getElem? htR)
    obtain ⟨⟨t0, ht0, hh⟩, hpos⟩ := htok
    obtain ⟨m1, m2, m3, new, m4, m5, m6⟩ := uMid_fold (N := V1.length) hh.1 (uCutEdges (labelDiff V1 i j) t) (st.V, s.2, []) r
      (fun e he => uCutEdges_mem he) h1.length_le hm hr
    rw [List.nil_append] at m4
    rw [m4] at htt
    dsimp only at m1
    have hz : ∀ p ∈ (uCutEdges (labelDiff V1 i j) t).zip new, V1.length ≤ p.2 ∧ UOn r.1 p.1 p.2 := fun p hp => m2.1 p (m6 p hp)
    have hznd : (((uCutEdges (labelDiff V1 i j) t).zip new).map Prod.snd).Nodup := by
      have hnd := uCutEdges_nodup (labelDiff V1 i j) hh.1
      refine List.Nodup.map_on ?_ ?_
      · rintro ⟨e, v⟩ hp ⟨e', v'⟩ hp' hvv
        dsimp only at hvv; subst hvv
        rw [umids_inj m2 (m6 _ hp) (m6 _ hp')]
      · refine List.Nodup.of_map Prod.fst ?_
        rw [List.map_fst_zip (by omega)]
        exact hnd
    obtain ⟨q1, q2, q3⟩ := uSplitAll_spec (V0 := V0) (V := r.1) (t0 := t0) ((uCutEdges (labelDiff V1 i j) t).zip new) [t] tt hznd (fun ev hev => (hz ev hev).2)
      (fun u hu => by
        cases List.mem_singleton.mp hu
        refine ⟨hh.mono m1, fun v hv hvt => ?_⟩
        obtain ⟨p, hp, rfl⟩ := List.mem_map.mp hv
        have := uPos_lt (cornerRows_in hxs) hvt
        have := (hz p hp).1
        omega) htt
    have q3 := q3 (by simp)
    have hoT : ∀ u ∈ tt.map (uOrient r.1), TetOK V0 T r.1 u := by
      intro u hu
      obtain ⟨u', hu', rfl⟩ := List.mem_map.mp hu
      refine ⟨⟨t0, ht0, ?_⟩, fun _ => uOrient_nonneg _ _⟩
      have hp := uOrient_corners r.1 u'
      exact ⟨hp.nodup_iff.mpr (q1 u' hu').1, fun c hc => (q1 u' hu').2 c (hp.mem_iff.mp hc)⟩
    have hoV : volSum r.1 (tt.map (uOrient r.1)) = |uVol r.1 t| := by
      have : volSum r.1 (tt.map (uOrient r.1)) = volSum r.1 tt := by
        unfold volSum; rw [List.map_map]; congr 1
        exact List.map_congr_left (fun u _ => uOrient_abs r.1 u)
      rw [this, q2]; simp [volSum]
    unfold uWrite at hst'
    dsimp only at hst'
    generalize tt.map (uOrient r.1) = oo at hst' hoT hoV
    obtain ⟨u0, hu0, hst'⟩ := Option.bind_eq_some_iff.mp hst'
    obtain ⟨l, hl, hst'⟩ := Option.bind_eq_some_iff.mp hst'
    obtain ⟨F', hF', hst'⟩ := Option.bind_eq_some_iff.mp hst'
    obtain ⟨L', hL', hst'⟩ := Option.bind_eq_some_iff.mp hst'
    cases Option.some.inj hst'
    have hoo : oo = u0 :: oo.tail := by
      cases oo with
      | nil => simp at hu0
      | cons a oo => simp only [List.head?_cons, Option.some.injEq] at hu0; simp [hu0]
    refine ⟨⟨h0.trans m1, ?_⟩, h1.trans m1, m2⟩
    rw [hF, List.set_append_left _ _ hkR] at hF'
    have hlen : (R.set tetid u0).length = st.idxF := by rw [List.length_set, hR]
    rw [← hlen] at hF'
    obtain ⟨k, hk⟩ := setBlock_spec hF'
    refine ⟨R.set tetid u0 ++ oo.tail, k, hk, ?_, ?_, ?_⟩
    · rw [List.length_append, hlen]
    · intro u hu
      rcases List.mem_append.mp hu with hu | hu
      · rcases List.mem_or_eq_of_mem_set hu with hu | rfl
        · exact (hok u hu).mono m1
        · exact hoT _ (by rw [hoo]; exact List.mem_cons_self)
      · exact hoT _ (by rw [hoo]; exact List.mem_cons_of_mem _ hu)
    · have e1 := list_set_append_sum (V := r.1) (t' := u0) htR
      have e2 : volSum r.1 R = volSum st.V R := volSum_prefix m1 (fun u hu => (hok u hu).uin)
      rw [hoo] at hoV
      simp only [volSum, List.map_cons, List.sum_cons] at hoV
      rw [volSum_append]
      simp only [volSum] at e1 e2 hv ⊢
      linarith

theorem uPass_fold {V0 : List (UVert m)} {T : List UTet} {vol : ℝ} {nV nF : ℕ} {V1 : List (UVert m)} {i j : Fin m} :
    ∀ (l : List ℕ) (s s' : UState m × List ((ℕ × ℕ) × ℕ)), PassOK V0 T vol s.1 → V1 <+: s.1.V → MidsOK V1.length s.1.V s.2 →
    l.foldlM (uStep nV nF V1 i j) s = some s' → PassOK V0 T vol s'.1 ∧ V1 <+: s'.1.V := by
  intro l
  induction l with
  | nil => intro s s' h h1 _ hs; cases Option.some.inj hs; exact ⟨h, h1⟩
  | cons a l ih =>
    intro s s' h h1 hm hs
    rw [List.foldlM_cons] at hs
    obtain ⟨s1, hs1, hs⟩ := Option.bind_eq_some_iff.mp hs
    obtain ⟨a1, a2, a3⟩ := uStep_ok h h1 hm hs1
    exact ih s1 s' a1 a2 a3 hs

theorem uPass_ok {V0 : List (UVert m)} {T : List UTet} {vol : ℝ} {nV nF : ℕ} {i j : Fin m} {s s' : UState m} (h : StOK V0 T vol s) (hs : uPass nV nF s i j = some s') :
    StOK V0 T vol s' ∧ s.V <+: s'.V := by
  unfold uPass at hs
  split_ifs at hs with hc
  obtain ⟨p, hp, rfl⟩ := Option.map_eq_some_iff.mp hs
  obtain ⟨h0, R, n, hF, hR, hRn, hok, hv⟩ := h
  have hRe : R.length = s.idxF := by
    by_cases hn : n = 0
    · subst hn
      simp only [hF, List.replicate_zero, List.append_nil] at hc
      omega
    · exact hRn hn
  obtain ⟨⟨a0, R', n', a1, a2, a3, a4⟩, b⟩ := uPass_fold (List.range s.idxF) (s, []) p ⟨h0, R, n, hF, hRe, hok, hv⟩ (List.prefix_refl _) ⟨by simp, by simp⟩ hp
  exact ⟨⟨a0, R', n', a1, a2.le, fun _ => a2, a3, a4⟩, b⟩

/-! ## Carving -/

theorem sliceMask_cons {α : Type} (x : α) (l : List α) (b : Bool) (k : List Bool) : sliceMask (x :: l) (b :: k) = if b then x :: sliceMask l k else sliceMask l k := by
  cases b <;> simp [sliceMask]

theorem sliceMask_append {α : Type} {l l' : List α} {k k' : List Bool} (h : l.length = k.length) : sliceMask (l ++ l') (k ++ k') = sliceMask l k ++ sliceMask l' k' := by
  unfold sliceMask
  rw [List.zip_append h]; simp

theorem sliceMask_false {α : Type} (l : List α) : sliceMask l (List.replicate l.length false) = [] := by
  induction l with
  | nil => rfl
  | cons a l ih => rw [List.length_cons, List.replicate_succ, sliceMask_cons, ih]; simp

theorem sliceMask_true {α : Type} (l : List α) : sliceMask l (List.replicate l.length true) = l := by
  induction l with
  | nil => rfl
  | cons a l ih => rw [List.length_cons, List.replicate_succ, sliceMask_cons, ih]; simp

theorem sliceMask_sublist {α : Type} (l : List α) (k : List Bool) : (sliceMask l k).Sublist l := by
  induction l generalizing k with
  | nil => simp [sliceMask]
  | cons a l ih =>
    cases k with
    | nil => simp [sliceMask]
    | cons b k =>
      rw [sliceMask_cons]; split_ifs
      · exact (ih k).cons_cons a
      · exact (ih k).cons a

theorem volSum_slice (V : List (UVert m)) (l : List UTet) (k : List Bool) (h : l.length = k.length) : volSum V (sliceMask l k) + volSum V (sliceMask l (k.map not)) = volSum V l := by
  induction l generalizing k with
  | nil => simp [sliceMask, volSum]
  | cons a l ih =>
    cases k with
    | nil => simp at h
    | cons b k =>
      have := ih k (by simpa using h)
      rw [List.map_cons, sliceMask_cons, sliceMask_cons]
      cases b <;> simp only [volSum, Bool.not_true, Bool.not_false, if_true, if_false, Bool.false_eq_true, List.map_cons, List.sum_cons] at this ⊢ <;> linarith

theorem mapM_zip_range {α : Type} (f : ℕ × α → Option Bool) : ∀ (l : List α) (a : ℕ) (k : List Bool), ((List.range' a l.length).zip l).mapM f = some k →
    k.length = l.length ∧ ∀ i x, l[i]? = some x → ∃ b, k[i]? = some b ∧ f (a + i, x) = some b := by
  intro l
  induction l with
  | nil => intro a k h; simp at h; subst h; simp
  | cons y l ih =>
    intro a k h
    rw [List.length_cons, List.range'_succ, List.zip_cons_cons, List.mapM_cons] at h
    obtain ⟨b, hb, h⟩ := Option.bind_eq_some_iff.mp h
    obtain ⟨k', hk', h⟩ := Option.bind_eq_some_iff.mp h
    cases Option.some.inj h
    obtain ⟨i1, i2⟩ := ih (a + 1) k' hk'
    refine ⟨by simp [i1], ?_⟩
    intro i x hx
    cases i with
    | zero =>
      have : y = x := by simpa using hx
      subst this
      exact ⟨b, by simp, by simpa using hb⟩
    | succ i =>
      obtain ⟨b', h1, h2⟩ := i2 i x (by simpa using hx)
      exact ⟨b', by simpa using h1, by rw [← h2]; congr 2; omega⟩

theorem uFlags_spec {amax : Pt m → Fin m} {mid : Fin m} {s : UState m} {CT : List Bool} (h : uFlags amax mid s = some CT) :
    CT.length = s.F.length ∧ ∀ i t, s.F[i]? = some t → ∃ b, CT[i]? = some b ∧ (b = true → i < s.idxF - 1 ∧ ∃ xs, cornerRows s.V t = some xs ∧ uCarved amax mid xs = true) := by
  unfold uFlags at h
  split_ifs at h
  rw [List.range_eq_range'] at h
  obtain ⟨h1, h2⟩ := mapM_zip_range _ s.F 0 CT h
  refine ⟨h1, fun i t ht => ?_⟩
  obtain ⟨b, hb, hf⟩ := h2 i t ht
  refine ⟨b, hb, fun hbt => ?_⟩
  simp only [zero_add] at hf
  split_ifs at hf with hi
  · obtain ⟨xs, hxs, hx⟩ := Option.map_eq_some_iff.mp hf
    exact ⟨hi, xs, hxs, by rw [hx, hbt]⟩
  · rw [hbt] at hf; simp at hf

theorem mem_sliceMask {α : Type} {l : List α} {k : List Bool} {x : α} (h : x ∈ sliceMask l k) : ∃ i : ℕ, l[i]? = some x ∧ k[i]? = some true := by
  induction l generalizing k with
  | nil => simp [sliceMask] at h
  | cons a l ih =>
    cases k with
    | nil => simp [sliceMask] at h
    | cons b k =>
      rw [sliceMask_cons] at h
      have hrec : x ∈ sliceMask l k → ∃ i : ℕ, (a :: l)[i]? = some x ∧ (b :: k)[i]? = some true := fun h => by
        obtain ⟨i, h1, h2⟩ := ih h; exact ⟨i + 1, by simpa using h1, by simpa using h2⟩
      split_ifs at h with hb
      · rcases List.mem_cons.mp h with rfl | h
        · exact ⟨0, by simp, by simp [hb]⟩
        · exact hrec h
      · exact hrec h

/-- What is known of the rows that were carved out. -/
def Carved (V0 : List (UVert m)) (T : List UTet) (amax : Pt m → Fin m) (V : List (UVert m)) (mid : Fin m) (t : UTet) : Prop :=
  TetOK V0 T V t ∧ ∃ xs, cornerRows V t = some xs ∧ uCarved amax mid xs = true

theorem idxOf_append_zero {R : List UTet} {n : ℕ} (hR : ∀ t ∈ R, t ≠ UTet.zero) (hn : n ≠ 0) : (R ++ List.replicate n UTet.zero).idxOf UTet.zero = R.length := by
  rw [List.idxOf_append_of_notMem (fun h => hR _ h rfl)]
  obtain ⟨k, rfl⟩ := Nat.exists_eq_succ_of_ne_zero hn
  simp [List.replicate_succ]

theorem uCarve_ok {V0 : List (UVert m)} {T : List UTet} {vol : ℝ} {amax : Pt m → Fin m} {mid : Fin m} {s : UState m} {r : UState m × List UTet} (h : StOK V0 T vol s)
    (hr : uCarve amax mid s = some r) :
    r.1.V = s.V ∧ (∀ t ∈ r.2, Carved V0 T amax s.V mid t) ∧ StOK V0 T (vol - volSum s.V r.2) r.1 := by
  unfold uCarve at hr
  obtain ⟨CT, hCT, hr⟩ := Option.bind_eq_some_iff.mp hr
  cases Option.some.inj hr
  obtain ⟨hlen, hfl⟩ := uFlags_spec hCT
  obtain ⟨h0, R, n, hF, hR, hRn, hok, hv⟩ := h
  have hsplit : CT = CT.take R.length ++ List.replicate n false := by
    conv_lhs => rw [← List.take_append_drop R.length CT]
    congr 1
    refine List.eq_replicate_iff.mpr ⟨by rw [List.length_drop, hlen, hF]; simp, ?_⟩
    intro b hb
    obtain ⟨i, hi, rfl⟩ := List.mem_iff_getElem.mp hb
    rw [List.length_drop, hlen, hF, List.length_append, List.length_replicate] at hi
    have hget : s.F[R.length + i]? = some UTet.zero := by
      rw [hF, List.getElem?_append_right (by omega), List.getElem?_replicate]
      simp; omega
    obtain ⟨b, hb1, hb2⟩ := hfl _ _ hget
    rw [List.getElem_drop]
    have : CT[R.length + i]? = some b := hb1
    obtain ⟨hlt, e⟩ := List.getElem?_eq_some_iff.mp this
    rw [e]
    by_contra hbt
    have hb3 := (hb2 (by simpa using hbt)).1
    have := hRn (by omega)
    omega
  have hlt : R.length = (CT.take R.length).length := by
    rw [List.length_take, hlen, hF]; simp
  have hcar : sliceMask s.F CT = sliceMask R (CT.take R.length) := by
    conv_lhs => rw [hF, hsplit]
    rw [sliceMask_append hlt]
    have := sliceMask_false (List.replicate n UTet.zero)
    rw [List.length_replicate] at this
    rw [this, List.append_nil]
  have hrest : sliceMask s.F (CT.map not) = sliceMask R ((CT.take R.length).map not) ++ List.replicate n UTet.zero := by
    conv_lhs => rw [hF, hsplit]
    rw [List.map_append, sliceMask_append (by rw [List.length_map]; exact hlt)]
    have := sliceMask_true (List.replicate n UTet.zero)
    rw [List.length_replicate] at this
    rw [List.map_replicate]; simp only [Bool.not_false]; rw [this]
  refine ⟨rfl, ?_, h0, sliceMask R ((CT.take R.length).map not), n, hrest, ?_, ?_, ?_, ?_⟩
  · intro t ht
    dsimp only at ht
    have htR : t ∈ R := by rw [hcar] at ht; exact (sliceMask_sublist _ _).subset ht
    obtain ⟨i, hi1, hi2⟩ := mem_sliceMask ht
    obtain ⟨b, hb1, hb2⟩ := hfl i t hi1
    rw [hi2] at hb1
    cases Option.some.inj hb1
    exact ⟨hok t htR, (hb2 rfl).2⟩
  · dsimp only
    rw [hrest]
    split_ifs with hz
    · by_cases hn : n = 0
      · subst hn
        exfalso
        simp only [List.replicate_zero, List.append_nil] at hz
        exact (hok _ ((sliceMask_sublist _ _).subset hz)).ne_zero rfl
      · rw [idxOf_append_zero (fun t ht => (hok t ((sliceMask_sublist _ _).subset ht)).ne_zero) hn]
    · exact (sliceMask_sublist _ _).length_le.trans hR
  · intro hn
    dsimp only
    rw [hrest, if_pos (List.mem_append_right _ (List.mem_replicate.mpr ⟨hn, rfl⟩)),
      idxOf_append_zero (fun t ht => (hok t ((sliceMask_sublist _ _).subset ht)).ne_zero) hn]
  · exact fun t ht => hok t ((sliceMask_sublist _ _).subset ht)
  · dsimp only
    rw [hcar]
    have := volSum_slice s.V R (CT.take R.length) hlt
    linarith

/-! ## The run -/

/-- The invariant of the outer loop: `acc` and `lab` are the rows from 1 on of the output arrays. -/
def RunOK (V0 : List (UVert m)) (T : List UTet) (amax : Pt m → Fin m) (vol : ℝ) (s : UState m × List UTet × List (Fin m → Bool)) : Prop :=
  ∃ ts : List (UTet × Fin m), s.2.1 = UTet.zero :: ts.map Prod.fst ∧ s.2.2 = (fun _ => false) :: ts.map (fun p => fun j => decide (j = p.2)) ∧
    (∀ p ∈ ts, Carved V0 T amax s.1.V p.2 p.1) ∧ StOK V0 T (vol - volSum s.1.V (ts.map Prod.fst)) s.1

theorem cornerRows_prefix {V V' : List (UVert m)} (h : V <+: V') {t : UTet} {xs : List (UVert m)} (hx : cornerRows V t = some xs) : cornerRows V' t = some xs := by
  obtain ⟨p, q, r, s, rfl, h1, h2, h3, h4⟩ := cornerRows_spec hx
  unfold cornerRows
  simp only [UTet.corners, List.mapM_cons, List.mapM_nil, get_prefix h h1, get_prefix h h2, get_prefix h h3, get_prefix h h4]
  rfl

theorem Carved.mono {V0 V V' : List (UVert m)} {T : List UTet} {amax : Pt m → Fin m} {mid : Fin m} {t : UTet} (h : V <+: V') (ht : Carved V0 T amax V mid t) : Carved V0 T amax V' mid t := by
  obtain ⟨a, xs, b, c⟩ := ht
  exact ⟨a.mono h, xs, cornerRows_prefix h b, c⟩

theorem uPasses_ok {V0 : List (UVert m)} {T : List UTet} {vol : ℝ} {nV nF : ℕ} {L0 : UState m} {mid : Fin m} : ∀ (js : List (Fin m)) (s s' : UState m), StOK V0 T vol s →
    js.foldlM (fun st j => if uBoth L0 mid j then uPass nV nF st mid j else some st) s = some s' → StOK V0 T vol s' ∧ s.V <+: s'.V := by
  intro js
  induction js with
  | nil => intro s s' h hs; cases Option.some.inj hs; exact ⟨h, List.prefix_refl _⟩
  | cons j js ih =>
    intro s s' h hs
    rw [List.foldlM_cons] at hs
    obtain ⟨s1, hs1, hs⟩ := Option.bind_eq_some_iff.mp hs
    have : StOK V0 T vol s1 ∧ s.V <+: s1.V := by
      split_ifs at hs1
      · exact uPass_ok h hs1
      · cases Option.some.inj hs1; exact ⟨h, List.prefix_refl _⟩
    obtain ⟨a, b⟩ := ih s1 s' this.1 hs
    exact ⟨a, this.2.trans b⟩

theorem uMaterial_ok {V0 : List (UVert m)} {T : List UTet} {amax : Pt m → Fin m} {vol : ℝ} {nV nF : ℕ} {mid : Fin m} {s s' : UState m × List UTet × List (Fin m → Bool)}
    (h : RunOK V0 T amax vol s) (hs : uMaterial amax nV nF s mid = some s') : RunOK V0 T amax vol s' := by
  unfold uMaterial at hs
  dsimp only at hs
  obtain ⟨st, hst, hs⟩ := Option.bind_eq_some_iff.mp hs
  obtain ⟨r, hr, hs⟩ := Option.bind_eq_some_iff.mp hs
  cases Option.some.inj hs
  obtain ⟨ts, h1, h2, h3, h4⟩ := h
  obtain ⟨a, b⟩ := uPasses_ok _ _ _ h4 hst
  obtain ⟨c, d, e⟩ := uCarve_ok a hr
  refine ⟨ts ++ r.2.map (fun t => (t, mid)), ?_, ?_, ?_, ?_⟩
  · dsimp only; rw [h1]; simp [Function.comp_def]
  · dsimp only; rw [h2]
    simp only [List.map_append, List.map_map, List.cons_append]
    congr 2
    refine (List.eq_replicate_iff.mpr ⟨by simp, fun l hl => ?_⟩).symm
    obtain ⟨t, -, rfl⟩ := List.mem_map.mp hl
    rfl
  · intro p hp
    dsimp only
    rw [c]
    rcases List.mem_append.mp hp with hp | hp
    · exact (h3 p hp).mono b
    · obtain ⟨t, ht, rfl⟩ := List.mem_map.mp hp
      exact d t ht
  · dsimp only
    rw [List.map_append, volSum_append, List.map_map]
    have e1 : r.2.map (Prod.fst ∘ fun t => (t, mid)) = r.2 := by simp [Function.comp_def]
    rw [e1, c, ← sub_sub]
    have e2 : volSum st.V (ts.map Prod.fst) = volSum s.1.V (ts.map Prod.fst) := volSum_prefix b (fun t ht => by
      obtain ⟨p, hp, rfl⟩ := List.mem_map.mp ht
      exact (h3 p hp).1.uin)
    rw [e2]
    exact e

theorem uRun_ok {V0 : List (UVert m)} {T : List UTet} {amax : Pt m → Fin m} {vol : ℝ} {nV nF : ℕ} : ∀ (l : List (Fin m)) (s s' : UState m × List UTet × List (Fin m → Bool)),
    RunOK V0 T amax vol s → l.foldlM (uMaterial amax nV nF) s = some s' → RunOK V0 T amax vol s' := by
  intro l
  induction l with
  | nil => intro s s' h hs; cases Option.some.inj hs; exact h
  | cons a l ih =>
    intro s s' h hs
    rw [List.foldlM_cons] at hs
    obtain ⟨s1, hs1, hs⟩ := Option.bind_eq_some_iff.mp hs
    exact ih s1 s' (uMaterial_ok h hs1) hs

theorem upperEnvelope_run {amax : Pt m → Fin m} {V : List (UVert m)} {T : List UTet} {U : List (Pt 3)} {G : List UTet} {L : List (Fin m → Bool)}
    (hT : ∀ t ∈ T, t.corners.Nodup) (h : upperEnvelope amax V T = some (U, G, L)) :
    ∃ (V' : List (UVert m)) (ts : List (UTet × Fin m)), V <+: V' ∧ U = V'.map (fun x => x.1) ∧ G = (UTet.zero :: ts.map Prod.fst).dropLast ∧
      L = ((fun _ => false) :: ts.map (fun p => fun j => decide (j = p.2))).dropLast ∧ (∀ p ∈ ts, Carved V T amax V' p.2 p.1) ∧
      volSum V' (ts.map Prod.fst) ≤ volSum V T ∧ T ≠ [] ∧ (∀ t ∈ T, UIn V t) := by
  unfold upperEnvelope at h
  split_ifs at h with hne
  obtain ⟨L0, hL0, h⟩ := Option.bind_eq_some_iff.mp h
  obtain ⟨r, hr, h⟩ := Option.bind_eq_some_iff.mp h
  have hin : ∀ t ∈ T, UIn V t := by
    have gen : ∀ (l : List UTet) (k : List (Fin m → Bool)), l.mapM (uQuick amax V) = some k → ∀ t ∈ l, UIn V t := by
      intro l
      induction l with
      | nil => intro k _ t ht; simp at ht
      | cons a l ih =>
        intro k hk t ht
        rw [List.mapM_cons] at hk
        obtain ⟨b, hb, hk⟩ := Option.bind_eq_some_iff.mp hk
        obtain ⟨k', hk', hk⟩ := Option.bind_eq_some_iff.mp hk
        rcases List.mem_cons.mp ht with rfl | ht
        · unfold uQuick at hb
          obtain ⟨xs, hxs, hb⟩ := Option.bind_eq_some_iff.mp hb
          exact cornerRows_in hxs
        · exact ih k' hk' t ht
    exact gen T L0 hL0
  have hinit : RunOK V T amax (volSum V T) ((⟨V, V.length, T, L0, T.length⟩ : UState m), [UTet.zero], [fun _ => false]) := by
    refine ⟨[], rfl, rfl, by simp, List.prefix_refl _, T, 0, by simp, le_refl _, by simp, ?_, by simp [volSum]⟩
    intro t ht
    refine ⟨⟨t, ht, hT t ht, fun c hc => ?_⟩, fun hpos => hpos t ht⟩
    obtain ⟨x, hx⟩ := hin t ht c hc
    exact ⟨x, hx, pointOf_corner (fun i => hin t ht _ (uat_mem' t i)) hc hx⟩
  obtain ⟨ts, h1, h2, h3, hpre, R, n, -, -, -, -, hv⟩ := uRun_ok _ _ _ hinit hr
  have hU : (r.1.V.map (fun x => x.1), r.2.1.dropLast, r.2.2.dropLast) = (U, G, L) := Option.some.inj h
  simp only [Prod.mk.injEq] at hU
  obtain ⟨rfl, rfl, rfl⟩ := hU
  refine ⟨r.1.V, ts, hpre, rfl, by rw [h1], by rw [h2], h3, ?_, hne, hin⟩
  have := volSum_nonneg r.1.V R
  linarith

theorem uCarved_wins {amax : Pt m → Fin m} (hamax : ∀ (f : Pt m) j, f j ≤ f (amax f)) {mid : Fin m} {xs : List (UVert m)} (h : uCarved amax mid xs = true) : ∀ x ∈ xs, Wins mid x.2 := by
  intro x hx j
  have h := of_decide_eq_true h
  have hp : (0 : ℝ) < 1 / 10 ^ 5 := by norm_num
  rcases h with h | h
  · have := hamax x.2 j
    rw [h x hx] at this
    linarith
  · by_cases hj : j = mid
    · rw [hj]; linarith
    rcases h j hj with h | h
    · linarith [h x hx]
    · by_cases hpos : 0 < x.2 j - x.2 mid
      · have := h x hx hpos
        rw [abs_of_pos hpos] at this
        linarith
      · linarith

theorem wins_comb {mid : Fin m} {w : Fin 4 → ℝ} (hw : Bary w) {l : Fin 4 → Pt m} (h : ∀ i, Wins mid (l i)) : Wins mid (bary w l) := by
  intro j
  have h1 : bary w l j ≤ ∑ i, w i * (l i mid + 1 / 10 ^ 5) := Finset.sum_le_sum (fun i _ => mul_le_mul_of_nonneg_left (h i j) (hw.1 i))
  have h2 : ∑ i, w i * (l i mid + 1 / 10 ^ 5) = bary w l mid + 1 / 10 ^ 5 := by
    simp only [mul_add, Finset.sum_add_distrib, ← Finset.sum_mul, hw.2, bary, one_mul]
  linarith

end Gpy
