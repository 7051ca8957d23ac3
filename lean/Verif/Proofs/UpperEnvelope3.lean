import Verif.Proofs.UpperEnvelope2

set_option autoImplicit false
namespace Gpy

variable {m : ℕ}

theorem umapM_map {α β : Type} {f : α → Option β} {g : α → β} : ∀ {l : List α}, (∀ x ∈ l, f x = some (g x)) → l.mapM f = some (l.map g) := by
  intro l
  induction l with
  | nil => intro _; rfl
  | cons a l ih =>
    intro h
    rw [List.mapM_cons, h a (by simp), ih (fun x hx => h x (List.mem_cons_of_mem _ hx))]
    rfl

theorem slice_take {α : Type} : ∀ (l : List α) (a c : ℕ), sliceMask l (((List.range' a l.length).zip l).map (fun p => decide (p.1 < c))) = l.take (c - a) ∧
    sliceMask l ((((List.range' a l.length).zip l).map (fun p => decide (p.1 < c))).map not) = l.drop (c - a) := by
  intro l
  induction l with
  | nil => intro a c; simp [sliceMask]
  | cons x l ih =>
    intro a c
    obtain ⟨i1, i2⟩ := ih (a + 1) c
    rw [List.length_cons, List.range'_succ, List.zip_cons_cons, List.map_cons, List.map_cons, sliceMask_cons, sliceMask_cons, i1, i2]
    by_cases h : a < c
    · obtain ⟨k, hk⟩ : ∃ k, c - a = k + 1 := ⟨c - a - 1, by omega⟩
      have hk' : c - (a + 1) = k := by omega
      simp [h, hk, hk']
    · have hk : c - a = 0 := by omega
      have hk' : c - (a + 1) = 0 := by omega
      simp [h, hk, hk']

theorem uCarve_take {amax : Pt m → Fin m} {mid : Fin m} {s : UState m} (hle : s.idxF - 1 ≤ s.F.length)
    (h : ∀ t ∈ s.F.take (s.idxF - 1), ∃ xs, cornerRows s.V t = some xs ∧ uCarved amax mid xs = true) :
    ∃ L, (∀ l ∈ L, l ∈ s.L) ∧ uCarve amax mid s = some (⟨s.V, s.capV, s.F.drop (s.idxF - 1), L,
      if UTet.zero ∈ s.F.drop (s.idxF - 1) then (s.F.drop (s.idxF - 1)).idxOf UTet.zero else s.idxF⟩, s.F.take (s.idxF - 1)) := by
  have hf : uFlags amax mid s = some (((List.range' 0 s.F.length).zip s.F).map (fun p => decide (p.1 < s.idxF - 1))) := by
    unfold uFlags
    rw [if_neg (by omega), List.range_eq_range']
    refine umapM_map ?_
    rintro ⟨i, t⟩ hp
    dsimp only
    split_ifs with hi
    · have ht : t ∈ s.F.take (s.idxF - 1) := by
        obtain ⟨k, hk, e⟩ := List.mem_iff_getElem.mp hp
        rw [List.getElem_zip, Prod.mk.injEq, List.getElem_range'] at e
        obtain ⟨e1, e2⟩ := e
        rw [List.mem_take_iff_getElem]
        exact ⟨k, by rw [List.length_zip, List.length_range'] at hk; omega, e2⟩
      obtain ⟨xs, hxs, hc⟩ := h t ht
      rw [hxs, Option.map_some, hc]; simp [hi]
    · simp [hi]
  unfold uCarve
  rw [hf]
  simp only [Option.bind_eq_bind, Option.bind_some]
  obtain ⟨h1, h2⟩ := slice_take s.F 0 (s.idxF - 1)
  rw [Nat.sub_zero] at h1 h2
  rw [h1, h2]
  exact ⟨_, fun l hl => (sliceMask_sublist _ _).subset hl, rfl⟩

theorem cornerRows_some {V : List (UVert m)} {t : UTet} (h : UIn V t) : ∃ xs, cornerRows V t = some xs ∧ (∀ x ∈ xs, x ∈ V) ∧ ∃ x ys, xs = x :: ys ∧ ys.length = 3 ∧ ∀ z ∈ xs, ∃ c ∈ t.corners, V[c]? = some z := by
  simp only [UIn, UTet.corners, List.mem_cons, List.not_mem_nil, or_false, forall_eq_or_imp, forall_eq] at h
  obtain ⟨⟨p, hp⟩, ⟨q, hq⟩, ⟨r, hr⟩, ⟨s, hs⟩⟩ := h
  refine ⟨[p, q, r, s], ?_, ?_, p, [q, r, s], rfl, rfl, ?_⟩
  · unfold cornerRows
    simp only [UTet.corners, List.mapM_cons, List.mapM_nil, hp, hq, hr, hs]
    rfl
  · intro x hx
    simp only [List.mem_cons, List.not_mem_nil, or_false] at hx
    rcases hx with rfl | rfl | rfl | rfl
    · exact List.mem_of_getElem? hp
    · exact List.mem_of_getElem? hq
    · exact List.mem_of_getElem? hr
    · exact List.mem_of_getElem? hs
  · intro x hx
    simp only [List.mem_cons, List.not_mem_nil, or_false] at hx
    rcases hx with rfl | rfl | rfl | rfl
    · exact ⟨t.a, by simp [UTet.corners], hp⟩
    · exact ⟨t.b, by simp [UTet.corners], hq⟩
    · exact ⟨t.c, by simp [UTet.corners], hr⟩
    · exact ⟨t.d, by simp [UTet.corners], hs⟩

/-- All corners of the tet prefer the material `i0`. -/
def AllPrefer (amax : Pt m → Fin m) (V : List (UVert m)) (i0 : Fin m) (t : UTet) : Prop := ∀ c ∈ t.corners, ∃ x, V[c]? = some x ∧ amax x.2 = i0

theorem uQuick_prefer {amax : Pt m → Fin m} (hm : 2 ≤ m) {V : List (UVert m)} {i0 : Fin m} {t : UTet} (h : AllPrefer amax V i0 t) :
    uQuick amax V t = some (fun j => decide (j = i0)) := by
  obtain ⟨xs, hxs, -, x, ys, rfl, -, hz⟩ := cornerRows_some (V := V) (t := t) (fun c hc => by obtain ⟨x, hx, -⟩ := h c hc; exact ⟨x, hx⟩)
  have hz' : ∀ z ∈ x :: ys, amax z.2 = i0 := fun z hz0 => by
    obtain ⟨c, hc, e⟩ := hz z hz0
    obtain ⟨x', hx', hp⟩ := h c hc
    rw [e] at hx'; cases Option.some.inj hx'; exact hp
  unfold uQuick
  rw [hxs]
  simp only [Option.bind_eq_bind, Option.bind_some, List.map_cons, List.head?_cons]
  rw [hz' x (by simp), if_pos]
  refine ⟨by omega, fun i hi => ?_⟩
  rcases List.mem_cons.mp hi with rfl | hi
  · rfl
  · obtain ⟨z, hzm, rfl⟩ := List.mem_map.mp hi
    exact hz' z (List.mem_cons_of_mem _ hzm)

theorem uBoth_false {s : UState m} {i0 i j : Fin m} (hij : i ≠ j) (h : ∀ l ∈ s.L, l = fun j => decide (j = i0)) : uBoth s i j = false := by
  unfold uBoth
  rw [Bool.and_eq_false_iff]
  right
  rw [List.any_eq_false]
  intro l hl
  rw [h l hl]
  simp only [Bool.and_eq_true, decide_eq_true_eq, not_and]
  intro e e'
  exact hij (e.trans e'.symm)

theorem uPasses_none {amax : Pt m → Fin m} {nV nF : ℕ} {L0 s : UState m} {i0 mid : Fin m} (h : ∀ l ∈ L0.L, l = fun j => decide (j = i0)) :
    ∀ (js : List (Fin m)), (∀ j ∈ js, mid ≠ j) → js.foldlM (fun st j => if uBoth L0 mid j then uPass nV nF st mid j else some st) s = some s := by
  intro js
  induction js with
  | nil => intro _; rfl
  | cons j js ih =>
    intro hj
    rw [List.foldlM_cons, uBoth_false (hj j (by simp)) h]
    simp only [Bool.false_eq_true, if_false, Option.bind_eq_bind, Option.bind_some]
    exact ih (fun j' hj' => hj j' (List.mem_cons_of_mem _ hj'))

theorem uPairs_ne (mid : Fin m) : ∀ j ∈ (List.finRange m).filter (fun j => decide (mid < j)), mid ≠ j := fun j hj => by
  have := of_decide_eq_true (List.mem_filter.mp hj).2
  exact ne_of_lt this

theorem umaterial_uniform {amax : Pt m → Fin m} {nV nF : ℕ} {i0 mid : Fin m} {s : UState m × List UTet × List (Fin m → Bool)} (h : ∀ l ∈ s.1.L, l = fun j => decide (j = i0)) :
    uMaterial amax nV nF s mid = (uCarve amax mid s.1).map (fun r => (r.1, s.2.1 ++ r.2, s.2.2 ++ List.replicate r.2.length (fun j => decide (j = mid)))) := by
  unfold uMaterial
  dsimp only
  rw [uPasses_none (amax := amax) h _ (uPairs_ne mid)]
  simp only [Option.bind_eq_bind, Option.bind_some]
  cases uCarve amax mid s.1 <;> rfl

/-- A mesh of one tet which prefers one material: no tet is returned. -/
theorem upperEnvelope_single {amax : Pt m → Fin m} (hm : 2 ≤ m) {V : List (UVert m)} {i0 : Fin m} {t : UTet} (hn : t.corners.Nodup) (h : AllPrefer amax V i0 t) :
    upperEnvelope amax V [t] = some (V.map (fun x => x.1), [], []) := by
  unfold upperEnvelope
  rw [if_neg (by simp)]
  have hq : [t].mapM (uQuick amax V) = some [fun j => decide (j = i0)] := by
    rw [List.mapM_cons, uQuick_prefer hm h]; rfl
  rw [hq]
  simp only [Option.bind_eq_bind, Option.bind_some]
  have hz : t ≠ UTet.zero := by rintro rfl; simp [UTet.zero, UTet.corners] at hn
  have gen : ∀ (l : List (Fin m)) (L : List (Fin m → Bool)), (∀ x ∈ L, x = fun j => decide (j = i0)) →
      ∃ L', l.foldlM (uMaterial amax V.length [t].length) ((⟨V, V.length, [t], L, [t].length⟩ : UState m), [UTet.zero], [fun _ => false]) =
        some ((⟨V, V.length, [t], L', [t].length⟩ : UState m), [UTet.zero], [fun _ => false]) := by
    intro l
    induction l with
    | nil => intro L _; exact ⟨L, rfl⟩
    | cons a l ih =>
      intro L hL
      rw [List.foldlM_cons, umaterial_uniform (i0 := i0) (by exact hL)]
      obtain ⟨L', hL', hc⟩ := uCarve_take (amax := amax) (mid := a) (s := (⟨V, V.length, [t], L, [t].length⟩ : UState m)) (by simp) (by simp)
      rw [hc]
      have hz' : ¬ UTet.zero ∈ List.drop ([t].length - 1) [t] := by simpa using hz.symm
      simp only [List.length_cons, List.length_nil, zero_add, Nat.sub_self, List.drop_zero, List.take_zero, List.append_nil, List.replicate_zero, Option.map_some,
        Option.bind_eq_bind, Option.bind_some, List.mem_singleton, hz.symm, if_false]
      exact ih L' (fun x hx => hL x (hL' x hx))
  obtain ⟨L', hL'⟩ := gen (List.finRange m) [fun j => decide (j = i0)] (by simp)
  rw [hL']
  rfl

/-- At least three tets, all preferring the first material: an index is out of range. -/
theorem upperEnvelope_stale {amax : Pt (m + 2) → Fin (m + 2)} {V : List (UVert (m + 2))} {T : List UTet} (h3 : 3 ≤ T.length) (hn : ∀ t ∈ T, t.corners.Nodup)
    (h : ∀ t ∈ T, AllPrefer amax V 0 t) : upperEnvelope amax V T = none := by
  unfold upperEnvelope
  rw [if_neg (by rintro rfl; simp at h3)]
  have hq : T.mapM (uQuick amax V) = some (T.map (fun _ => fun j => decide (j = 0))) := umapM_map (fun t ht => uQuick_prefer (by omega) (h t ht))
  rw [hq]
  simp only [Option.bind_eq_bind, Option.bind_some]
  have hL : ∀ x ∈ T.map (fun _ => fun j : Fin (m + 2) => decide (j = 0)), x = fun j => decide (j = 0) := fun x hx => by
    obtain ⟨t, -, rfl⟩ := List.mem_map.mp hx; rfl
  rw [List.finRange_succ, List.foldlM_cons, umaterial_uniform (i0 := 0) (by exact hL)]
  obtain ⟨L', hL', hc⟩ := uCarve_take (amax := amax) (mid := 0) (s := (⟨V, V.length, T, T.map (fun _ => fun j => decide (j = 0)), T.length⟩ : UState (m + 2)))
    (by dsimp only; omega) (by
      intro t ht
      have ht := List.mem_of_mem_take ht
      obtain ⟨xs, hxs, -, -, -, -, -, hz⟩ := cornerRows_some (V := V) (t := t) (fun c hc => by obtain ⟨x, hx, -⟩ := h t ht c hc; exact ⟨x, hx⟩)
      refine ⟨xs, hxs, decide_eq_true (Or.inl fun x hx => ?_)⟩
      obtain ⟨c, hc, e⟩ := hz x hx
      obtain ⟨x', hx', hp⟩ := h t ht c hc
      rw [e] at hx'; cases Option.some.inj hx'; exact hp)
  rw [hc]
  have hz' : ¬ UTet.zero ∈ T.drop (T.length - 1) := fun hmem => by
    have := hn _ (List.mem_of_mem_drop hmem)
    simp [UTet.zero, UTet.corners] at this
  simp only [hz', if_false, Option.map_some, Option.bind_eq_bind, Option.bind_some]
  rw [List.finRange_succ, List.map_cons, List.foldlM_cons, umaterial_uniform (i0 := 0) (fun x hx => hL x (hL' x hx))]
  have : ∀ (mid : Fin (m + 2)) (L : List (Fin (m + 2) → Bool)), uCarve amax mid (⟨V, V.length, T.drop (T.length - 1), L, T.length⟩ : UState (m + 2)) = none := by
    intro mid L
    unfold uCarve uFlags
    rw [if_pos (by dsimp only; rw [List.length_drop]; omega)]
    rfl
  rw [this]
  rfl

/-! ## Two materials, no cut needed -/

theorem uCutEdges_nil {d : ℕ → ℝ} {t : UTet} (h : ∀ c ∈ t.corners, -(1 / 10 ^ 5) < d c) : uCutEdges d t = [] := by
  rw [List.eq_nil_iff_forall_not_mem]
  intro e he
  have hm := uCutEdges_mem he
  unfold uCutEdges at he
  rw [List.mem_mergeSort, List.mem_filter] at he
  have h' := of_decide_eq_true he.2
  have h1 := h _ hm.1
  have h2 := h _ hm.2.1
  rcases h'.1 with ⟨a, b⟩ | ⟨a, b⟩
  · apply h'.2.1; rw [abs_of_neg a]; linarith
  · apply h'.2.2; rw [abs_of_neg b]; linarith

theorem uPass_quiet {V : List (UVert m)} {T : List UTet} {i j : Fin m} (nV : ℕ) (hin : ∀ t ∈ T, UIn V t) (h : ∀ x ∈ V, x.2 j - x.2 i < 1 / 10 ^ 5) :
    ∀ (l : List ℕ) (capV k : ℕ) (L : List (Fin m → Bool)), (∀ a ∈ l, a < T.length) → 
    ∃ capV' k' L', k ≤ k' ∧ (l ≠ [] → k' ≠ 0) ∧ l.foldlM (uStep nV T.length V i j) ((⟨V, capV, T ++ List.replicate k UTet.zero, L, T.length⟩ : UState m), []) =
      some ((⟨V, capV', T ++ List.replicate k' UTet.zero, L', T.length⟩ : UState m), []) := by
  intro l
  induction l with
  | nil => intro capV k L _; exact ⟨capV, k, L, le_refl _, by simp, rfl⟩
  | cons a l ih =>
    intro capV k L hl
    have ha := hl a (by simp)
    have hg : ∃ capV' k' L', k ≤ k' ∧ k' ≠ 0 ∧ uGrow nV T.length (⟨V, capV, T ++ List.replicate k UTet.zero, L, T.length⟩ : UState m) = ⟨V, capV', T ++ List.replicate k' UTet.zero, L', T.length⟩ := by
      unfold uGrow
      dsimp only
      by_cases hk : k = 0
      · subst hk
        refine ⟨if V.length + 10 + 1 > capV then capV + nV else capV, T.length, L ++ List.replicate T.length (fun _ => false), by omega, by omega, ?_⟩
        split_ifs <;> simp_all <;> omega
      · by_cases hc2 : T.length + 10 + 1 > (T ++ List.replicate k UTet.zero).length
        · refine ⟨if V.length + 10 + 1 > capV then capV + nV else capV, k + T.length, L ++ List.replicate T.length (fun _ => false), by omega, by omega, ?_⟩
          split_ifs <;> simp_all
        · refine ⟨if V.length + 10 + 1 > capV then capV + nV else capV, k, L, by omega, hk, ?_⟩
          split_ifs <;> simp_all
    obtain ⟨c1, k1, L1, hk1, hk0, hg⟩ := hg
    have hst : uStep nV T.length V i j ((⟨V, capV, T ++ List.replicate k UTet.zero, L, T.length⟩ : UState m), []) a = some ((⟨V, c1, T ++ List.replicate k1 UTet.zero, L1, T.length⟩ : UState m), []) := by
      unfold uStep
      dsimp only
      rw [hg]
      have hget : (T ++ List.replicate k1 UTet.zero)[a]? = some T[a] := by rw [List.getElem?_append_left ha]; simp
      obtain ⟨xs, hxs, -, -⟩ := cornerRows_some (hin T[a] (List.getElem_mem _))
      simp only [hget, hxs, Option.bind_eq_bind, Option.bind_some]
      rw [if_pos]
      right; right
      refine uCutEdges_nil (fun c hc => ?_)
      obtain ⟨x, hx⟩ := hin T[a] (List.getElem_mem _) c hc
      have := h x (List.mem_of_getElem? hx)
      simp only [labelDiff, hx, Option.map_some, Option.getD_some]
      linarith
    rw [List.foldlM_cons, hst]
    simp only [Option.bind_eq_bind, Option.bind_some]
    obtain ⟨c2, k2, L2, h1, -, h2⟩ := ih c1 k1 L1 (fun b hb => hl b (List.mem_cons_of_mem _ hb))
    exact ⟨c2, k2, L2, hk1.trans h1, fun _ => by omega, h2⟩

theorem upperEnvelope_quiet {amax : Pt 2 → Fin 2} {V : List (UVert 2)} {T : List UTet} (hn : ∀ t ∈ T, t.corners.Nodup) (hin : ∀ t ∈ T, UIn V t)
    (h : ∀ x ∈ V, x.2 1 - x.2 0 < 1 / 10 ^ 5) {t1 : UTet} (ht1 : t1 ∈ T) {c c' : ℕ} (hc : c ∈ t1.corners) (hc' : c' ∈ t1.corners) {x x' : UVert 2}
    (hx : V[c]? = some x) (hx' : V[c']? = some x') (hxx : amax x.2 ≠ amax x'.2) :
    upperEnvelope amax V T = some (V.map (fun x => x.1), (UTet.zero :: T.take (T.length - 1)).dropLast,
      ((fun _ => false) :: List.replicate (T.length - 1) (fun j => decide (j = 0))).dropLast) := by
  have hT : T ≠ [] := List.ne_nil_of_mem ht1
  have hT0 : 0 < T.length := List.length_pos_iff.mpr hT
  unfold upperEnvelope
  rw [if_neg hT]
  have hq : ∀ t ∈ T, ∃ l, uQuick amax V t = some l ∧ (t = t1 → l = fun _ => true) := by
    intro t ht
    obtain ⟨xs, hxs, -, z, zs, rfl, -, -⟩ := cornerRows_some (hin t ht)
    unfold uQuick
    rw [hxs]
    simp only [Option.bind_eq_bind, Option.bind_some, List.map_cons, List.head?_cons]
    refine ⟨_, rfl, fun e => ?_⟩
    rw [if_neg]
    rintro ⟨-, hall⟩
    subst e
    have m1 := cornerRows_mem hxs hc hx
    have m2 := cornerRows_mem hxs hc' hx'
    have a1 : ∀ y ∈ z :: zs, amax y.2 = amax z.2 := fun y hy => hall _ (by rw [← List.map_cons (f := fun x : UVert 2 => amax x.2)]; exact List.mem_map.mpr ⟨y, hy, rfl⟩)
    exact hxx ((a1 _ m1).trans (a1 _ m2).symm)
  choose! g hg1 hg2 using hq
  have hqm : T.mapM (uQuick amax V) = some (T.map g) := umapM_map (fun t ht => hg1 t ht)
  rw [hqm]
  simp only [Option.bind_eq_bind, Option.bind_some]
  have hfr : List.finRange 2 = [0, 1] := by decide
  rw [hfr, List.foldlM_cons]
  have hboth : uBoth (⟨V, V.length, T, T.map g, T.length⟩ : UState 2) 0 1 = true := by
    unfold uBoth
    rw [Bool.and_eq_true, List.any_eq_true, List.any_eq_true]
    have : (fun _ => true) ∈ T.map g := List.mem_map.mpr ⟨t1, ht1, hg2 t1 ht1 rfl⟩
    exact ⟨⟨_, this, rfl⟩, ⟨_, this, rfl⟩⟩
  obtain ⟨c1, k1, L1, -, hk1, hp⟩ := uPass_quiet (i := 0) (j := 1) V.length hin h (List.range T.length) V.length 0 (T.map g) (fun a ha => List.mem_range.mp ha)
  have hk1 := hk1 (by simpa using hT)
  rw [List.replicate_zero, List.append_nil] at hp
  have hpass : uPass V.length T.length (⟨V, V.length, T, T.map g, T.length⟩ : UState 2) 0 1 = some (⟨V, c1, T ++ List.replicate k1 UTet.zero, L1, T.length⟩ : UState 2) := by
    unfold uPass
    rw [if_neg (by dsimp only; omega)]
    dsimp only
    rw [hp]; rfl
  have htk : (T ++ List.replicate k1 UTet.zero).take (T.length - 1) = T.take (T.length - 1) := List.take_append_of_le_length (by omega)
  have hdr : (T ++ List.replicate k1 UTet.zero).drop (T.length - 1) = T.drop (T.length - 1) ++ List.replicate k1 UTet.zero := List.drop_append_of_le_length (by omega)
  obtain ⟨L2, -, hcv⟩ := uCarve_take (amax := amax) (mid := 0) (s := (⟨V, c1, T ++ List.replicate k1 UTet.zero, L1, T.length⟩ : UState 2)) (by simp; omega) (by
    intro t ht
    dsimp only at ht
    rw [htk] at ht
    have ht := List.mem_of_mem_take ht
    obtain ⟨xs, hxs, hV, -⟩ := cornerRows_some (hin t ht)
    refine ⟨xs, hxs, decide_eq_true (Or.inr ?_)⟩
    intro j hj
    have : j = 1 := by omega
    subst this
    right
    intro y hy hpos
    rw [abs_of_pos hpos]
    exact h y (hV y hy))
  have hidx : (T.drop (T.length - 1) ++ List.replicate k1 UTet.zero).idxOf UTet.zero = 1 := by
    rw [idxOf_append_zero (fun t ht => ?_) hk1, List.length_drop]
    · omega
    · rintro rfl
      have := hn _ (List.mem_of_mem_drop ht)
      simp [UTet.zero, UTet.corners] at this
  have hzm : UTet.zero ∈ T.drop (T.length - 1) ++ List.replicate k1 UTet.zero := List.mem_append_right _ (List.mem_replicate.mpr ⟨hk1, rfl⟩)
  have hM0 : uMaterial amax V.length T.length ((⟨V, V.length, T, T.map g, T.length⟩ : UState 2), [UTet.zero], [fun _ => false]) 0 =
      some ((⟨V, c1, T.drop (T.length - 1) ++ List.replicate k1 UTet.zero, L2, 1⟩ : UState 2), [UTet.zero] ++ T.take (T.length - 1),
        [fun _ => false] ++ List.replicate (T.length - 1) (fun j => decide (j = 0))) := by
    unfold uMaterial
    dsimp only
    have hf : (List.finRange 2).filter (fun j => decide ((0 : Fin 2) < j)) = [1] := by decide
    rw [hf, List.foldlM_cons, hboth]
    simp only [if_true, List.foldlM_nil, hpass, Option.bind_eq_bind, Option.bind_some, Option.pure_def, hcv, hdr, hzm, hidx, htk]
    congr 5
    rw [List.length_take]; omega
  rw [hM0]
  simp only [Option.bind_eq_bind, Option.bind_some]
  rw [List.foldlM_cons]
  obtain ⟨L3, -, hc3⟩ := uCarve_take (amax := amax) (mid := 1) (s := (⟨V, c1, T.drop (T.length - 1) ++ List.replicate k1 UTet.zero, L2, 1⟩ : UState 2)) (by simp) (by simp)
  have hM1 : ∀ (a : List UTet) (b : List (Fin 2 → Bool)), ∃ s' : UState 2, s'.V = V ∧ uMaterial amax V.length T.length ((⟨V, c1, T.drop (T.length - 1) ++ List.replicate k1 UTet.zero, L2, 1⟩ : UState 2), a, b) 1 = some (s', a, b) := by
    intro a b
    unfold uMaterial
    dsimp only
    have hf : (List.finRange 2).filter (fun j => decide ((1 : Fin 2) < j)) = [] := by decide
    rw [hf, List.foldlM_nil]
    simp only [Option.bind_eq_bind, Option.bind_some, Option.pure_def, hc3, Nat.sub_self, List.take_zero, List.append_nil, List.length_nil, List.replicate_zero]
    exact ⟨_, rfl, rfl⟩
  obtain ⟨s', hs', hM1⟩ := hM1 ([UTet.zero] ++ T.take (T.length - 1)) ([fun _ => false] ++ List.replicate (T.length - 1) (fun j => decide (j = 0)))
  rw [hM1]
  rw [Option.bind_eq_bind, Option.bind_some, List.foldlM_nil, Option.pure_def, Option.bind_some, hs']
  rfl

end Gpy
