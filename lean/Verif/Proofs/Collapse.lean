import Verif.Proofs.CollapseMap

/-! The pass that collapses edges. -/

set_option autoImplicit false
namespace Gpy

theorem undir_swap {e e' : Edge} (h : Undir e e') : Undir e' e := by
  rcases h with rfl | rfl
  · exact Or.inl rfl
  · exact Or.inr rfl

theorem feat_fold {B : Arr (Option ℕ)} {new : ℕ → ℕ} (fe : List Edge) : ∀ (L : List Edge),
    (∀ e ∈ fe, e.s < B.size ∧ e.t < B.size ∧ B.val e.s = some (new e.s) ∧ B.val e.t = some (new e.t)) →
    ∃ L', fe.foldlM (featStep B) L = some L' ∧ (∀ e' ∈ L', e' ∈ L ∨ (e'.s ≠ e'.t ∧ ∃ e ∈ fe, e' = ⟨new e.s, new e.t⟩)) ∧
      (∀ e ∈ fe, new e.s ≠ new e.t → ∃ e' ∈ L', Undir ⟨new e.s, new e.t⟩ e') ∧ (∀ e ∈ L, e ∈ L') ∧
      (L.Pairwise (fun e e' => ¬ Undir e e') → L'.Pairwise (fun e e' => ¬ Undir e e')) := by
  induction fe with
  | nil => intro L _; exact ⟨L, rfl, fun e h => Or.inl h, by simp, fun e h => h, id⟩
  | cons e fe ih =>
    intro L hB
    obtain ⟨b1, b2, b3, b4⟩ := hB e (by simp)
    have hB' : ∀ e ∈ fe, e.s < B.size ∧ e.t < B.size ∧ B.val e.s = some (new e.s) ∧ B.val e.t = some (new e.t) := fun x hx => hB x (by simp [hx])
    rw [List.foldlM_cons]
    unfold featStep
    rw [rd_eq b1, rd_eq b2, b3, b4]
    simp only [Option.bind_eq_bind, Option.bind_some]
    by_cases h1 : new e.s = new e.t
    · rw [if_pos h1]
      obtain ⟨L', q1, q2, q3, q4, q5⟩ := ih L hB'
      refine ⟨L', q1, ?_, ?_, q4, q5⟩
      · intro e' he'
        rcases q2 e' he' with h | ⟨h, e0, h0, h0'⟩
        · exact Or.inl h
        · exact Or.inr ⟨h, e0, by simp [h0], h0'⟩
      · intro x hx hne
        rcases List.mem_cons.1 hx with rfl | hx
        · exact absurd h1 hne
        · exact q3 x hx hne
    · rw [if_neg h1]
      by_cases h2 : ∃ e' ∈ L, Undir ⟨new e.s, new e.t⟩ e'
      · rw [if_pos h2]
        obtain ⟨L', q1, q2, q3, q4, q5⟩ := ih L hB'
        refine ⟨L', q1, ?_, ?_, q4, q5⟩
        · intro e' he'
          rcases q2 e' he' with h | ⟨h, e0, h0, h0'⟩
          · exact Or.inl h
          · exact Or.inr ⟨h, e0, by simp [h0], h0'⟩
        · intro x hx hne
          rcases List.mem_cons.1 hx with rfl | hx
          · obtain ⟨e', he', hu⟩ := h2
            exact ⟨e', q4 _ he', hu⟩
          · exact q3 x hx hne
      · rw [if_neg h2]
        obtain ⟨L', q1, q2, q3, q4, q5⟩ := ih (L ++ [⟨new e.s, new e.t⟩]) hB'
        refine ⟨L', q1, ?_, ?_, fun x hx => q4 x (by simp [hx]), ?_⟩
        · intro e' he'
          rcases q2 e' he' with h | ⟨h, e0, h0, h0'⟩
          · rcases List.mem_append.1 h with h | h
            · exact Or.inl h
            · have h' : e' = ⟨new e.s, new e.t⟩ := by simpa using h
              exact Or.inr ⟨by rw [h']; exact h1, e, by simp, h'⟩
          · exact Or.inr ⟨h, e0, by simp [h0], h0'⟩
        · intro x hx hne
          rcases List.mem_cons.1 hx with rfl | hx
          · exact ⟨_, q4 _ (by simp), Or.inl rfl⟩
          · exact q3 x hx hne
        · intro hp
          apply q5
          rw [List.pairwise_append]
          refine ⟨hp, by simp, ?_⟩
          intro x hx y hy hu
          have hy' : y = ⟨new e.s, new e.t⟩ := by simpa using hy
          subst hy'
          exact h2 ⟨x, hx, undir_swap hu⟩

theorem mapM_rd_eq {α : Type} (L : List ℕ) (A : Arr α) (h : ∀ i ∈ L, i < A.size) : L.mapM A.rd = some (L.map A.val) := by
  induction L with
  | nil => rfl
  | cons a L ih =>
    rw [List.mapM_cons, rd_eq (h a (by simp)), ih (fun i hi => h i (by simp [hi]))]
    rfl

theorem idxOf_filter_range (n : ℕ) (p : ℕ → Bool) (k : ℕ) (hk : k ≤ n) (h : ∀ j < k, p j = true) :
    ∀ j < k, ((List.range n).filter p).idxOf j = j := by
  intro j hj
  have hs : List.range n = List.range k ++ (List.range (n - k)).map (fun i => k + i) := by
    rw [← List.range_add]; congr 1; omega
  rw [hs, List.filter_append, List.filter_eq_self.2 (by intro a ha; exact h a (List.mem_range.1 ha)), List.idxOf_append_of_mem (List.mem_range.2 hj)]
  have := List.Nodup.idxOf_getElem (List.nodup_range (n := k)) j (by simpa using hj)
  simpa using this

/-- renaming that is one-to-one on the corners keeps a closed mesh closed -/
theorem closed_map {n m : ℕ} {F : List Tri} (hF : ClosedOriented n F) (f : ℕ → ℕ) (hi : ∀ v w, UsedIn F v → UsedIn F w → f v = f w → v = w)
    (hr : ∀ v, UsedIn F v → f v < m) : ClosedOriented m (F.map (Tri.map f)) := by
  have uc : ∀ t ∈ F, UsedIn F t.a ∧ UsedIn F t.b ∧ UsedIn F t.c := fun t ht => ⟨⟨t, ht, Or.inl rfl⟩, ⟨t, ht, Or.inr (Or.inl rfl)⟩, ⟨t, ht, Or.inr (Or.inr rfl)⟩⟩
  have hsd : sides (F.map (Tri.map f)) = (sides F).map (fun e => (⟨f e.s, f e.t⟩ : Edge)) := by
    unfold sides
    rw [List.flatMap_map, List.map_flatMap]
    rfl
  have hus : ∀ e ∈ sides F, UsedIn F e.s ∧ UsedIn F e.t := by
    intro e he
    obtain ⟨t, ht, c, h⟩ := mem_sides_cyc.1 he
    exact ⟨⟨t, ht, (h.mem _).2 (Or.inl rfl)⟩, ⟨t, ht, (h.mem _).2 (Or.inr (Or.inl rfl))⟩⟩
  refine ⟨⟨?_, ?_⟩, ?_, ?_, ?_⟩
  · rw [hsd]
    refine List.Nodup.map_on ?_ hF.manifold.1
    intro e he e' he' h
    obtain ⟨a1, a2⟩ := hus e he
    obtain ⟨b1, b2⟩ := hus e' he'
    simp only [Edge.mk.injEq] at h
    cases e; cases e'
    simp only [Edge.mk.injEq]
    exact ⟨hi _ _ a1 b1 h.1, hi _ _ a2 b2 h.2⟩
  · intro t ht
    rw [List.mem_map] at ht
    obtain ⟨u, hu, rfl⟩ := ht
    obtain ⟨a1, a2, a3⟩ := uc u hu
    obtain ⟨d1, d2, d3⟩ := hF.manifold.2 u hu
    exact ⟨fun h => d1 (hi _ _ a1 a2 h), fun h => d2 (hi _ _ a2 a3 h), fun h => d3 (hi _ _ a3 a1 h)⟩
  · intro e he
    rw [hsd, List.mem_map] at he
    obtain ⟨e0, he0, rfl⟩ := he
    rw [hsd, List.mem_map]
    exact ⟨e0.flip, hF.closed e0 he0, rfl⟩
  · have hp := hF.simple
    unfold NoTwin at *
    rw [List.pairwise_map]
    refine List.Pairwise.imp_of_mem ?_ hp
    intro t u ht hu hn hc
    apply hn
    obtain ⟨a1, a2, a3⟩ := uc t ht
    obtain ⟨b1, b2, b3⟩ := uc u hu
    have aux : ∀ t u : Tri, t ∈ F → u ∈ F → SameCorners (t.map f) (u.map f) → ∀ v, (v = t.a ∨ v = t.b ∨ v = t.c) → (v = u.a ∨ v = u.b ∨ v = u.c) := by
      intro t u ht hu hc v hv
      obtain ⟨b1, b2, b3⟩ := uc u hu
      have huv : UsedIn F v := ⟨t, ht, hv⟩
      have := (hc (f v)).1 (by rcases hv with rfl | rfl | rfl <;> simp [Tri.map])
      rcases this with h | h | h
      · exact Or.inl (hi _ _ huv b1 h)
      · exact Or.inr (Or.inl (hi _ _ huv b2 h))
      · exact Or.inr (Or.inr (hi _ _ huv b3 h))
    intro v
    exact ⟨aux t u ht hu hc v, aux u t hu ht (fun w => (hc w).symm) v⟩
  · intro t ht
    rw [List.mem_map] at ht
    obtain ⟨u, hu, rfl⟩ := ht
    obtain ⟨a1, a2, a3⟩ := uc u hu
    exact ⟨hr _ a1, hr _ a2, hr _ a3⟩

theorem filter_map_proper {F : List Tri} (f : ℕ → ℕ) (h : ∀ t ∈ F, (t.map f).proper ↔ t.proper) :
    (F.map (Tri.map f)).filter (fun t => t.proper) = (F.filter (fun t => t.proper)).map (Tri.map f) := by
  induction F with
  | nil => rfl
  | cons t F ih =>
    have ih' := ih (fun u hu => h u (by simp [hu]))
    have ht := h t (by simp)
    simp only [List.map_cons, List.filter_cons, ht, ih']
    split_ifs <;> simp

theorem usedIn_map {F : List Tri} {f : ℕ → ℕ} {v : ℕ} (h : UsedIn (F.map (Tri.map f)) v) : ∃ w, UsedIn F w ∧ f w = v := by
  obtain ⟨t, ht, hv⟩ := h
  rw [List.mem_map] at ht
  obtain ⟨u, hu, rfl⟩ := ht
  rcases hv with rfl | rfl | rfl
  · exact ⟨u.a, ⟨u, hu, Or.inl rfl⟩, rfl⟩
  · exact ⟨u.b, ⟨u, hu, Or.inr (Or.inl rfl)⟩, rfl⟩
  · exact ⟨u.c, ⟨u, hu, Or.inr (Or.inr rfl)⟩, rfl⟩

theorem used_lt {n : ℕ} {F : List Tri} (hF : ClosedOriented n F) {v : ℕ} (h : UsedIn F v) : v < n := by
  obtain ⟨t, ht, hv⟩ := h
  obtain ⟨a, b, c⟩ := hF.range t ht
  rcases hv with rfl | rfl | rfl <;> assumption

theorem collapsed_main {A : ℕ → List ℕ} {V : Arr (V3 ℝ)} {F : List Tri} {high low : Arr ℝ} {feature : List ℕ} {fe : List Edge} {U : Arr (V3 ℝ)} {G : List Tri}
    {I : List ℕ} {merges : List (ℕ × ℕ)} (hF : ClosedOriented V.size F) (hh : high.size = V.size) (hl : low.size = V.size)
    (hfx : ∀ f ∈ feature, UsedIn F f) (hfe : ∀ e ∈ fe, ∃ e' ∈ sides F, Undir e e')
    (hD : IsDecimated ⟨A, high.val, low.val, feature, fe⟩ V F U G I merges) :
    ∃ out, afterDecimate V.size I merges high low feature fe = some out ∧ ∃ new, Collapsed V F high low feature fe U G out new := by
  obtain ⟨V', F', hrun, hI, hUs, hU, hG⟩ := hD.run
  obtain ⟨inv, uf⟩ := run_inv hF hrun
  simp only at inv uf
  have memI : ∀ v, v ∈ I ↔ UsedIn (alive F') v := by
    intro v
    rw [hI, List.mem_filter, List.mem_range]
    simp only [decide_eq_true_eq, ← usedIn_iff]
    exact ⟨fun h => h.2, fun h => ⟨used_lt inv.closed h, h⟩⟩
  have hIn : I.Nodup := by rw [hI]; exact List.nodup_range.filter _
  have hIl : ∀ i ∈ I, i < V.size := fun i hi => used_lt inv.closed ((memI i).1 hi)
  obtain ⟨B, b1, b2, b3⟩ := birthToNew_ok uf hIn hIl (fun i hi => inv.self i ((memI i).1 hi)) inv.lt
  obtain ⟨new, hnew⟩ : ∃ new : ℕ → ℕ, new = fun v => I.idxOf (repOf merges v) := ⟨_, rfl⟩
  have repI : ∀ v, UsedIn F v → repOf merges v ∈ I := fun v hv => (memI _).2 (inv.used v hv)
  have hBv : ∀ v, UsedIn F v → B.val v = some (new v) := by
    intro v hv
    rw [b3 v (used_lt hF hv), if_pos (repI v hv), hnew]
  have hfeU : ∀ e ∈ fe, UsedIn F e.s ∧ UsedIn F e.t := by
    intro e he
    obtain ⟨e', he', hu⟩ := hfe e he
    obtain ⟨t, ht, c, h⟩ := mem_sides_cyc.1 he'
    have u1 : UsedIn F e'.s := ⟨t, ht, (h.mem _).2 (Or.inl rfl)⟩
    have u2 : UsedIn F e'.t := ⟨t, ht, (h.mem _).2 (Or.inr (Or.inl rfl))⟩
    rcases hu with rfl | rfl
    · exact ⟨u1, u2⟩
    · exact ⟨u2, u1⟩
  obtain ⟨L', l1, l2, l3, _, l5⟩ := feat_fold (new := new) fe [] (fun e he => by
    obtain ⟨u1, u2⟩ := hfeU e he
    refine ⟨?_, ?_, hBv _ u1, hBv _ u2⟩
    · rw [b2]; exact used_lt hF u1
    · rw [b2]; exact used_lt hF u2)
  have hidx : ∀ v ∈ I, I.idxOf v < U.size := fun v hv => by rw [hUs]; exact List.idxOf_lt_length_of_mem hv
  have hUidx : ∀ v ∈ I, U.val (I.idxOf v) = V' v := by
    intro v hv
    rw [hU _ (List.idxOf_lt_length_of_mem hv), List.getElem_idxOf]
  have hinj : ∀ v ∈ I, ∀ w ∈ I, I.idxOf v = I.idxOf w → v = w := by
    intro v hv w hw h
    exact List.idxOf_inj hv |>.1 h
  have hmap1 : I.mapM high.rd = some (I.map high.val) := mapM_rd_eq I high (fun i hi => by rw [hh]; exact hIl i hi)
  have hmap2 : I.mapM low.rd = some (I.map low.val) := mapM_rd_eq I low (fun i hi => by rw [hl]; exact hIl i hi)
  have hmap3 : feature.mapM B.rd = some (feature.map B.val) := mapM_rd_eq feature B (fun i hi => by rw [b2]; exact used_lt hF (hfx i hi))
  have hGc : ClosedOriented U.size G := by
    rw [hG]
    exact closed_map inv.closed _ (fun v w hv hw h => hinj v ((memI v).2 hv) w ((memI w).2 hw) h) (fun v hv => hidx v ((memI v).2 hv))
  refine ⟨⟨⟨I.length, fun s => (I.map high.val).getD s 0⟩, ⟨I.length, fun s => (I.map low.val).getD s 0⟩, (feature.map B.val).filterMap id, L'⟩, ?_, new, ?_⟩
  · unfold afterDecimate
    simp only [b1, hmap1, hmap2, hmap3, l1, Option.bind_eq_bind, Option.bind_some]
  · refine ⟨hGc, ?_, ?_, ?_, ⟨hUs.symm, hUs.symm⟩, ?_, ?_, ?_, ?_, ?_, ?_, ?_⟩
    · rw [hG, inv.faces]
      show List.map (Tri.map fun v => I.idxOf v) _ = _
      rw [← filter_map_proper, List.map_map]
      · congr 1
        apply List.map_congr_left
        intro t _
        rw [hnew]
        rfl
      · intro t ht
        rw [List.mem_map] at ht
        obtain ⟨u, hu, rfl⟩ := ht
        refine ⟨proper_of_map, ?_⟩
        have ma := repI u.a ⟨u, hu, Or.inl rfl⟩
        have mb := repI u.b ⟨u, hu, Or.inr (Or.inl rfl)⟩
        have mc := repI u.c ⟨u, hu, Or.inr (Or.inr rfl)⟩
        rintro ⟨d1, d2, d3⟩
        exact ⟨fun h => d1 (hinj _ ma _ mb h), fun h => d2 (hinj _ mb _ mc h), fun h => d3 (hinj _ mc _ ma h)⟩
    · intro v hv
      rw [hnew]
      exact hidx _ (repI v hv)
    · intro w hw
      have hw' : w < I.length := by rw [← hUs]; exact hw
      obtain ⟨t, ht, hv⟩ := (memI _).1 (List.getElem_mem hw')
      have hix : I.idxOf I[w] = w := List.Nodup.idxOf_getElem hIn w hw'
      refine ⟨t.map (fun v => I.idxOf v), by rw [hG]; exact List.mem_map_of_mem ht, ?_⟩
      rw [← hix]
      rcases hv with h | h | h <;> rw [h] <;> simp [Tri.has, Tri.map]
    · intro w hw
      have hw' : w < I.length := by rw [← hUs]; exact hw
      have hmem : I[w] ∈ I := List.getElem_mem hw'
      have hus := (memI _).1 hmem
      refine ⟨I[w], inv.back _ hus, ?_, ?_, ?_⟩
      · rw [hnew]
        simp only
        rw [inv.self _ hus]
        exact List.Nodup.idxOf_getElem hIn w hw'
      · simp [List.getD, hw']
      · simp [List.getD, hw']
    · show (feature.map B.val).filterMap id = _
      rw [List.map_congr_left (fun f hf => hBv f (hfx f hf)), List.filterMap_map]
      exact congrFun (List.filterMap_eq_map (f := new)) feature
    · intro f hf
      obtain ⟨q1, q2⟩ := inv.fixed f hf
      have hrf : repOf merges f = f := (q1 f).2 rfl
      have hfI : f ∈ I := by have := repI f (hfx f hf); rwa [hrf] at this
      rw [hnew]
      refine ⟨?_, ?_⟩
      · simp only
        rw [hrf, hUidx f hfI]
        exact q2
      · intro v hv h
        simp only at h
        rw [hrf] at h
        exact (q1 v).1 (hinj _ (repI v hv) _ hfI h)
    · intro k hk j hj
      have hjn : ∀ j < k, j < V.size ∧ 0 < cornerCount (alive F') j := by
        intro j hj
        have hf := hk j hj
        have hrf : repOf merges j = j := ((inv.fixed j hf).1 j).2 rfl
        have := repI j (hfx j hf)
        rw [hrf, memI] at this
        exact ⟨used_lt inv.closed this, usedIn_iff.1 this⟩
      have hrf : repOf merges j = j := ((inv.fixed j (hk j hj)).1 j).2 rfl
      rw [hnew]
      simp only
      rw [hrf, hI]
      have hkn : k ≤ V.size := by
        by_contra hc
        have := (hjn V.size (by omega)).1
        omega
      exact idxOf_filter_range V.size _ k hkn (fun j hj => by simpa using (hjn j hj).2) j hj
    · intro e' he'
      rcases l2 e' he' with h | ⟨h1, e, he, h2⟩
      · simp at h
      · refine ⟨h1, ⟨e, he, h2⟩, ?_⟩
        obtain ⟨e0, he0, hu⟩ := hfe e he
        have hs0 : (⟨e.s, e.t⟩ : Edge) ∈ sides F := by
          rcases hu with rfl | rfl
          · exact he0
          · exact hF.closed _ he0
        have hrne : repOf merges e.s ≠ repOf merges e.t := by
          intro h
          apply h1
          rw [h2, hnew]
          simp only
          rw [h]
        have := inv.side _ hs0 hrne
        obtain ⟨t, ht, c, hc⟩ := mem_sides_cyc.1 this
        refine ⟨e', mem_sides_cyc.2 ⟨t.map (fun v => I.idxOf v), ?_, I.idxOf c, ?_⟩, Or.inl rfl⟩
        · rw [hG]; exact List.mem_map_of_mem ht
        · have := hc.map (fun v => I.idxOf v)
          rw [h2, hnew]
          exact this
    · exact l3
    · exact l5 List.Pairwise.nil

end Gpy
