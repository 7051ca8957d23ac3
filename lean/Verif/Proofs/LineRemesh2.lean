import Verif.Proofs.LineRemesh

/-!
# Lemmas for the remesher of curves: collapse
-/

set_option autoImplicit false
namespace Gpy.LineRemesh
open Np Classical

/-! ### `remove_unreferenced` on edges -/

theorem mem_flat (E : List (ℕ × ℕ)) (v : ℕ) : ((v : ℕ) : Int) ∈ flat E ↔ Ref E v := by
  unfold flat Ref C1 C2
  simp only [List.mem_flatMap, List.mem_cons, List.not_mem_nil, or_false, Nat.cast_inj, Prod.exists]
  constructor
  · rintro ⟨a, b, h, rfl | rfl⟩
    · exact Or.inl ⟨b, h⟩
    · exact Or.inr ⟨a, h⟩
  · rintro (⟨w, h⟩ | ⟨w, h⟩)
    · exact ⟨v, w, h, Or.inl rfl⟩
    · exact ⟨w, v, h, Or.inr rfl⟩

theorem mem_flat' (E : List (ℕ × ℕ)) (x : Int) (h : x ∈ flat E) : ∃ v : ℕ, x = (v : Int) ∧ Ref E v := by
  have h' := h
  unfold flat at h'
  simp only [List.mem_flatMap, List.mem_cons, List.not_mem_nil, or_false] at h'
  obtain ⟨e, -, rfl | rfl⟩ := h'
  · exact ⟨_, rfl, (mem_flat E _).mp h⟩
  · exact ⟨_, rfl, (mem_flat E _).mp h⟩

theorem pairUp_flat (E : List (ℕ × ℕ)) (ρ : ℕ → ℕ) : pairUp ((flat E).map (fun x => ((ρ x.toNat : ℕ) : Int))) = E.map (Prod.map ρ ρ) := by
  induction E with
  | nil => rfl
  | cons e E ih =>
    have : flat (e :: E) = ((e.1 : ℕ) : Int) :: ((e.2 : ℕ) : Int) :: flat E := rfl
    rw [this]
    simp only [List.map_cons, pairUp, ih]
    simp [Prod.map]

theorem ru_edges (V : List (Pt 2)) (E : List (ℕ × ℕ)) (hne : E ≠ []) (hb : ∀ v, Ref E v → v < V.length) :
    ∃ (ρ : ℕ → ℕ) (V2 : List (Pt 2)) (F2 I J : List Int), removeUnreferenced (some V) (flat E) = some (some V2, F2, I, J) ∧ pairUp F2 = E.map (Prod.map ρ ρ) ∧
      (∀ u v, Ref E u → Ref E v → ρ u = ρ v → u = v) ∧ (∀ v, Ref E v → ρ v < V2.length ∧ pos V2 (ρ v) = pos V v ∧ I[v]? = some ((ρ v : ℕ) : Int)) ∧
      (∀ k, k < V2.length → ∃ v, Ref E v ∧ ρ v = k) := by
  have hfne : flat E ≠ [] := by
    cases E with
    | nil => exact absurd rfl hne
    | cons e E => exact List.cons_ne_nil _ _
  obtain ⟨V2, F2, I, J, h, hJ, hmem, hlen, hV, hFl, -, hF, -, hI, -, -⟩ := C16_remove_unreferenced V (flat E) hfne
    (fun x hx => by obtain ⟨v, rfl, -⟩ := mem_flat' E x hx; omega) (fun x hx => by obtain ⟨v, rfl, hv⟩ := mem_flat' E x hx; exact_mod_cast hb v hv)
  have hJn : J.Nodup := hJ.imp (fun h => h.ne)
  have hmem' : ∀ v, v ∈ J ↔ Ref E v := fun v => (hmem v).trans (mem_flat E v)
  have hJi : ∀ v, Ref E v → J[J.idxOf v]? = some v := by
    intro v hv
    have : J.idxOf v < J.length := List.idxOf_lt_length_iff.mpr ((hmem' v).mpr hv)
    rw [List.getElem?_eq_getElem this, List.getElem_idxOf]
  refine ⟨fun v => J.idxOf v, V2, F2, I, _, h, ?_, ?_, ?_, ?_⟩
  · have : F2 = (flat E).map (fun x => ((J.idxOf x.toNat : ℕ) : Int)) := by
      apply List.ext_getElem?
      intro k
      rw [List.getElem?_map]
      by_cases hk : k < (flat E).length
      · obtain ⟨v, hv, hr⟩ := mem_flat' E _ (List.getElem_mem hk)
        have e : (flat E)[k]? = some ((v : ℕ) : Int) := by rw [List.getElem?_eq_getElem hk, hv]
        obtain ⟨j, hj, hJj, -⟩ := hF k v e
        rw [hj, e]
        obtain ⟨hjl, hje⟩ := List.getElem?_eq_some_iff.mp hJj
        have : J.idxOf v = j := by rw [← hje]; exact hJn.idxOf_getElem j hjl
        simp [this]
      · rw [List.getElem?_eq_none (by omega), List.getElem?_eq_none (by omega)]; rfl
    rw [this]
    exact pairUp_flat E (fun v => J.idxOf v)
  · intro u v hu hv e
    have := hJi u hu
    simp only at e
    rw [e, hJi v hv] at this
    exact (Option.some.inj this).symm
  · intro v hv
    have hl : J.idxOf v < V2.length := by rw [hlen]; exact List.idxOf_lt_length_iff.mpr ((hmem' v).mpr hv)
    refine ⟨hl, ?_, hI _ _ (hJi v hv)⟩
    unfold pos
    rw [List.getD_eq_getElem?_getD, List.getD_eq_getElem?_getD, hV _ _ (hJi v hv)]
  · intro k hk
    rw [hlen] at hk
    exact ⟨J[k], (hmem' _).mp (List.getElem_mem hk), hJn.idxOf_getElem k hk⟩

/-! ### The invariant -/

/-- what holds of the curve between the steps -/
structure Ok (L : Line) : Prop where
  ne : L.F ≠ []
  nd : Nd L.F
  below : ∀ e ∈ L.F, e.1 < L.V.length ∧ e.2 < L.V.length
  feat : ∀ f ∈ L.feature, ∃ v : ℕ, f = (v : Int) ∧ Ref L.F v
  bdry : ∀ v, Ref L.F v → ((v : ℕ) : Int) ∉ L.feature → C1 L.F v ∧ C2 L.F v

theorem Ok.ref_lt {L : Line} (h : Ok L) {v : ℕ} (hv : Ref L.F v) : v < L.V.length := by
  rcases hv with ⟨w, hw⟩ | ⟨w, hw⟩
  · exact (h.below _ hw).1
  · exact (h.below _ hw).2

theorem Ok.isFeature {L : Line} (h : Ok L) {v : ℕ} (hv : v < L.V.length) : isFeature L v ↔ ((v : ℕ) : Int) ∈ L.feature := by
  unfold LineRemesh.isFeature
  refine ⟨fun h' => ?_, Or.inl⟩
  rcases h' with h' | h'
  · exact h'
  · obtain ⟨w, e, -⟩ := h.feat _ h'
    omega

/-- the same, in terms of the specification -/
theorem kept_of (L L' : Line) (ρ : ℕ → ℕ) (hL : Ok L) (hf : L'.feature = L.feature.map (fun x => ((ρ x.toNat : ℕ) : Int))) (hs : Same (fun v => ((v : ℕ) : Int) ∈ L.feature) ρ L.F L'.F)
    (hp : ∀ v : ℕ, ((v : ℕ) : Int) ∈ L.feature → ρ v < L'.V.length ∧ pos L'.V (ρ v) = pos L.V v) : Kept L.V L.F L.feature L'.V L'.F L'.feature := by
  have hget : ∀ (i u : ℕ), L.feature[i]? = some (u : Int) → L'.feature[i]? = some ((ρ u : ℕ) : Int) ∧ ((u : ℕ) : Int) ∈ L.feature := by
    intro i u hu
    refine ⟨?_, List.mem_of_getElem? hu⟩
    rw [hf, List.getElem?_map, hu]
    simp
  refine ⟨by rw [hf, List.length_map], fun i u hu => ?_⟩
  obtain ⟨h1, h2⟩ := hget i u hu
  refine ⟨ρ u, h1, (hp u h2).1, (hp u h2).2, ?_, ?_, fun j v hv => ?_⟩
  · exact and_congr (hs.c1 u h2) (not_congr (hs.c2 u h2))
  · exact and_congr (hs.c2 u h2) (not_congr (hs.c1 u h2))
  · obtain ⟨h3, h4⟩ := hget j v hv
    exact ⟨ρ v, h3, hs.reach u v h2 h4⟩

theorem Kept.refl (L : Line) (h : Ok L) : Kept L.V L.F L.feature L.V L.F L.feature :=
  ⟨rfl, fun i u hu => ⟨u, hu, by
      obtain ⟨v, e, hv⟩ := h.feat _ (List.mem_of_getElem? hu)
      obtain rfl : u = v := by exact_mod_cast e
      exact h.ref_lt hv, rfl, Iff.rfl, Iff.rfl, fun j v hv => ⟨v, hv, Iff.rfl⟩⟩⟩

theorem Kept.trans {V V' V'' : List (Pt 2)} {F F' F'' : List (ℕ × ℕ)} {f f' f'' : List Int} (h : Kept V F f V' F' f') (h' : Kept V' F' f' V'' F'' f'') : Kept V F f V'' F'' f'' := by
  refine ⟨h'.len.trans h.len, fun i u hu => ?_⟩
  obtain ⟨u', e1, -, p1, s1, t1, r1⟩ := h.same i u hu
  obtain ⟨u'', e2, l2, p2, s2, t2, r2⟩ := h'.same i u' e1
  refine ⟨u'', e2, l2, p2.trans p1, s2.trans s1, t2.trans t1, fun j v hv => ?_⟩
  obtain ⟨v', e3, r3⟩ := r1 j v hv
  obtain ⟨v'', e4, r4⟩ := r2 j v' e3
  exact ⟨v'', e4, r4.trans r3⟩

theorem chooseEnd_spec (L : Line) (hL : Ok L) (a b : ℕ) (ha : a < L.V.length) (hb : b < L.V.length) (hf : ¬ isFeature L a ∨ ¬ isFeature L b) (rm kp : ℕ) (V' : List (Pt 2)) (h : chooseEnd L (a, b) = (rm, kp, V')) :
    ((rm = b ∧ kp = a) ∨ (rm = a ∧ kp = b)) ∧ ((rm : ℕ) : Int) ∉ L.feature ∧ V'.length = L.V.length ∧ (∀ v, ((v : ℕ) : Int) ∈ L.feature → pos V' v = pos L.V v) ∧
      (∀ v, pos V' v = pos L.V v ∨ pos V' v = midpoint (pos L.V b) (pos L.V a)) := by
  unfold chooseEnd at h
  rw [hL.isFeature ha, hL.isFeature hb] at *
  simp only at h
  split at h
  · rename_i hc
    simp only [Prod.mk.injEq] at h
    obtain ⟨rfl, rfl, rfl⟩ := h
    have hp : ∀ v, v ≠ a → pos (L.V.set a (midpoint (pos L.V b) (pos L.V a))) v = pos L.V v := by
      intro v hv
      unfold pos
      rw [List.getD_eq_getElem?_getD, List.getElem?_set_ne (Ne.symm hv), ← List.getD_eq_getElem?_getD]
    refine ⟨Or.inl ⟨rfl, rfl⟩, hc.2, List.length_set, fun v hv => hp v (fun e => hc.1 (e ▸ hv)), fun v => ?_⟩
    by_cases hv : v = a
    · right
      subst hv
      conv_lhs => unfold pos
      rw [List.getD_eq_getElem?_getD, List.getElem?_set_self ha]
      rfl
    · exact Or.inl (hp v hv)
  · split at h
    · rename_i hc
      simp only [Prod.mk.injEq] at h
      obtain ⟨rfl, rfl, rfl⟩ := h
      exact ⟨Or.inl ⟨rfl, rfl⟩, hf.resolve_left (not_not.mpr hc), rfl, fun _ _ => rfl, fun _ => Or.inl rfl⟩
    · rename_i hc
      simp only [Prod.mk.injEq] at h
      obtain ⟨rfl, rfl, rfl⟩ := h
      exact ⟨Or.inr ⟨rfl, rfl⟩, hc, rfl, fun _ _ => rfl, fun _ => Or.inl rfl⟩

theorem npTake_nat (I : List Int) (f : List Int) (ρ : ℕ → ℕ) (h : ∀ x ∈ f, ∃ v : ℕ, x = (v : Int) ∧ I[v]? = some ((ρ v : ℕ) : Int)) :
    npTake I f = some (f.map (fun x => ((ρ x.toNat : ℕ) : Int))) := by
  unfold npTake
  induction f with
  | nil => rfl
  | cons x f ih =>
    obtain ⟨v, rfl, hv⟩ := h x (by simp)
    have e : npGet? I ((v : ℕ) : Int) = some ((ρ v : ℕ) : Int) := by
      unfold npGet?
      simp [hv]
    rw [List.mapM_cons, e, ih (fun y hy => h y (by simp [hy]))]
    simp

/-- a collapse: only the last loop of a curve without features is refused -/
theorem collapseAt_spec (L : Line) (hL : Ok L) (c a b : ℕ) (hc : L.F[c]? = some (a, b)) (hf : ¬ isFeature L a ∨ ¬ isFeature L b) :
    (collapseAt L c = none ∧ L.F = [(a, a)] ∧ L.feature = []) ∨
    ∃ L', collapseAt L c = some L' ∧ Ok L' ∧ Kept L.V L.F L.feature L'.V L'.F L'.feature ∧ L'.F.length + 1 = L.F.length ∧
      (∀ p ∈ L'.V, (∃ v, Ref L.F v ∧ p = pos L.V v) ∨ p = midpoint (pos L.V b) (pos L.V a)) := by
  have hmem : (a, b) ∈ L.F := List.mem_of_getElem? hc
  have ha := (hL.below _ hmem).1
  have hb := (hL.below _ hmem).2
  simp only at ha hb
  obtain ⟨hclt, hcget⟩ := List.getElem?_eq_some_iff.mp hc
  have hgd : L.F.getD c (0, 0) = (a, b) := by rw [List.getD_eq_getElem?_getD, hc]; rfl
  rcases hch : chooseEnd L (a, b) with ⟨rm, kp, V'⟩
  obtain ⟨hrk, hrf, hVl, hVf, hVm⟩ := chooseEnd_spec L hL a b ha hb hf rm kp V' hch
  have hrmr : Ref L.F rm := by
    rcases hrk with ⟨rfl, -⟩ | ⟨rfl, -⟩
    · exact Or.inr ⟨a, hmem⟩
    · exact Or.inl ⟨b, hmem⟩
  obtain ⟨h1, h2⟩ := hL.bdry rm hrmr hrf
  obtain ⟨hsame, hnd, hno⟩ := collapse_same L.F hL.nd c a b hc rm kp hrk h1 h2
  set E := (L.F.map (relabel rm kp)).eraseIdx c with hE
  have hEl : E.length + 1 = L.F.length := by
    rw [hE, List.length_eraseIdx_of_lt (by rw [List.length_map]; exact hclt), List.length_map]; omega
  have hcol : collapseAt L c = (removeUnreferenced (some V') (flat E)).bind (fun o =>
    (npTake o.2.2.1 L.feature).bind (fun feature =>
      match o.1 with
      | none => none
      | some V => some ⟨V, pairUp o.2.1, feature⟩)) := by
    unfold collapseAt
    dsimp only
    rw [hgd, hch]
    rfl
  have hrefE : ∀ v, Ref E v → v ≠ rm ∧ Ref L.F v := by
    intro v hv
    have hvr : v ≠ rm := fun e => hno (e ▸ hv)
    refine ⟨hvr, ?_⟩
    rcases hv with hv | hv
    · exact Or.inl ((hsame.c1 v hvr).mp hv)
    · exact Or.inr ((hsame.c2 v hvr).mp hv)
  have hrefE' : ∀ v, v ≠ rm → Ref L.F v → Ref E v := by
    intro v hvr hv
    rcases hv with hv | hv
    · exact Or.inl ((hsame.c1 v hvr).mpr hv)
    · exact Or.inr ((hsame.c2 v hvr).mpr hv)
  have hfeat : ∀ x ∈ L.feature, ∃ v : ℕ, x = (v : Int) ∧ Ref E v ∧ v ≠ rm := by
    intro x hx
    obtain ⟨v, rfl, hv⟩ := hL.feat x hx
    have : v ≠ rm := fun e => hrf (e ▸ hx)
    exact ⟨v, rfl, hrefE' v this hv, this⟩
  by_cases hne : E = []
  · left
    have hl1 : L.F.length = 1 := by rw [hne] at hEl; simpa using hEl.symm
    have hF1 : L.F = [(a, b)] := by
      obtain ⟨e, he⟩ := List.length_eq_one_iff.mp hl1
      rw [he] at hmem ⊢
      rw [List.mem_singleton] at hmem
      rw [hmem]
    refine ⟨?_, ?_, ?_⟩
    · rw [hcol, hne]; rfl
    · rw [hF1] at h1 h2 ⊢
      obtain ⟨w, hw⟩ := h1
      obtain ⟨z, hz⟩ := h2
      rw [List.mem_singleton, Prod.mk.injEq] at hw hz
      rw [← hz.2, hw.1]
    · rcases hLf : L.feature with _ | ⟨x, l⟩
      · rfl
      · obtain ⟨v, -, hv, -⟩ := hfeat x (by rw [hLf]; simp)
        rw [hne] at hv
        rcases hv with ⟨w, hw⟩ | ⟨w, hw⟩ <;> simp at hw
  · right
    obtain ⟨ρ, V2, F2, I, J, hru, hpair, hinj, hpos, hsurj⟩ := ru_edges V' E hne (fun v hv => by rw [hVl]; exact hL.ref_lt (hrefE v hv).2)
    have htake : npTake I L.feature = some (L.feature.map (fun x => ((ρ x.toNat : ℕ) : Int))) := npTake_nat I L.feature ρ (fun x hx => by
      obtain ⟨v, e, hv, -⟩ := hfeat x hx
      exact ⟨v, e, (hpos v hv).2.2⟩)
    obtain ⟨hrs, hrn⟩ := rename_same E ρ hinj hnd
    refine ⟨⟨V2, E.map (Prod.map ρ ρ), L.feature.map (fun x => ((ρ x.toNat : ℕ) : Int))⟩, ?_, ?_, ?_, ?_, ?_⟩
    · rw [hcol, hru]
      simp only [Option.bind_some]
      rw [htake]
      simp only [Option.bind_some]
      rw [hpair]
    · refine ⟨by simpa using hne, hrn, ?_, ?_, ?_⟩
      · intro e he
        obtain ⟨⟨u, v⟩, huv, rfl⟩ := List.mem_map.mp he
        exact ⟨(hpos u (Or.inl ⟨v, huv⟩)).1, (hpos v (Or.inr ⟨u, huv⟩)).1⟩
      · intro f hf
        obtain ⟨x, hx, rfl⟩ := List.mem_map.mp hf
        obtain ⟨v, rfl, hv, -⟩ := hfeat x hx
        refine ⟨ρ v, by simp, ?_⟩
        rcases hv with hv' | hv'
        · exact Or.inl ((hrs.c1 v (Or.inl hv')).mpr hv')
        · exact Or.inr ((hrs.c2 v (Or.inr hv')).mpr hv')
      · intro k hk hkf
        obtain ⟨v, hv, rfl⟩ : ∃ v, Ref E v ∧ ρ v = k := by
          rcases hk with ⟨w, hw⟩ | ⟨w, hw⟩
          · obtain ⟨⟨u, v⟩, huv, e⟩ := List.mem_map.mp hw
            simp only [Prod.map, Prod.mk.injEq] at e
            exact ⟨u, Or.inl ⟨v, huv⟩, e.1⟩
          · obtain ⟨⟨u, v⟩, huv, e⟩ := List.mem_map.mp hw
            simp only [Prod.map, Prod.mk.injEq] at e
            exact ⟨v, Or.inr ⟨u, huv⟩, e.2⟩
        have hvf : ((v : ℕ) : Int) ∉ L.feature := fun h => hkf (List.mem_map.mpr ⟨_, h, by simp⟩)
        obtain ⟨hvr, hvF⟩ := hrefE v hv
        obtain ⟨b1, b2⟩ := hL.bdry v hvF hvf
        exact ⟨(hrs.c1 v hv).mpr ((hsame.c1 v hvr).mpr b1), (hrs.c2 v hv).mpr ((hsame.c2 v hvr).mpr b2)⟩
    · refine kept_of L _ ρ hL rfl ?_ ?_
      · have hw : Same (fun v => ((v : ℕ) : Int) ∈ L.feature) id L.F E := by
          have hnr : ∀ v : ℕ, ((v : ℕ) : Int) ∈ L.feature → v ≠ rm := fun v hv e => hrf (e ▸ hv)
          exact ⟨fun v hv => hsame.c1 v (hnr v hv), fun v hv => hsame.c2 v (hnr v hv), fun u v hu hv => hsame.reach u v (hnr u hu) (hnr v hv)⟩
        exact hw.comp hrs (fun v hv => by
          obtain ⟨w, e, hw, -⟩ := hfeat _ hv
          obtain rfl : v = w := by exact_mod_cast e
          exact hw)
      · intro v hv
        obtain ⟨w, e, hw, -⟩ := hfeat _ hv
        obtain rfl : v = w := by exact_mod_cast e
        obtain ⟨p1, p2, -⟩ := hpos v hw
        exact ⟨p1, p2.trans (hVf v hv)⟩
    · rw [List.length_map]; exact hEl
    · intro p hp
      obtain ⟨k, hk, rfl⟩ := List.mem_iff_getElem.mp hp
      obtain ⟨v, hv, rfl⟩ := hsurj k hk
      have e : V2[ρ v] = pos V2 (ρ v) := by
        unfold pos
        rw [List.getD_eq_getElem?_getD, List.getElem?_eq_getElem hk]; rfl
      rw [e, (hpos v hv).2.1]
      rcases hVm v with h | h
      · exact Or.inl ⟨v, (hrefE v hv).2, h⟩
      · exact Or.inr h

end Gpy.LineRemesh
