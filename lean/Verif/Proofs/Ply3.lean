import Verif.Proofs.Ply2

/-!
# PLY: requests
-/

set_option autoImplicit false
namespace Gpy.Ply

/-- the table entries of a request -/
def entries (r : Request) : Table := r.keys.map (fun k => (fnv1a (r.elem ++ k), r.id))

/-- the table of a list of requests -/
def tabOf (rs : List Request) : Table := rs.flatMap entries

theorem find_unique {α : Type} (p : α → Bool) (l : List α) (a : α) (ha : a ∈ l) (hp : p a = true) (hu : ∀ b ∈ l, p b = true → b = a) :
    l.find? p = some a := by
  induction l with
  | nil => simp at ha
  | cons x l ih =>
    by_cases hx : p x = true
    · rw [List.find?_cons_of_pos hx, hu x (by simp) hx]
    · rw [List.find?_cons_of_neg hx]
      refine ih ?_ (fun b hb => hu b (by simp [hb]))
      rcases List.mem_cons.mp ha with h | h
      · subst h; exact absurd hp hx
      · exact h

theorem name_inj {α : Type} {f : α → Name} {l : List α} (h : (l.map f).Nodup) {a b : α} (ha : a ∈ l) (hb : b ∈ l) (hab : f a = f b) : a = b :=
  List.inj_on_of_nodup_map h ha hb hab

theorem findElem_doc (d : Doc) (hd : (d.map DElem.name).Nodup) (e : DElem) (he : e ∈ d) : findElem e.name (d.map DElem.elem) = some e.elem := by
  refine find_unique _ _ _ (List.mem_map_of_mem he) (by simp [DElem.elem]) ?_
  intro b hb hn
  obtain ⟨e', he', rfl⟩ := List.mem_map.mp hb
  have : e'.name = e.name := of_decide_eq_true hn
  rw [name_inj hd he' he this]

theorem findElem_none (d : Doc) (k : Name) (h : ∀ e ∈ d, e.name ≠ k) : findElem k (d.map DElem.elem) = none := by
  unfold findElem
  rw [List.find?_eq_none]
  intro b hb
  obtain ⟨e', he', rfl⟩ := List.mem_map.mp hb
  exact fun hx => h e' he' (of_decide_eq_true hx)

theorem findProp_doc (e : DElem) (hd : (e.props.map DProp.name).Nodup) (p : DProp) (hp : p ∈ e.props) : findProp p.name e.elem = some p.prp := by
  refine find_unique _ _ _ (List.mem_map_of_mem hp) (by simp [DProp.prp]) ?_
  intro b hb hn
  obtain ⟨e', he', rfl⟩ := List.mem_map.mp hb
  have : e'.name = p.name := of_decide_eq_true hn
  rw [name_inj hd he' hp this]

theorem findProp_isSome (e : DElem) (k : Name) : (findProp k e.elem).isSome = true ↔ ∃ p ∈ e.props, p.name = k := by
  unfold findProp
  rw [List.find?_isSome]
  constructor
  · rintro ⟨b, hb, hn⟩
    obtain ⟨p, hp, rfl⟩ := List.mem_map.mp hb
    exact ⟨p, hp, of_decide_eq_true hn⟩
  · rintro ⟨p, hp, rfl⟩
    exact ⟨p.prp, List.mem_map_of_mem hp, by simp [DProp.prp]⟩

theorem insertKeys_fresh (e : Elem) (id : ℕ) (ks : List Name) (t : Table) (hn : (ks.map (fun k => fnv1a (e.name ++ k))).Nodup)
    (hf : ∀ k ∈ ks, t.lookup (fnv1a (e.name ++ k)) = none) :
    insertKeys e id ks t = (t ++ ks.map (fun k => (fnv1a (e.name ++ k), id)), true) := by
  induction ks generalizing t with
  | nil => simp [insertKeys]
  | cons k ks ih =>
    have h0 := hf k (by simp)
    simp only [insertKeys, h0, Option.isSome_none, Bool.false_eq_true, if_false]
    rw [ih]
    · simp
    · exact (List.nodup_cons.mp hn).2
    · intro k' hk'
      have hne : fnv1a (e.name ++ k') ≠ fnv1a (e.name ++ k) := by
        intro h
        refine (List.nodup_cons.mp hn).1 ?_
        change fnv1a (e.name ++ k) ∈ _
        rw [← h]
        exact List.mem_map_of_mem (f := fun k => fnv1a (e.name ++ k)) hk'
      rw [List.lookup_append, hf k' (by simp [hk'])]
      simp [List.lookup, beq_eq_false_iff_ne.mpr hne]

/-- the group of a request that the document answers -/
def GroupOf (d : Doc) (r : Request) (G : Group) : Prop :=
  G.hint = r.hint ∧ ∀ e ∈ d, e.name = r.elem → G.count = e.rows.length ∧ ∀ p ∈ e.props, p.name ∈ r.keys → p.ty = G.ty ∧ p.list.isSome = G.isList

theorem zip_tail_const {l : List Ty} {t : Ty} (h : ∀ x ∈ l, x = t) : (l.zip l.tail).all (fun q => decide (q.1 = q.2)) = true := by
  rw [List.all_eq_true]
  intro q hq
  have h1 := List.of_mem_zip (a := q.1) (b := q.2) hq
  simp [h _ h1.1, h _ (List.mem_of_mem_tail h1.2)]

theorem request_has (d : Doc) (hd : d.Named) (r : Request) (hr : r ∈ allRequests) (hne : r.keys ≠ []) (hh : d.has r) (G : Group) (hG : GroupOf d r G)
    (hn : (r.keys.map (fun k => fnv1a (r.elem ++ k))).Nodup) (st : Reqs) (hf : ∀ k ∈ r.keys, st.tab.lookup (fnv1a (r.elem ++ k)) = none) :
    request (d.map DElem.elem) st r = (⟨st.tab ++ entries r, upd st.groups r.id G⟩, true) := by
  obtain ⟨e, he, hen, hk⟩ := hh
  have h1 : findElem r.elem (d.map DElem.elem) = some e.elem := by rw [← hen]; exact findElem_doc d hd.elems e he
  have h2 : (r.keys.all (fun k => (findProp k e.elem).isSome)) = true := by
    rw [List.all_eq_true]
    intro k hkm
    rw [findProp_isSome]
    exact hk k hkm
  have hen' : e.elem.name = r.elem := hen
  have h3 := insertKeys_fresh e.elem r.id r.keys st.tab (by rw [hen']; exact hn) (by rw [hen']; exact hf)
  have hty : ∀ k ∈ r.keys, ∃ p ∈ e.props, p.name = k ∧ findProp k e.elem = some p.prp ∧ p.ty = G.ty ∧ p.list.isSome = G.isList := by
    intro k hkm
    obtain ⟨p, hp, hpk⟩ := hk k hkm
    refine ⟨p, hp, hpk, ?_, (hG.2 e he hen).2 p hp (by rw [hpk]; exact hkm)⟩
    rw [← hpk]; exact findProp_doc e (hd.props e he) p hp
  have h4 : sameTypes e.elem r.keys = true := by
    unfold sameTypes
    refine zip_tail_const (t := G.ty) ?_
    intro x hx
    obtain ⟨k, hkm, hkx⟩ := List.mem_filterMap.mp hx
    obtain ⟨p, _, _, hf', ht, _⟩ := hty k hkm
    rw [hf'] at hkx
    simp only [Option.map_some, Option.some.injEq] at hkx
    rw [← hkx]; exact ht
  unfold request
  rw [h1]
  simp only [h2, if_true, h3, h4, Bool.and_true]
  rw [List.getLast?_eq_some_getLast hne]
  obtain ⟨p, _, _, hf', ht, hl⟩ := hty _ (List.getLast_mem hne)
  simp only [Option.bind_some, hf', Option.getD_some, hen']
  congr 2
  have : (⟨p.prp.ty, p.prp.list.isSome, e.elem.size, r.hint⟩ : Group) = G := by
    rcases G with ⟨a, b, c, h⟩
    have hc := (hG.2 e he hen).1
    have hh := hG.1
    simp only at hc hh ht hl
    simp [DProp.prp, DElem.elem, ht, hl, hc, hh]
  rw [this]

theorem request_not (d : Doc) (hd : d.Named) (r : Request) (hh : ¬ d.has r) (st : Reqs) :
    request (d.map DElem.elem) st r = (st, false) := by
  unfold request
  by_cases he : ∃ e ∈ d, e.name = r.elem
  · obtain ⟨e, he, hen⟩ := he
    have h1 : findElem r.elem (d.map DElem.elem) = some e.elem := by rw [← hen]; exact findElem_doc d hd.elems e he
    rw [h1]
    have h2 : ¬ (r.keys.all (fun k => (findProp k e.elem).isSome)) = true := by
      rw [List.all_eq_true]
      intro hall
      refine hh ⟨e, he, hen, fun k hk => ?_⟩
      exact (findProp_isSome e k).mp (hall k hk)
    simp [h2]
  · have : findElem r.elem (d.map DElem.elem) = none := findElem_none d r.elem (fun e hm hen => he ⟨e, hm, hen⟩)
    rw [this]

/-! ## hashes of the requested names -/

/-- all requested hashes are different -/
theorem hashes_nodup : ((tabOf allRequests).map Prod.fst).Nodup := by decide +kernel

theorem keys_nodup : ∀ r ∈ allRequests, (r.keys.map (fun k => fnv1a (r.elem ++ k))).Nodup := by
  intro r hr
  have h : ((tabOf allRequests).map Prod.fst).Nodup := hashes_nodup
  have hs : ((entries r).map Prod.fst).Sublist ((tabOf allRequests).map Prod.fst) := by
    refine List.Sublist.map _ ?_
    obtain ⟨s, t, hst⟩ := List.append_of_mem hr
    rw [hst]
    unfold tabOf
    simp only [List.flatMap_append, List.flatMap_cons]
    exact (List.sublist_append_left _ _).trans (List.sublist_append_right _ _)
  have := List.Nodup.sublist hs h
  rw [entries, List.map_map] at this
  exact this

theorem keys_ne : ∀ r ∈ allRequests, r.keys ≠ [] := by
  intro r hr
  simp only [allRequests, List.mem_cons, List.not_mem_nil, or_false] at hr
  rcases hr with rfl | rfl | rfl | rfl | rfl | rfl | rfl | rfl <;> simp [rV, rN, rC, rC', rFC, rFC', rF, rF']

/-- the table holds entries of the first `n` requests -/
def TabUpto (n : ℕ) (t : Table) : Prop := ∃ pre, pre.Sublist (allRequests.take n) ∧ t = tabOf pre

theorem tab_fresh {n : ℕ} {t : Table} (h : TabUpto n t) (r : Request) (hr : allRequests[n]? = some r) : ∀ k ∈ r.keys, t.lookup (fnv1a (r.elem ++ k)) = none := by
  obtain ⟨pre, hp, rfl⟩ := h
  intro k hk
  rw [List.lookup_eq_none_iff]
  intro q hq
  obtain ⟨r', hr', hqr⟩ := List.mem_flatMap.mp hq
  have hmem := hp.subset hr'
  have hsplit : allRequests = allRequests.take n ++ r :: allRequests.drop (n + 1) := by
    have := (List.getElem?_eq_some_iff.mp hr).2
    rw [← this]
    conv_lhs => rw [← List.take_append_drop n allRequests]
    rw [List.drop_eq_getElem_cons (List.getElem?_eq_some_iff.mp hr).1]
  have hn := hashes_nodup
  rw [hsplit] at hn
  simp only [tabOf, List.flatMap_append, List.flatMap_cons, List.map_append] at hn
  have hdis := (List.nodup_append.mp hn).2.2
  have h1 : q.1 ∈ ((allRequests.take n).flatMap entries).map Prod.fst :=
    List.mem_map_of_mem (List.mem_flatMap.mpr ⟨r', hmem, hqr⟩)
  have h2 : fnv1a (r.elem ++ k) ∈ (entries r).map Prod.fst := by
    rw [entries, List.map_map]
    exact List.mem_map_of_mem (f := Prod.fst ∘ fun k => (fnv1a (r.elem ++ k), r.id)) hk
  have := hdis _ h1 _ (List.mem_append_left _ h2)
  simpa using fun h : fnv1a (r.elem ++ k) = q.1 => this h.symm

open Classical in
/-- what an answered request does -/
noncomputable def reqStep (a : Prop) (grp : ℕ → Group) (st : Reqs) (r : Request) : Reqs :=
  if a then ⟨st.tab ++ entries r, upd st.groups r.id (grp r.id)⟩ else st

theorem tab_step {n : ℕ} {a : Prop} {grp : ℕ → Group} {st : Reqs} {r : Request} (h : TabUpto n st.tab) (hr : allRequests[n]? = some r) :
    TabUpto (n + 1) (reqStep a grp st r).tab := by
  obtain ⟨pre, hp, ht⟩ := h
  have htake : allRequests.take (n + 1) = allRequests.take n ++ [r] := by rw [List.take_add_one, hr]; rfl
  unfold reqStep
  split
  · exact ⟨pre ++ [r], by rw [htake]; exact List.Sublist.append hp (List.Sublist.refl _), by simp [tabOf, ht]⟩
  · exact ⟨pre, by rw [htake]; exact hp.trans (List.sublist_append_left _ _), ht⟩

open Classical in
theorem request_step (d : Doc) (hd : d.Named) (grp : ℕ → Group) (hg : ∀ r ∈ allRequests, d.has r → GroupOf d r (grp r.id)) {n : ℕ} {r : Request}
    (hr : allRequests[n]? = some r) (st : Reqs) (ht : TabUpto n st.tab) :
    request (d.map DElem.elem) st r = (reqStep (d.has r) grp st r, decide (d.has r)) := by
  have hm : r ∈ allRequests := List.mem_of_getElem? hr
  by_cases h : d.has r
  · rw [request_has d hd r hm (keys_ne r hm) h (grp r.id) (hg r hm h) (keys_nodup r hm) st (tab_fresh ht r hr)]
    simp [reqStep, h]
  · rw [request_not d hd r h]
    simp [reqStep, h]

/-- the requests that are answered -/
def Act (d : Doc) (r : Request) : Prop :=
  d.has r ∧ ((r.id = 4 ∨ r.id = 5) → ¬ d.has rC ∧ ¬ d.has rC')

open Classical in
/-- the group of the colours returned -/
noncomputable def colourGroup (d : Doc) : Option ℕ :=
  if d.has rC' then some 3 else if d.has rC then some 2 else if d.has rFC' then some 5 else if d.has rFC then some 4 else none

open Classical in
/-- the group of the faces returned -/
noncomputable def faceGroup (d : Doc) : Option ℕ := if d.has rF' then some 7 else if d.has rF then some 6 else none

open Classical in
theorem reqStep_tab (a : Prop) (grp : ℕ → Group) (st : Reqs) (r : Request) :
    (reqStep a grp st r).tab = st.tab ++ tabOf ([r].filter (fun _ => decide a)) := by
  unfold reqStep
  by_cases h : a <;> simp [h, tabOf]

theorem reqStep_same {a : Prop} (h : a) (grp : ℕ → Group) (st : Reqs) (r : Request) : (reqStep a grp st r).groups r.id = grp r.id := by
  simp [reqStep, h, upd]

theorem reqStep_other {i : ℕ} {r : Request} (h : i ≠ r.id) (a : Prop) (grp : ℕ → Group) (st : Reqs) : (reqStep a grp st r).groups i = st.groups i := by
  unfold reqStep
  split
  · simp [upd, h]
  · rfl

open Classical in
theorem filter_all (P : Request → Prop) : tabOf (allRequests.filter (fun r => decide (P r)))
    = tabOf ([rV].filter (fun _ => decide (P rV))) ++ (tabOf ([rN].filter (fun _ => decide (P rN))) ++ (tabOf ([rC].filter (fun _ => decide (P rC)))
      ++ (tabOf ([rC'].filter (fun _ => decide (P rC'))) ++ (tabOf ([rFC].filter (fun _ => decide (P rFC))) ++ (tabOf ([rFC'].filter (fun _ => decide (P rFC')))
      ++ (tabOf ([rF].filter (fun _ => decide (P rF))) ++ tabOf ([rF'].filter (fun _ => decide (P rF'))))))))) := by
  have key : ∀ (r : Request) (l : List Request), tabOf ((r :: l).filter (fun r => decide (P r)))
      = tabOf ([r].filter (fun _ => decide (P r))) ++ tabOf (l.filter (fun r => decide (P r))) := by
    intro r l
    by_cases h : P r <;> simp [List.filter_cons, h, tabOf]
  have key1 : ∀ (r : Request), tabOf ([r].filter (fun r => decide (P r))) = tabOf ([r].filter (fun _ => decide (P r))) := by
    intro r
    by_cases h : P r <;> simp [List.filter_cons, h]
  unfold allRequests
  rw [key, key, key, key, key, key, key, key1]

theorem reqs_ext (x : Reqs) (t : Table) (h : x.tab = t) : x = ⟨t, x.groups⟩ := by subst h; rfl

open Classical in
theorem requests_spec (d : Doc) (hd : d.Named) (grp : ℕ → Group) (hg : ∀ r ∈ allRequests, d.has r → GroupOf d r (grp r.id)) :
    ∃ groups, (∀ r ∈ allRequests, Act d r → groups r.id = grp r.id) ∧
      requests (d.map DElem.elem) = (⟨tabOf (allRequests.filter (fun r => decide (Act d r))), groups⟩,
        ⟨decide (d.has rV), decide (d.has rN), colourGroup d, faceGroup d⟩) := by
  set st0 : Reqs := ⟨[], fun _ => ⟨.invalid, false, 0, 0⟩⟩ with hst0
  have t0 : TabUpto 0 st0.tab := ⟨[], by simp, rfl⟩
  have e0 := request_step d hd grp hg (n := 0) (r := rV) rfl st0 t0
  have t1 := tab_step (a := d.has rV) (grp := grp) (n := 0) (r := rV) t0 rfl
  have e1 := request_step d hd grp hg (n := 1) (r := rN) rfl _ t1
  have t2 := tab_step (a := d.has rN) (grp := grp) (n := 1) (r := rN) t1 rfl
  have e2 := request_step d hd grp hg (n := 2) (r := rC) rfl _ t2
  have t3 := tab_step (a := d.has rC) (grp := grp) (n := 2) (r := rC) t2 rfl
  have e3 := request_step d hd grp hg (n := 3) (r := rC') rfl _ t3
  have t4 := tab_step (a := d.has rC') (grp := grp) (n := 3) (r := rC') t3 rfl
  set st4 := reqStep (d.has rC') grp (reqStep (d.has rC) grp (reqStep (d.has rN) grp (reqStep (d.has rV) grp st0 rV) rN) rC) rC' with hst4
  have e4 := request_step d hd grp hg (n := 4) (r := rFC) rfl st4 t4
  by_cases hc : d.has rC ∨ d.has rC'
  · -- vertex colours
    have t5 := tab_step (a := False) (grp := grp) (n := 4) (r := rFC) t4 rfl
    have t6 := tab_step (a := False) (grp := grp) (n := 5) (r := rFC') t5 rfl
    have hs6 : reqStep False grp (reqStep False grp st4 rFC) rFC' = st4 := by simp [reqStep]
    rw [hs6] at t6
    have e6 := request_step d hd grp hg (n := 6) (r := rF) rfl st4 t6
    have t7 := tab_step (a := d.has rF) (grp := grp) (n := 6) (r := rF) t6 rfl
    have e7 := request_step d hd grp hg (n := 7) (r := rF') rfl _ t7
    refine ⟨(reqStep (d.has rF') grp (reqStep (d.has rF) grp st4 rF) rF').groups, ?_, ?_⟩
    · intro r hr ha
      have h := ha.1
      have h45 := ha.2
      simp only [allRequests, List.mem_cons, List.not_mem_nil, or_false] at hr
      rw [hst4]
      rcases hr with rfl | rfl | rfl | rfl | rfl | rfl | rfl | rfl
      · rw [reqStep_other (by decide), reqStep_other (by decide), reqStep_other (by decide), reqStep_other (by decide), reqStep_other (by decide), reqStep_same h]
      · rw [reqStep_other (by decide), reqStep_other (by decide), reqStep_other (by decide), reqStep_other (by decide), reqStep_same h]
      · rw [reqStep_other (by decide), reqStep_other (by decide), reqStep_other (by decide), reqStep_same h]
      · rw [reqStep_other (by decide), reqStep_other (by decide), reqStep_same h]
      · have := h45 (Or.inl rfl); tauto
      · have := h45 (Or.inr rfl); tauto
      · rw [reqStep_other (by decide), reqStep_same h]
      · rw [reqStep_same h]
    · have hvc : (later rC rC' (decide (d.has rC)) (decide (d.has rC'))).isSome = true := by
        unfold later
        rcases hc with h | h <;> simp [h]
        split_ifs <;> simp
      unfold requests
      simp only [← hst0, e0, e1, e2, e3, ← hst4, hvc, if_true, e6, e7]
      refine Prod.ext ?_ ?_
      · refine reqs_ext _ _ ?_
        have a4 : ¬ Act d rFC := fun h => by have := h.2 (Or.inl rfl); tauto
        have a5 : ¬ Act d rFC' := fun h => by have := h.2 (Or.inr rfl); tauto
        have ai : ∀ r : Request, r.id ≠ 4 → r.id ≠ 5 → (Act d r ↔ d.has r) := fun r h4 h5 => by simp [Act, h4, h5]
        rw [filter_all]
        simp only [a4, a5, ai rV (by decide) (by decide), ai rN (by decide) (by decide), ai rC (by decide) (by decide),
          ai rC' (by decide) (by decide), ai rF (by decide) (by decide), ai rF' (by decide) (by decide)]
        rw [hst4, reqStep_tab, reqStep_tab, reqStep_tab, reqStep_tab, reqStep_tab, reqStep_tab, hst0]
        have hno : ∀ r : Request, tabOf ([r].filter (fun _ => decide False)) = [] := fun r => by simp [tabOf]
        simp only [List.append_assoc, List.nil_append, hno]
      · simp only [colourGroup, faceGroup, later]
        have : (if d.has rC' then some 3 else if d.has rC then some 2 else if d.has rFC' then some 5 else if d.has rFC then some 4 else none)
            = (if decide (d.has rC') = true then some rC'.id else if decide (d.has rC) = true then some rC.id else none) := by
          by_cases h1 : d.has rC'
          · simp only [h1, if_true, decide_true]; rfl
          · have h2 : d.has rC := by tauto
            simp only [h1, h2, if_true, if_false, decide_true, decide_false, Bool.false_eq_true]; rfl
        rw [this]
        simp only [decide_eq_true_eq]
        rfl
  · -- face colours
    have hc1 : ¬ d.has rC := fun h => hc (Or.inl h)
    have hc2 : ¬ d.has rC' := fun h => hc (Or.inr h)
    have t5 := tab_step (a := d.has rFC) (grp := grp) (n := 4) (r := rFC) t4 rfl
    have e5 := request_step d hd grp hg (n := 5) (r := rFC') rfl _ t5
    have t6 := tab_step (a := d.has rFC') (grp := grp) (n := 5) (r := rFC') t5 rfl
    have e6 := request_step d hd grp hg (n := 6) (r := rF) rfl _ t6
    have t7 := tab_step (a := d.has rF) (grp := grp) (n := 6) (r := rF) t6 rfl
    have e7 := request_step d hd grp hg (n := 7) (r := rF') rfl _ t7
    refine ⟨(reqStep (d.has rF') grp (reqStep (d.has rF) grp (reqStep (d.has rFC') grp (reqStep (d.has rFC) grp st4 rFC) rFC') rF) rF').groups, ?_, ?_⟩
    · intro r hr ha
      have h := ha.1
      simp only [allRequests, List.mem_cons, List.not_mem_nil, or_false] at hr
      rw [hst4]
      rcases hr with rfl | rfl | rfl | rfl | rfl | rfl | rfl | rfl
      · rw [reqStep_other (by decide), reqStep_other (by decide), reqStep_other (by decide), reqStep_other (by decide), reqStep_other (by decide), reqStep_other (by decide), reqStep_other (by decide), reqStep_same h]
      · rw [reqStep_other (by decide), reqStep_other (by decide), reqStep_other (by decide), reqStep_other (by decide), reqStep_other (by decide), reqStep_other (by decide), reqStep_same h]
      · rw [reqStep_other (by decide), reqStep_other (by decide), reqStep_other (by decide), reqStep_other (by decide), reqStep_other (by decide), reqStep_same h]
      · rw [reqStep_other (by decide), reqStep_other (by decide), reqStep_other (by decide), reqStep_other (by decide), reqStep_same h]
      · rw [reqStep_other (by decide), reqStep_other (by decide), reqStep_other (by decide), reqStep_same h]
      · rw [reqStep_other (by decide), reqStep_other (by decide), reqStep_same h]
      · rw [reqStep_other (by decide), reqStep_same h]
      · rw [reqStep_same h]
    · have hvc : (later rC rC' (decide (d.has rC)) (decide (d.has rC'))) = none := by simp [later, hc1, hc2]
      unfold requests
      simp only [← hst0, e0, e1, e2, e3, ← hst4, hvc, Option.isSome_none, Bool.false_eq_true, if_false, e4, e5, e6, e7]
      refine Prod.ext ?_ ?_
      · refine reqs_ext _ _ ?_
        have ai : ∀ r : Request, (Act d r ↔ d.has r) := fun r => by simp [Act, hc1, hc2]
        rw [filter_all]
        simp only [ai]
        rw [hst4, reqStep_tab, reqStep_tab, reqStep_tab, reqStep_tab, reqStep_tab, reqStep_tab, reqStep_tab, reqStep_tab, hst0]
        simp only [List.append_assoc, List.nil_append]
      · simp only [colourGroup, faceGroup, later, hc1, hc2, if_false, decide_eq_true_eq]
        rfl

end Gpy.Ply
