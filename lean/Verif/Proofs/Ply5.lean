import Verif.Proofs.Ply4

/-!
# PLY: reading a document
-/

set_option autoImplicit false
namespace Gpy.Ply

variable {pt : Put} {cd : Codec} {canon : Ty → List Byte → List Byte} {Pad : List Byte → Prop}

/-! ## the values of a row -/

theorem keyVals_scalar (keys : List Name) (e : DElem) (t : Ty) (hio : InOrder e keys t) (row : List (List (List Byte)))
    (h : List.Forall₂ CellOk e.props row) :
    keyVals canon keys e.props row = (keyCells keys e.props row).map (fun q => canon q.1.ty (q.2.headD [])) ∧
    (∀ q ∈ keyCells keys e.props row, q.1.ty = t ∧ ∃ v, q.2 = [v] ∧ v.length = t.stride ∧ t ≠ .invalid) ∧
    (keyCells keys e.props row).map (fun q => q.1.name) = keys := by
  have h1 : ∀ q ∈ keyCells keys e.props row, q.1.ty = t ∧ ∃ v, q.2 = [v] ∧ v.length = t.stride ∧ t ≠ .invalid := by
    intro q hq
    obtain ⟨hz, hk⟩ := List.mem_filter.mp hq
    have hp := (List.of_mem_zip (a := q.1) (b := q.2) hz).1
    obtain ⟨ht, hl⟩ := hio.2 q.1 hp (of_decide_eq_true hk)
    obtain ⟨c1, c2, c3⟩ := zip_cellOk h q hz
    rw [hl] at c3
    obtain ⟨v, hv⟩ := List.length_eq_one_iff.mp c3
    refine ⟨ht, v, hv, ?_, by rw [← ht]; exact c1⟩
    rw [← ht]; exact c2 v (by rw [hv]; simp)
  refine ⟨?_, h1, ?_⟩
  · unfold keyVals
    generalize keyCells keys e.props row = z at h1
    induction z with
    | nil => rfl
    | cons q z ih =>
      obtain ⟨_, v, hv, _⟩ := h1 q (by simp)
      rw [List.flatMap_cons, List.map_cons, ih (fun x hx => h1 x (by simp [hx])), hv]
      rfl
  · rw [keyCells_names keys e.props row h, hio.1]

theorem keyVals_scalar_shape (L : Lawful pt cd canon Pad) (keys : List Name) (e : DElem) (t : Ty) (hio : InOrder e keys t) (row : List (List (List Byte)))
    (h : List.Forall₂ CellOk e.props row) :
    (keyVals canon keys e.props row).length = keys.length ∧ ∀ v ∈ keyVals canon keys e.props row, v.length = t.stride := by
  obtain ⟨h1, h2, h3⟩ := keyVals_scalar (canon := canon) keys e t hio row h
  have hl := congrArg List.length h3
  rw [List.length_map] at hl
  refine ⟨by rw [h1, List.length_map, hl], ?_⟩
  intro v hv
  rw [h1] at hv
  obtain ⟨q, hq, rfl⟩ := List.mem_map.mp hv
  obtain ⟨ht, v, hv, hvl, hti⟩ := h2 q hq
  rw [ht, hv]
  exact L.len t v hti hvl

theorem scalars_of (keys : List Name) (e : DElem) (t : Ty) (hio : InOrder e keys t) (hn : (e.props.map DProp.name).Nodup)
    (h : ∀ row ∈ e.rows, List.Forall₂ CellOk e.props row) {m k : ℕ} (hm : m = keys.length) (R : List (Fin m → Fin k → Byte)) (hlen : R.length = e.rows.length)
    (hR : ∀ (i : ℕ) r a, R[i]? = some r → (e.rows.map (keyVals canon keys e.props))[i]? = some a → ∀ j : Fin m, a[j.val]? = some (List.ofFn (r j))) :
    Scalars canon e keys R := by
  refine ⟨hlen, ?_⟩
  intro i r row hr hrow j
  have hok := h row (List.mem_of_getElem? hrow)
  obtain ⟨h1, h2, h3⟩ := keyVals_scalar (canon := canon) keys e t hio row hok
  have ha := hR i r (keyVals canon keys e.props row) hr (by rw [List.getElem?_map, hrow]; rfl) j
  rw [h1, List.getElem?_map] at ha
  obtain ⟨q, hq, hqe⟩ := Option.map_eq_some_iff.mp ha
  have hmem := List.mem_of_getElem? hq
  obtain ⟨ht, v, hv, _, _⟩ := h2 q hmem
  refine ⟨q.1.name, q.1.ty, v, ?_, ?_, ?_⟩
  · rw [← h3, List.getElem?_map, hq]; rfl
  · rw [field_of_mem e hn row q (List.mem_filter.mp hmem).1, hv]
  · rw [← hqe, hv]; rfl

theorem keyCells_single (k : Name) (e : DElem) (hn : (e.props.map DProp.name).Nodup) (row : List (List (List Byte))) (c : Ty × List (List Byte))
    (hf : e.field k row = some c) : ∃ q ∈ e.props.zip row, q.1.name = k ∧ q.1.ty = c.1 ∧ q.2 = c.2 ∧ keyCells [k] e.props row = [q] := by
  unfold DElem.field at hf
  obtain ⟨q, hq, hqe⟩ := Option.map_eq_some_iff.mp hf
  have hmem := List.mem_of_find?_eq_some hq
  have hk : q.1.name = k := of_decide_eq_true (List.find?_some (p := fun q : DProp × List (List Byte) => decide (q.1.name = k)) hq)
  refine ⟨q, hmem, hk, congrArg Prod.fst hqe, congrArg Prod.snd hqe, ?_⟩
  have hz := zip_names_nodup hn row
  unfold keyCells
  generalize e.props.zip row = z at hmem hz
  clear hq hf
  induction z with
  | nil => simp at hmem
  | cons x z ih =>
    rw [List.map_cons, List.nodup_cons] at hz
    rw [List.filter_cons]
    rcases List.mem_cons.mp hmem with h | h
    · subst h
      have : z.filter (fun q => decide (q.1.name ∈ [k])) = [] := by
        rw [List.filter_eq_nil_iff]
        intro y hy hyk
        have : y.1.name = k := by simpa using of_decide_eq_true hyk
        exact hz.1 (List.mem_map.mpr ⟨y, hy, by rw [this, hk]⟩)
      rw [this]
      simp [hk]
    · have hx : ¬ x.1.name ∈ [k] := by
        intro hxk
        have : x.1.name = k := by simpa using hxk
        exact hz.1 (List.mem_map.mpr ⟨q, h, by rw [this, hk]⟩)
      rw [if_neg (by simpa using hx)]
      exact ih h hz.2

theorem keyVals_tri (k : Name) (e : DElem) (hn : (e.props.map DProp.name).Nodup) (ht : TriangleList e k) (row : List (List (List Byte))) (hrow : row ∈ e.rows)
    (h : List.Forall₂ CellOk e.props row) :
    ∃ t v0 v1 v2, e.field k row = some (t, [v0, v1, v2]) ∧ keyVals canon [k] e.props row = [canon t v0, canon t v1, canon t v2] ∧
      (t = .int32 ∨ t = .uint32) ∧ v0.length = 4 ∧ v1.length = 4 ∧ v2.length = 4 := by
  obtain ⟨t, v0, v1, v2, hf⟩ := ht.2 row hrow
  obtain ⟨q, hq, hqn, hqt, hqc, hc⟩ := keyCells_single k e hn row _ hf
  have hp := (List.of_mem_zip (a := q.1) (b := q.2) hq).1
  have hty := (ht.1 q.1 hp hqn).1
  obtain ⟨_, c2, _⟩ := zip_cellOk h q hq
  simp only at hqt hqc
  have hst : q.1.ty.stride = 4 := by rcases hty with h | h <;> rw [h] <;> rfl
  refine ⟨t, v0, v1, v2, hf, ?_, by rw [← hqt]; exact hty, ?_, ?_, ?_⟩
  · unfold keyVals
    rw [hc]
    simp [hqc, hqt]
  all_goals (rw [← hst]; exact c2 _ (by rw [hqc]; simp))

/-! ## groups -/

/-- the facts about an answered request used below -/
structure Fits (canon : Ty → List Byte → List Byte) (d : Doc) (r : Request) (G : Group) : Prop where
  group : GroupOf d r G
  shape : ∀ e ∈ d, e.name = r.elem → ∀ row ∈ e.rows,
    (keyVals canon r.keys e.props row).length = (if G.isList then G.hint else 1) * r.keys.length ∧
    ∀ v ∈ keyVals canon r.keys e.props row, v.length = G.ty.stride

theorem inOrder_uniform {e : DElem} {keys : List Name} {t : Ty} (h : InOrder e keys t) :
    ∀ p ∈ e.props, p.name ∈ keys → p.ty = t ∧ p.list.isSome = false := by
  intro p hp hk
  obtain ⟨h1, h2⟩ := h.2 p hp hk
  exact ⟨h1, by rw [h2]; rfl⟩

theorem fits_scalar (L : Lawful pt cd canon Pad) (d : Doc) (hok : d.Ok) (hd : d.Named) (r : Request) (hr0 : r.hint = 0) (t : Ty) (e0 : DElem) (he0 : e0 ∈ d)
    (hn0 : e0.name = r.elem) (hio : InOrder e0 r.keys t) : Fits canon d r ⟨t, false, e0.rows.length, 0⟩ := by
  have hu : ∀ e ∈ d, e.name = r.elem → e = e0 := fun e he hn => name_inj hd.elems he he0 (by rw [hn, hn0])
  refine ⟨⟨hr0.symm, fun e he hn => ?_⟩, fun e he hn row hrow => ?_⟩
  · rw [hu e he hn]; exact ⟨rfl, inOrder_uniform hio⟩
  · rw [hu e he hn] at hrow ⊢
    have := keyVals_scalar_shape L r.keys e0 t hio row (hok e0 he0 row hrow)
    simpa using this

theorem fits_list (L : Lawful pt cd canon Pad) (d : Doc) (hok : d.Ok) (hd : d.Named) (r : Request) (hr3 : r.hint = 3) (k : Name) (hk : r.keys = [k])
    (hh : d.has r) (e0 : DElem) (he0 : e0 ∈ d) (hn0 : e0.name = r.elem) (ht : TriangleList e0 k) :
    ∃ G, Fits canon d r G ∧ (G.ty = .int32 ∨ G.ty = .uint32) ∧ G.isList = true := by
  have hu : ∀ e ∈ d, e.name = r.elem → e = e0 := fun e he hn => name_inj hd.elems he he0 (by rw [hn, hn0])
  obtain ⟨e, he, hen, hks⟩ := hh
  rw [hu e he hen] at hks
  obtain ⟨p, hp, hpk⟩ := hks k (by rw [hk]; simp)
  obtain ⟨hty, hl⟩ := ht.1 p hp hpk
  refine ⟨⟨p.ty, true, e0.rows.length, 3⟩, ⟨⟨hr3.symm, fun e he hn => ?_⟩, fun e he hn row hrow => ?_⟩, hty, rfl⟩
  · rw [hu e he hn]
    refine ⟨rfl, fun p' hp' hk' => ?_⟩
    have : p'.name = k := by rw [hk] at hk'; simpa using hk'
    have : p' = p := name_inj (hd.props e0 he0) hp' hp (by rw [this, hpk])
    subst this
    exact ⟨rfl, Option.isSome_iff_ne_none.mpr hl⟩
  · rw [hu e he hn] at hrow ⊢
    obtain ⟨t, v0, v1, v2, _, hv, ht', l0, l1, l2⟩ := keyVals_tri (canon := canon) k e0 (hd.props e0 he0) ht row hrow (hok e0 he0 row hrow)
    have hti : t ≠ .invalid := by rcases ht' with h | h <;> rw [h] <;> decide
    have hts : t.stride = 4 := by rcases ht' with h | h <;> rw [h] <;> rfl
    have hps : p.ty.stride = 4 := by rcases hty with h | h <;> rw [h] <;> rfl
    rw [hk, hv]
    refine ⟨by simp, ?_⟩
    intro v hvm
    have hlen : ∀ x : List Byte, x.length = 4 → (canon t x).length = 4 := fun x hx => by rw [← hts]; exact L.len t x hti (by rw [hts]; exact hx)
    simp only [List.mem_cons, List.not_mem_nil, or_false] at hvm
    rw [hps]
    rcases hvm with rfl | rfl | rfl
    · exact hlen _ l0
    · exact hlen _ l1
    · exact hlen _ l2

/-! ## capacities -/

theorem countP_tabOf (l : List Request) (hn : (l.map Request.id).Nodup) (r : Request) (hr : r ∈ l) :
    (tabOf l).countP (fun q => decide (q.2 = r.id)) = r.keys.length := by
  have hent : ∀ r' : Request, (entries r').countP (fun q => decide (q.2 = r.id)) = if r'.id = r.id then r'.keys.length else 0 := by
    intro r'
    unfold entries
    rw [List.countP_map]
    by_cases h : r'.id = r.id
    · rw [if_pos h, List.countP_eq_length]
      intro k _
      simp [h]
    · rw [if_neg h, List.countP_eq_zero]
      intro k _
      simp [h]
  have hzero : ∀ l' : List Request, (∀ r' ∈ l', r'.id ≠ r.id) → (tabOf l').countP (fun q => decide (q.2 = r.id)) = 0 := by
    intro l' h
    rw [List.countP_eq_zero]
    intro q hq
    obtain ⟨r', hr', hq'⟩ := List.mem_flatMap.mp hq
    obtain ⟨k, _, rfl⟩ := List.mem_map.mp hq'
    simpa using h r' hr'
  induction l with
  | nil => simp at hr
  | cons x l ih =>
    rw [List.map_cons, List.nodup_cons] at hn
    have : tabOf (x :: l) = entries x ++ tabOf l := by simp [tabOf]
    rw [this, List.countP_append, hent]
    rcases List.mem_cons.mp hr with h | h
    · subst h
      rw [if_pos rfl, hzero l (fun r' hr' hid => hn.1 (by rw [← hid]; exact List.mem_map_of_mem hr')), Nat.add_zero]
    · have hne : x.id ≠ r.id := fun hid => hn.1 (by rw [hid]; exact List.mem_map_of_mem h)
      rw [if_neg hne, ih hn.2 h, Nat.zero_add]

theorem ids_nodup : (allRequests.map Request.id).Nodup := by decide

theorem flat_length {A : List (List (List Byte))} {m k : ℕ} (hA : ∀ a ∈ A, a.length = m ∧ ∀ v ∈ a, v.length = k) :
    (A.flatMap List.flatten).length = A.length * (m * k) := by
  have hlen1 : ∀ a ∈ A, a.flatten.length = m * k := by
    intro a ha
    obtain ⟨h1, h2⟩ := hA a ha
    rw [List.length_flatten]
    have : a.map List.length = List.replicate m k := by
      rw [List.eq_replicate_iff]
      refine ⟨by simp [h1], ?_⟩
      intro b hb
      obtain ⟨v, hv, rfl⟩ := List.mem_map.mp hb
      exact h2 v hv
    rw [this]; simp
  clear hA
  induction A with
  | nil => simp
  | cons a A ih =>
    rw [List.flatMap_cons, List.length_append, hlen1 a (by simp), ih (fun b hb => hlen1 b (by simp [hb])), List.length_cons]
    ring

/-- the buffer of an answered request, as rows -/
theorem pickDoc_rows (d : Doc) (hd : d.Named) (e : DElem) (he : e ∈ d) (r : Request) (hr : r ∈ allRequests) (ha : Act d r) (hen : e.name = r.elem) :
    pickDoc canon (docTab d) r.id d = (e.rows.map (keyVals canon r.keys e.props)).flatMap List.flatten := by
  rw [pickDoc_keys d hd e he r hr ha hen, List.flatMap_map]

theorem pickDoc_length (d : Doc) (hd : d.Named) (r : Request) (hr : r ∈ allRequests) (ha : Act d r) (G : Group) (hG : Fits canon d r G) :
    (pickDoc canon (docTab d) r.id d).length = G.count * G.ty.stride * (if G.isList then G.hint else 1) * r.keys.length := by
  obtain ⟨e, he, hen, _⟩ := ha.1
  rw [pickDoc_rows d hd e he r hr ha hen, flat_length (m := (if G.isList then G.hint else 1) * r.keys.length) (k := G.ty.stride)]
  · rw [List.length_map, (hG.group.2 e he hen).1]; ring
  · intro a ha'
    obtain ⟨row, hrow, rfl⟩ := List.mem_map.mp ha'
    exact hG.shape e he hen row hrow

open Classical in
theorem capacities_spec (L : Lawful pt cd canon Pad) (d : Doc) (hok : d.Ok) (hd : d.Named) (groups : ℕ → Group)
    (hG : ∀ r ∈ allRequests, Act d r → Fits canon d r (groups r.id)) (hcloud : ¬ d.has rF → ¬ d.has rF' → NoLists d) :
    ∃ caps, capacities cd (d.map DElem.elem) ⟨docTab d, groups⟩ (d.payload pt) = some caps ∧
      (∀ g, (pickDoc canon (docTab d) g d).length ≤ caps g) ∧ ∀ r ∈ allRequests, Act d r → caps r.id = (pickDoc canon (docTab d) r.id d).length := by
  unfold capacities
  by_cases hany : (docTab d).any (fun q => decide ((groups q.2).hint ≠ 0)) = true
  · rw [if_pos hany]
    have hcap : ∀ r ∈ allRequests, Act d r →
        (groups r.id).count * (groups r.id).ty.stride * (if (groups r.id).isList then (groups r.id).hint else 1)
          * ((docTab d).countP (fun q => decide (q.2 = r.id))) = (pickDoc canon (docTab d) r.id d).length := by
      intro r hr ha
      rw [pickDoc_length d hd r hr ha _ (hG r hr ha)]
      have : (docTab d).countP (fun q => decide (q.2 = r.id)) = r.keys.length := by
        unfold docTab
        refine countP_tabOf _ (List.Nodup.sublist (List.Sublist.map _ List.filter_sublist) ids_nodup) r ?_
        simp [hr, ha]
      rw [this]
    refine ⟨_, rfl, fun g => ?_, hcap⟩
    by_cases hg : ∃ r ∈ allRequests, Act d r ∧ r.id = g
    · obtain ⟨r, hr, ha, rfl⟩ := hg
      exact le_of_eq (hcap r hr ha).symm
    · rw [pickDoc_none d hd g (fun r hr ha hid => hg ⟨r, hr, ha, hid⟩)]
      exact Nat.zero_le _
  · rw [if_neg hany]
    have hno : ∀ r ∈ allRequests, r.hint ≠ 0 → r.keys ≠ [] → ¬ Act d r := by
      intro r hr hh hk ha
      apply hany
      rw [List.any_eq_true]
      obtain ⟨k, ks, hks⟩ := List.exists_cons_of_ne_nil hk
      refine ⟨(fnv1a (r.elem ++ k), r.id), ?_, ?_⟩
      · unfold docTab
        rw [mem_tabOf]
        exact ⟨r, by simp [hr, ha], rfl, k, by rw [hks]; simp, rfl⟩
      · simp only [decide_eq_true_eq]
        rw [(hG r hr ha).group.1]
        exact hh
    have h1 : ¬ d.has rF := fun h => hno rF (by simp [allRequests]) (by decide) (by decide) ⟨h, fun h => absurd h (by decide)⟩
    have h2 : ¬ d.has rF' := fun h => hno rF' (by simp [allRequests]) (by decide) (by decide) ⟨h, fun h => absurd h (by decide)⟩
    exact ⟨_, firstPass_spec L (docTab d) d hok (hcloud h1 h2), fun g => le_refl _, fun r _ _ => rfl⟩

end Gpy.Ply
