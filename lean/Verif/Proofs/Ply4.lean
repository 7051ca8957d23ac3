import Verif.Proofs.Ply3
import Mathlib.Tactic.Linarith
import Mathlib.Data.List.GetD

/-!
# PLY: the buffers of a document
-/

set_option autoImplicit false
namespace Gpy.Ply

variable {pt : Put} {cd : Codec} {canon : Ty → List Byte → List Byte} {Pad : List Byte → Prop}

theorem lookup_iff (t : Table) (hn : (t.map Prod.fst).Nodup) (h g : ℕ) : t.lookup h = some g ↔ (h, g) ∈ t := by
  induction t with
  | nil => simp
  | cons q t ih =>
    obtain ⟨a, b⟩ := q
    simp only [List.map_cons, List.nodup_cons] at hn
    by_cases hh : h = a
    · subst hh
      have hno : (h, g) ∉ t := fun hm => hn.1 (List.mem_map_of_mem (f := Prod.fst) hm)
      simp [List.lookup, hno, eq_comm]
    · have : (h == a) = false := beq_eq_false_iff_ne.mpr hh
      simp [List.lookup, this, ih hn.2, hh]

theorem sublist_flatMap {α β : Type} {l l' : List α} (h : l.Sublist l') (f : α → List β) : (l.flatMap f).Sublist (l'.flatMap f) := by
  induction h with
  | slnil => exact List.Sublist.refl _
  | cons a _ ih => rw [List.flatMap_cons]; exact ih.trans (List.sublist_append_right _ _)
  | cons_cons a _ ih => rw [List.flatMap_cons, List.flatMap_cons]; exact List.Sublist.append (List.Sublist.refl _) ih

theorem tabOf_nodup {l : List Request} (h : l.Sublist allRequests) : ((tabOf l).map Prod.fst).Nodup := by
  refine List.Nodup.sublist (List.Sublist.map _ ?_) hashes_nodup
  unfold tabOf
  exact sublist_flatMap h entries

theorem mem_tabOf (l : List Request) (h g : ℕ) : (h, g) ∈ tabOf l ↔ ∃ r ∈ l, r.id = g ∧ ∃ k ∈ r.keys, h = fnv1a (r.elem ++ k) := by
  unfold tabOf entries
  simp only [List.mem_flatMap, List.mem_map, Prod.mk.injEq]
  constructor
  · rintro ⟨r, hr, k, hk, h1, h2⟩; exact ⟨r, hr, h2, k, hk, h1.symm⟩
  · rintro ⟨r, hr, h2, k, hk, h1⟩; exact ⟨r, hr, k, hk, h1.symm, h2⟩

theorem id_inj : ∀ r ∈ allRequests, ∀ r' ∈ allRequests, r.id = r'.id → r = r' := by
  intro r hr r' hr'
  simp only [allRequests, List.mem_cons, List.not_mem_nil, or_false] at hr hr'
  rcases hr with rfl | rfl | rfl | rfl | rfl | rfl | rfl | rfl <;> rcases hr' with rfl | rfl | rfl | rfl | rfl | rfl | rfl | rfl <;>
    (intro h; first | rfl | exact absurd h (by decide))

open Classical in
/-- the table of a document -/
noncomputable def docTab (d : Doc) : Table := tabOf (allRequests.filter (fun r => decide (Act d r)))

theorem find_docTab (d : Doc) (hd : d.Named) (e : DElem) (he : e ∈ d) (p : DProp) (hp : p ∈ e.props) (g : ℕ) :
    (docTab d).find e.name p.name = some g ↔ ∃ r ∈ allRequests, Act d r ∧ r.id = g ∧ e.name = r.elem ∧ p.name ∈ r.keys := by
  unfold docTab Table.find
  rw [lookup_iff _ (tabOf_nodup List.filter_sublist), mem_tabOf]
  constructor
  · rintro ⟨r, hr, hid, k, hk, hh⟩
    simp only [List.mem_filter, decide_eq_true_eq] at hr
    obtain ⟨h1, h2⟩ := hd.hash e he p hp r hr.1 k hk hh
    exact ⟨r, hr.1, hr.2, hid, h1, by rw [h2]; exact hk⟩
  · rintro ⟨r, hr, ha, hid, h1, h2⟩
    exact ⟨r, by simp [hr, ha], hid, p.name, h2, by rw [h1]⟩

/-- the cells of a row that belong to the keys -/
def keyCells (keys : List Name) (ps : List DProp) (row : List (List (List Byte))) : List (DProp × List (List Byte)) :=
  (ps.zip row).filter (fun q => decide (q.1.name ∈ keys))

/-- the values of a row that belong to the keys -/
def keyVals (canon : Ty → List Byte → List Byte) (keys : List Name) (ps : List DProp) (row : List (List (List Byte))) : List (List Byte) :=
  (keyCells keys ps row).flatMap (fun q => q.2.map (canon q.1.ty))

theorem pickRow_keys (d : Doc) (hd : d.Named) (e : DElem) (he : e ∈ d) (r : Request) (hr : r ∈ allRequests) (ha : Act d r) (hen : e.name = r.elem)
    (row : List (List (List Byte))) : pickRow canon (docTab d) r.id e.name e.props row = (keyVals canon r.keys e.props row).flatten := by
  unfold pickRow keyVals keyCells
  have hsub : ∀ q ∈ e.props.zip row, q.1 ∈ e.props := fun q hq => (List.of_mem_zip (a := q.1) (b := q.2) hq).1
  generalize e.props.zip row = z at hsub
  induction z with
  | nil => rfl
  | cons q z ih =>
    rw [List.flatMap_cons, ih (fun x hx => hsub x (by simp [hx])), List.filter_cons]
    have hq : (docTab d).find e.name q.1.name = some r.id ↔ q.1.name ∈ r.keys := by
      rw [find_docTab d hd e he q.1 (hsub q (by simp))]
      constructor
      · rintro ⟨r', hr', _, hid, _, hk⟩
        rw [id_inj r' hr' r hr hid] at hk; exact hk
      · intro hk; exact ⟨r, hr, ha, rfl, hen, hk⟩
    by_cases hk : q.1.name ∈ r.keys
    · have hcell : pickCell canon (docTab d) r.id e.name q = (q.2.map (canon q.1.ty)).flatten := by
        rw [pickCell, if_pos (hq.mpr hk), List.flatMap_def]
      rw [hcell]
      simp only [hk, decide_true, if_true, List.flatMap_cons, List.flatten_append]
    · have hcell : pickCell canon (docTab d) r.id e.name q = [] := by
        rw [pickCell, if_neg (fun h => hk (hq.mp h))]
      rw [hcell]
      simp only [hk, decide_false, Bool.false_eq_true, if_false, List.nil_append]

theorem pickElem_other (d : Doc) (hd : d.Named) (e : DElem) (he : e ∈ d) (g : ℕ) (h : ∀ r ∈ allRequests, Act d r → r.id = g → e.name ≠ r.elem) :
    pickElem canon (docTab d) g e = [] := by
  unfold pickElem pickRow
  rw [List.flatMap_eq_nil_iff]
  intro row _
  rw [List.flatMap_eq_nil_iff]
  intro q hq
  have hp := (List.of_mem_zip (a := q.1) (b := q.2) hq).1
  rw [pickCell, if_neg]
  intro hf
  obtain ⟨r, hr, ha, hid, hn, _⟩ := (find_docTab d hd e he q.1 hp g).mp hf
  exact h r hr ha hid hn

theorem pickDoc_none (d : Doc) (hd : d.Named) (g : ℕ) (h : ∀ r ∈ allRequests, Act d r → r.id ≠ g) : pickDoc canon (docTab d) g d = [] := by
  unfold pickDoc
  rw [List.flatMap_eq_nil_iff]
  intro e he
  exact pickElem_other d hd e he g (fun r hr ha hid => absurd hid (h r hr ha))

open Classical in
theorem pickDoc_keys (d : Doc) (hd : d.Named) (e : DElem) (he : e ∈ d) (r : Request) (hr : r ∈ allRequests) (ha : Act d r) (hen : e.name = r.elem) :
    pickDoc canon (docTab d) r.id d = e.rows.flatMap (fun row => (keyVals canon r.keys e.props row).flatten) := by
  have hmain : ∀ (l : Doc), (∀ x ∈ l, x ∈ d) → (l.map DElem.name).Nodup →
      l.flatMap (pickElem canon (docTab d) r.id) = if e ∈ l then pickElem canon (docTab d) r.id e else [] := by
    intro l
    induction l with
    | nil => intro _ _; simp
    | cons x l ih =>
      intro hs hn
      have ih' := ih (fun y hy => hs y (by simp [hy])) (List.nodup_cons.mp hn).2
      rw [List.flatMap_cons, ih']
      by_cases hx : x = e
      · subst hx
        have : x ∉ l := fun hm => (List.nodup_cons.mp hn).1 (List.mem_map_of_mem hm)
        simp [this]
      · have hne : x.name ≠ e.name := fun h => hx (name_inj hd.elems (hs x (by simp)) he h)
        have h0 := pickElem_other (canon := canon) d hd x (hs x (by simp)) r.id (by
          intro r' hr' _ hid
          rw [id_inj r' hr' r hr hid, ← hen]; exact hne)
        rw [h0]
        have : (e ∈ x :: l) ↔ e ∈ l := by
          rw [List.mem_cons]
          exact ⟨fun h => h.resolve_left (fun h => hx h.symm), Or.inr⟩
        simp [this]
  have h1 := hmain d (fun x hx => hx) hd.elems
  rw [if_pos he] at h1
  unfold pickDoc
  rw [h1, pickElem]
  congr 1
  funext row
  exact pickRow_keys d hd e he r hr ha hen row

/-! ## rows -/

theorem keyCells_names (keys : List Name) (ps : List DProp) (row : List (List (List Byte))) (h : List.Forall₂ CellOk ps row) :
    (keyCells keys ps row).map (fun q => q.1.name) = (ps.map DProp.name).filter (fun n => decide (n ∈ keys)) := by
  unfold keyCells
  induction h with
  | nil => rfl
  | @cons p c ps row _ _ ih =>
    simp only [List.zip_cons_cons, List.filter_cons, List.map_cons]
    by_cases hk : p.name ∈ keys
    · simp only [hk, decide_true, if_true, List.map_cons, ih]
    · simp only [hk, decide_false, Bool.false_eq_true, if_false, ih]

theorem zip_cellOk {ps : List DProp} {row : List (List (List Byte))} (h : List.Forall₂ CellOk ps row) : ∀ q ∈ ps.zip row, CellOk q.1 q.2 := by
  induction h with
  | nil => simp
  | cons hc _ ih =>
    intro q hq
    simp only [List.zip_cons_cons, List.mem_cons] at hq
    rcases hq with rfl | hq
    · exact hc
    · exact ih q hq

theorem zip_names_nodup {ps : List DProp} (hn : (ps.map DProp.name).Nodup) (row : List (List (List Byte))) :
    ((ps.zip row).map (fun q => q.1.name)).Nodup := by
  refine List.Nodup.sublist ?_ hn
  have : (ps.zip row).map (fun q => q.1.name) = ((ps.zip row).map Prod.fst).map DProp.name := by rw [List.map_map]; rfl
  rw [this]
  refine List.Sublist.map _ ?_
  clear hn this
  induction ps generalizing row with
  | nil => simp
  | cons p ps ih =>
    cases row with
    | nil => simp
    | cons c row => simpa using ih row

theorem field_of_mem (e : DElem) (hn : (e.props.map DProp.name).Nodup) (row : List (List (List Byte))) (q : DProp × List (List Byte))
    (hq : q ∈ e.props.zip row) : e.field q.1.name row = some (q.1.ty, q.2) := by
  unfold DElem.field
  rw [find_unique _ _ q hq (by simp)]
  · rfl
  · intro b hb hbn
    exact List.inj_on_of_nodup_map (zip_names_nodup hn row) hb hq (of_decide_eq_true hbn)

theorem rowsOf_spec (m k : ℕ) (A : List (List (List Byte))) (hA : ∀ a ∈ A, a.length = m ∧ ∀ v ∈ a, v.length = k) :
    ∃ R, rowsOf m k A.length (A.flatMap List.flatten) = some R ∧ R.length = A.length ∧
      ∀ (i : ℕ) r a, R[i]? = some r → A[i]? = some a → ∀ j : Fin m, a[j.val]? = some (List.ofFn (r j)) := by
  have hlen1 : ∀ a ∈ A, a.flatten.length = m * k := by
    intro a ha
    obtain ⟨h1, h2⟩ := hA a ha
    rw [List.length_flatten]
    have : a.map List.length = List.replicate m k := by
      rw [List.eq_replicate_iff]
      refine ⟨by simp [h1], ?_⟩
      intro b hb
      obtain ⟨v, hv, rfl⟩ := List.mem_map.mp hb
      exact h2 v hv
    rw [this]; simp
  have hlen : (A.flatMap List.flatten).length = A.length * (m * k) := by
    clear hA
    induction A with
    | nil => simp
    | cons a A ih =>
      rw [List.flatMap_cons, List.length_append, hlen1 a (by simp), ih (fun b hb => hlen1 b (by simp [hb])), List.length_cons]
      ring
  have hget : ∀ (A : List (List (List Byte))), (∀ a ∈ A, a.length = m ∧ ∀ v ∈ a, v.length = k) → (∀ a ∈ A, a.flatten.length = m * k) →
      ∀ (i : ℕ) a, A[i]? = some a → ∀ x < m * k, (A.flatMap List.flatten).getD (i * (m * k) + x) 0 = a.flatten.getD x 0 := by
    intro A
    induction A with
    | nil => intro _ _ i a h; simp at h
    | cons b A ih =>
      intro h1 h2 i a h x hx
      rw [List.flatMap_cons]
      cases i with
      | zero =>
        simp only [List.getElem?_cons_zero, Option.some.injEq] at h
        subst h
        rw [Nat.zero_mul, Nat.zero_add, List.getD_append _ _ _ _ (by rw [h2 b (by simp)]; exact hx)]
      | succ i =>
        rw [List.getElem?_cons_succ] at h
        have hb := h2 b (by simp)
        rw [List.getD_append_right _ _ _ _ (by rw [hb]; nlinarith), hb]
        have : (i + 1) * (m * k) + x - m * k = i * (m * k) + x := by
          rw [Nat.add_mul, Nat.one_mul]; omega
        rw [this]
        exact ih (fun c hc => h1 c (by simp [hc])) (fun c hc => h2 c (by simp [hc])) i a h x hx
  have hrow : ∀ (a : List (List Byte)), (∀ v ∈ a, v.length = k) → ∀ (j : ℕ) v, a[j]? = some v → ∀ y < k, a.flatten.getD (j * k + y) 0 = v.getD y 0 := by
    intro a
    induction a with
    | nil => intro _ j v h; simp at h
    | cons b a ih =>
      intro h1 j v h y hy
      rw [List.flatten_cons]
      have hb := h1 b (by simp)
      cases j with
      | zero =>
        simp only [List.getElem?_cons_zero, Option.some.injEq] at h
        subst h
        rw [Nat.zero_mul, Nat.zero_add, List.getD_append _ _ _ _ (by rw [hb]; exact hy)]
      | succ j =>
        rw [List.getElem?_cons_succ] at h
        rw [List.getD_append_right _ _ _ _ (by rw [hb]; nlinarith), hb]
        have : (j + 1) * k + y - k = j * k + y := by
          rw [Nat.add_mul, Nat.one_mul]; omega
        rw [this]
        exact ih (fun c hc => h1 c (by simp [hc])) j v h y hy
  refine ⟨(List.range A.length).map (fun i => fun j => valAt k (A.flatMap List.flatten) ((i * m + j.val) * k)), ?_, by simp, ?_⟩
  · unfold rowsOf
    rw [if_neg (by rw [hlen]; exact lt_irrefl _)]
  · intro i r a hr ha j
    have hi : i < A.length := (List.getElem?_eq_some_iff.mp ha).1
    rw [List.getElem?_map, List.getElem?_range hi] at hr
    simp only [Option.map_some, Option.some.injEq] at hr
    subst hr
    obtain ⟨h1, h2⟩ := hA a (List.mem_of_getElem? ha)
    have hj : j.val < a.length := by rw [h1]; exact j.2
    rw [List.getElem?_eq_getElem hj]
    congr 1
    have hv := h2 _ (List.getElem_mem hj)
    apply List.ext_getElem
    · simp [hv]
    · intro y hy1 hy2
      have hyk : y < k := by rw [← hv]; exact hy1
      have e1 := hget A hA hlen1 i a ha (j.val * k + y) (by
        have := j.2
        calc j.val * k + y < j.val * k + k := by omega
          _ = (j.val + 1) * k := by ring
          _ ≤ m * k := Nat.mul_le_mul_right _ this)
      have e2 := hrow a h2 j.val _ (List.getElem?_eq_getElem hj) y hyk
      rw [List.getElem_ofFn]
      simp only [valAt]
      have e3 : (i * m + j.val) * k + y = i * (m * k) + (j.val * k + y) := by ring
      rw [e3, e1, e2, List.getD_eq_getElem _ _ hy1]

end Gpy.Ply
