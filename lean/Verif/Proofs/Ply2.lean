import Verif.Proofs.Ply

/-!
# PLY: reading the payload of a document
-/

set_option autoImplicit false
namespace Gpy.Ply

variable {pt : Put} {cd : Codec} {canon : Ty → List Byte → List Byte} {Pad : List Byte → Prop}

/-- the bytes of a cell that go to group `g` -/
def pickCell (canon : Ty → List Byte → List Byte) (tab : Table) (g : ℕ) (en : Name) (q : DProp × List (List Byte)) : List Byte :=
  if tab.find en q.1.name = some g then q.2.flatMap (canon q.1.ty) else []

/-- the bytes of a row that go to group `g` -/
def pickRow (canon : Ty → List Byte → List Byte) (tab : Table) (g : ℕ) (en : Name) (ps : List DProp) (row : List (List (List Byte))) : List Byte :=
  (ps.zip row).flatMap (pickCell canon tab g en)

/-- the bytes of an element that go to group `g` -/
def pickElem (canon : Ty → List Byte → List Byte) (tab : Table) (g : ℕ) (e : DElem) : List Byte :=
  e.rows.flatMap (pickRow canon tab g e.name e.props)

/-- the bytes of a document that go to group `g` -/
def pickDoc (canon : Ty → List Byte → List Byte) (tab : Table) (g : ℕ) (d : Doc) : List Byte := d.flatMap (pickElem canon tab g)

theorem readVals_spec (L : Lawful pt cd canon Pad) (t : Ty) (ht : t ≠ .invalid) (cap : ℕ) (vs : List (List Byte)) (hv : ∀ v ∈ vs, v.length = t.stride) :
    ∀ p, Pad p → ∃ p', Pad p' ∧ ∀ rest b, b.length + vs.length * t.stride ≤ cap →
      readVals cd t cap vs.length (p ++ (vs.flatMap (pt.val t) ++ rest)) b = some (p' ++ rest, b ++ vs.flatMap (canon t)) := by
  induction vs with
  | nil => intro p hp; exact ⟨p, hp, fun rest b _ => by simp [readVals]⟩
  | cons v vs ih =>
    intro p hp
    obtain ⟨p1, hp1, h1⟩ := L.get p t v hp ht (hv v (by simp))
    obtain ⟨p2, hp2, h2⟩ := ih (fun v hm => hv v (by simp [hm])) p1 hp1
    refine ⟨p2, hp2, fun rest b hb => ?_⟩
    have hl := L.len t v ht (hv v (by simp))
    simp only [List.length_cons, add_mul, one_mul] at hb
    have hc : ¬ b.length + t.stride > cap := by omega
    simp only [List.length_cons, readVals, hc, if_false, List.flatMap_cons, List.append_assoc]
    rw [h1]
    simp only [Option.bind_some]
    rw [h2 rest (b ++ canon t v) (by rw [List.length_append, hl]; omega)]
    simp

theorem skipVals_spec (L : Lawful pt cd canon Pad) (t : Ty) (ht : t ≠ .invalid) (vs : List (List Byte)) (hv : ∀ v ∈ vs, v.length = t.stride) :
    ∀ p, Pad p → ∃ p', Pad p' ∧ ∀ rest, skipVals cd t vs.length (p ++ (vs.flatMap (pt.val t) ++ rest)) = some (p' ++ rest) := by
  induction vs with
  | nil => intro p hp; exact ⟨p, hp, fun rest => by simp [skipVals]⟩
  | cons v vs ih =>
    intro p hp
    obtain ⟨p1, hp1, h1⟩ := L.skip p t v hp ht (hv v (by simp))
    obtain ⟨p2, hp2, h2⟩ := ih (fun v hm => hv v (by simp [hm])) p1 hp1
    refine ⟨p2, hp2, fun rest => ?_⟩
    simp only [List.length_cons, skipVals, List.flatMap_cons, List.append_assoc]
    rw [h1]
    simp only [Option.bind_some]
    exact h2 rest

theorem canon_flat_length (L : Lawful pt cd canon Pad) (t : Ty) (ht : t ≠ .invalid) (vs : List (List Byte)) (hv : ∀ v ∈ vs, v.length = t.stride) :
    (vs.flatMap (canon t)).length = vs.length * t.stride := by
  induction vs with
  | nil => simp
  | cons v vs ih =>
    simp only [List.flatMap_cons, List.length_append, List.length_cons, L.len t v ht (hv v (by simp)), ih (fun v hm => hv v (by simp [hm]))]
    ring

theorem readProp_spec (L : Lawful pt cd canon Pad) (cap : ℕ) (q : DProp) (c : List (List Byte)) (h : CellOk q c) :
    ∀ p, Pad p → ∃ p', Pad p' ∧ ∀ rest b, b.length + (c.flatMap (canon q.ty)).length ≤ cap →
      readProp cd cap q.prp (p ++ (encCell pt q c ++ rest)) b = some (p' ++ rest, b ++ c.flatMap (canon q.ty)) := by
  intro p hp
  obtain ⟨ht, hv, hl⟩ := h
  rw [canon_flat_length L q.ty ht c hv]
  rcases q with ⟨nm, t, l⟩
  cases l with
  | none =>
    obtain ⟨p', hp', h1⟩ := readVals_spec L t ht cap c hv p hp
    refine ⟨p', hp', fun rest b hb => ?_⟩
    have hl1 : c.length = 1 := hl
    have := h1 rest b hb
    rw [hl1] at this
    simpa [readProp, DProp.prp, encCell] using this
  | some lt =>
    obtain ⟨p1, hp1, h1⟩ := L.count p lt c.length hp hl.1 hl.2
    obtain ⟨p2, hp2, h2⟩ := readVals_spec L t ht cap c hv p1 hp1
    refine ⟨p2, hp2, fun rest b hb => ?_⟩
    simp only [readProp, DProp.prp, encCell, List.append_assoc]
    rw [h1]
    simp only [Option.bind_some]
    exact h2 rest b hb

theorem skipProp_spec (L : Lawful pt cd canon Pad) (q : DProp) (c : List (List Byte)) (h : CellOk q c) :
    ∀ p, Pad p → ∃ p', Pad p' ∧ ∀ rest ls, ∃ ls', (q.list = none → ls' = ls) ∧
      skipProp cd q.prp ls (p ++ (encCell pt q c ++ rest)) = some (ls', (c.flatMap (canon q.ty)).length, p' ++ rest) := by
  intro p hp
  obtain ⟨ht, hv, hl⟩ := h
  rw [canon_flat_length L q.ty ht c hv]
  rcases q with ⟨nm, t, l⟩
  cases l with
  | none =>
    obtain ⟨p', hp', h1⟩ := skipVals_spec L t ht c hv p hp
    refine ⟨p', hp', fun rest ls => ⟨ls, fun _ => rfl, ?_⟩⟩
    have hl1 : c.length = 1 := hl
    have := h1 rest
    rw [hl1] at this
    simp only [skipProp, DProp.prp, encCell, this, Option.map_some, hl1, one_mul]
  | some lt =>
    obtain ⟨p1, hp1, h1⟩ := L.count p lt c.length hp hl.1 hl.2
    obtain ⟨p2, hp2, h2⟩ := skipVals_spec L t ht c hv p1 hp1
    refine ⟨p2, hp2, fun rest ls => ⟨c.length, fun h => absurd h (by simp), ?_⟩⟩
    simp only [skipProp, DProp.prp, encCell, List.append_assoc]
    rw [h1]
    simp only [Option.bind_some]
    rw [h2 rest]
    simp [mul_comm]

/-! ## second pass -/

theorem readStep_spec (L : Lawful pt cd canon Pad) (tab : Table) (caps : ℕ → ℕ) (en : Name) (q : DProp) (c : List (List Byte)) (h : CellOk q c) :
    ∀ p, Pad p → ∃ p', Pad p' ∧ ∀ rest bufs, (∀ g, (bufs g).length + (pickCell canon tab g en (q, c)).length ≤ caps g) →
      readStep cd tab caps en ⟨p ++ (encCell pt q c ++ rest), bufs⟩ q.prp = some ⟨p' ++ rest, fun g => bufs g ++ pickCell canon tab g en (q, c)⟩ := by
  intro p hp
  cases hf : tab.find en q.name with
  | none =>
    obtain ⟨p', hp', h1⟩ := skipProp_spec L q c h p hp
    refine ⟨p', hp', fun rest bufs _ => ?_⟩
    obtain ⟨ls', _, h2⟩ := h1 rest 0
    have : q.prp.name = q.name := rfl
    simp only [readStep, this, hf, h2, Option.map_some, pickCell]
    simp
  | some g0 =>
    obtain ⟨p', hp', h1⟩ := readProp_spec L (caps g0) q c h p hp
    refine ⟨p', hp', fun rest bufs hb => ?_⟩
    have hb0 := hb g0
    simp only [pickCell, hf, if_true] at hb0
    have : q.prp.name = q.name := rfl
    simp only [readStep, this, hf, h1 rest (bufs g0) hb0, Option.map_some]
    congr 2
    funext g
    by_cases hg : g = g0
    · subst hg; simp [upd, pickCell, hf]
    · have : ¬ g0 = g := fun h => hg h.symm
      simp [upd, pickCell, hf, hg, this]

theorem readRow_spec (L : Lawful pt cd canon Pad) (tab : Table) (caps : ℕ → ℕ) (en : Name) (ps : List DProp) (row : List (List (List Byte)))
    (h : List.Forall₂ CellOk ps row) :
    ∀ p, Pad p → ∃ p', Pad p' ∧ ∀ rest bufs, (∀ g, (bufs g).length + (pickRow canon tab g en ps row).length ≤ caps g) →
      (ps.map DProp.prp).foldlM (readStep cd tab caps en) ⟨p ++ ((ps.zip row).flatMap (fun q => encCell pt q.1 q.2) ++ rest), bufs⟩
        = some ⟨p' ++ rest, fun g => bufs g ++ pickRow canon tab g en ps row⟩ := by
  induction h with
  | nil => intro p hp; exact ⟨p, hp, fun rest bufs _ => by simp [pickRow]⟩
  | @cons q c ps row hq _ ih =>
    intro p hp
    obtain ⟨p1, hp1, h1⟩ := readStep_spec L tab caps en q c hq p hp
    obtain ⟨p2, hp2, h2⟩ := ih p1 hp1
    refine ⟨p2, hp2, fun rest bufs hb => ?_⟩
    have hb' : ∀ g, (bufs g).length + (pickCell canon tab g en (q, c)).length + (pickRow canon tab g en ps row).length ≤ caps g := by
      intro g
      have := hb g
      simp only [pickRow, List.zip_cons_cons, List.flatMap_cons, List.length_append] at this ⊢
      omega
    simp only [List.map_cons, List.zip_cons_cons, List.flatMap_cons, List.foldlM_cons, List.append_assoc]
    rw [h1 _ bufs (fun g => le_trans (Nat.le_add_right _ _) (hb' g))]
    simp only [Option.bind_eq_bind, Option.bind_some]
    rw [h2 rest _ (fun g => by rw [List.length_append]; exact hb' g)]
    simp [pickRow]

theorem readRows_spec (L : Lawful pt cd canon Pad) (tab : Table) (caps : ℕ → ℕ) (en : Name) (ps : List DProp) (rows : List (List (List (List Byte))))
    (h : ∀ row ∈ rows, List.Forall₂ CellOk ps row) :
    ∀ p, Pad p → ∃ p', Pad p' ∧ ∀ rest bufs, (∀ g, (bufs g).length + (rows.flatMap (pickRow canon tab g en ps)).length ≤ caps g) →
      repeatM (fun st => (ps.map DProp.prp).foldlM (readStep cd tab caps en) st) rows.length ⟨p ++ (rows.flatMap (encRow pt ps) ++ rest), bufs⟩
        = some ⟨p' ++ rest, fun g => bufs g ++ rows.flatMap (pickRow canon tab g en ps)⟩ := by
  induction rows with
  | nil => intro p hp; exact ⟨p, hp, fun rest bufs _ => by simp [repeatM]⟩
  | cons row rows ih =>
    intro p hp
    obtain ⟨p1, hp1, h1⟩ := readRow_spec L tab caps en ps row (h row (by simp)) p hp
    obtain ⟨p2, hp2, h2⟩ := ih (fun r hr => h r (by simp [hr])) _ (L.eol p1 hp1)
    refine ⟨p2, hp2, fun rest bufs hb => ?_⟩
    have hb' : ∀ g, (bufs g).length + (pickRow canon tab g en ps row).length + (rows.flatMap (pickRow canon tab g en ps)).length ≤ caps g := by
      intro g
      have := hb g
      simp only [List.flatMap_cons, List.length_append] at this
      omega
    simp only [List.length_cons, repeatM, List.flatMap_cons, encRow, List.append_assoc]
    rw [h1 _ bufs (fun g => le_trans (Nat.le_add_right _ _) (hb' g))]
    simp only [Option.bind_some]
    have := h2 rest (fun g => bufs g ++ pickRow canon tab g en ps row) (fun g => by rw [List.length_append]; exact hb' g)
    rw [List.append_assoc] at this
    rw [this]
    simp

/-- the second pass over a document -/
theorem parseData_spec (L : Lawful pt cd canon Pad) (tab : Table) (caps : ℕ → ℕ) (d : Doc) (h : d.Ok) :
    ∀ p, Pad p → ∃ p', Pad p' ∧ ∀ rest bufs, (∀ g, (bufs g).length + (pickDoc canon tab g d).length ≤ caps g) →
      parseData cd tab caps (d.map DElem.elem) ⟨p ++ (d.payload pt ++ rest), bufs⟩
        = some ⟨p' ++ rest, fun g => bufs g ++ pickDoc canon tab g d⟩ := by
  induction d with
  | nil => intro p hp; exact ⟨p, hp, fun rest bufs _ => by simp [parseData, Doc.payload, pickDoc]⟩
  | cons e d ih =>
    intro p hp
    obtain ⟨p1, hp1, h1⟩ := readRows_spec L tab caps e.name e.props e.rows (h e (by simp)) p hp
    obtain ⟨p2, hp2, h2⟩ := ih (fun e' he' => h e' (by simp [he'])) p1 hp1
    refine ⟨p2, hp2, fun rest bufs hb => ?_⟩
    have hb' : ∀ g, (bufs g).length + (e.rows.flatMap (pickRow canon tab g e.name e.props)).length + (pickDoc canon tab g d).length ≤ caps g := by
      intro g
      have := hb g
      simp only [pickDoc, List.flatMap_cons, List.length_append, pickElem] at this ⊢
      omega
    simp only [parseData, Doc.payload, List.map_cons, List.foldlM_cons, List.flatMap_cons, List.append_assoc, DElem.elem] at *
    rw [h1 _ bufs (fun g => le_trans (Nat.le_add_right _ _) (hb' g))]
    simp only [Option.bind_eq_bind, Option.bind_some]
    rw [h2 rest _ (fun g => by rw [List.length_append]; exact hb' g)]
    simp [pickDoc, pickElem]

/-! ## first pass -/

/-- no lists -/
def NoLists (d : Doc) : Prop := ∀ e ∈ d, ∀ p ∈ e.props, p.list = none

theorem firstRow_spec (L : Lawful pt cd canon Pad) (tab : Table) (en : Name) (ps : List DProp) (row : List (List (List Byte)))
    (h : List.Forall₂ CellOk ps row) (hn : ∀ p ∈ ps, p.list = none) :
    ∀ p, Pad p → ∃ p', Pad p' ∧ ∀ (k : ℕ) rest tot lc, (∀ i, lc i = 0) → ∃ lc', (∀ i, lc' i = 0) ∧
      ((ps.map DProp.prp).zipIdx k |>.map (fun q => (q.2, q.1))).foldlM (firstStep cd tab en)
        (⟨p ++ ((ps.zip row).flatMap (fun q => encCell pt q.1 q.2) ++ rest), 0, tot, lc⟩ : FSt)
        = some ⟨p' ++ rest, 0, fun g => tot g + (pickRow canon tab g en ps row).length, lc'⟩ := by
  induction h with
  | nil => intro p hp; exact ⟨p, hp, fun k rest tot lc hlc => ⟨lc, hlc, by simp [pickRow]⟩⟩
  | @cons q c ps row hq _ ih =>
    intro p hp
    obtain ⟨p1, hp1, h1⟩ := skipProp_spec L q c hq p hp
    obtain ⟨p2, hp2, h2⟩ := ih (fun x hx => hn x (by simp [hx])) p1 hp1
    refine ⟨p2, hp2, fun k rest tot lc hlc => ?_⟩
    obtain ⟨ls', hls, h3⟩ := h1 ((ps.zip row).flatMap (fun q => encCell pt q.1 q.2) ++ rest) 0
    have hls0 := hls (hn q (by simp))
    subst hls0
    have hstep : ∃ lc1, (∀ i, lc1 i = 0) ∧ firstStep cd tab en
        (⟨p ++ (encCell pt q c ++ ((ps.zip row).flatMap (fun q => encCell pt q.1 q.2) ++ rest)), 0, tot, lc⟩ : FSt) (k, q.prp)
        = some ⟨p1 ++ ((ps.zip row).flatMap (fun q => encCell pt q.1 q.2) ++ rest), 0,
            fun g => tot g + (pickCell canon tab g en (q, c)).length, lc1⟩ := by
      have hnm : q.prp.name = q.name := rfl
      cases hf : tab.find en q.name with
      | none =>
        refine ⟨lc, hlc, ?_⟩
        simp only [firstStep, h3, Option.bind_some, hnm, hf, pickCell]
        simp
      | some g0 =>
        refine ⟨upd lc k 0, fun i => by simp [upd, hlc], ?_⟩
        simp only [firstStep, h3, Option.bind_some, hnm, hf, hlc, if_true]
        simp only [ne_eq, not_true_eq_false, if_false]
        congr 2
        funext g
        by_cases hg : g = g0
        · subst hg; simp [upd, pickCell, hf]
        · have : ¬ g0 = g := fun h => hg h.symm
          simp [upd, pickCell, hf, hg, this]
    obtain ⟨lc1, hlc1, hs⟩ := hstep
    obtain ⟨lc2, hlc2, hr⟩ := h2 (k + 1) rest (fun g => tot g + (pickCell canon tab g en (q, c)).length) lc1 hlc1
    refine ⟨lc2, hlc2, ?_⟩
    simp only [List.map_cons, List.zipIdx_cons, List.zip_cons_cons, List.flatMap_cons, List.foldlM_cons, List.append_assoc]
    rw [hs]
    simp only [Option.bind_eq_bind, Option.bind_some]
    rw [hr]
    simp [pickRow, add_assoc]

theorem firstRows_spec (L : Lawful pt cd canon Pad) (tab : Table) (en : Name) (ps : List DProp) (rows : List (List (List (List Byte))))
    (h : ∀ row ∈ rows, List.Forall₂ CellOk ps row) (hn : ∀ p ∈ ps, p.list = none) :
    ∀ p, Pad p → ∃ p', Pad p' ∧ ∀ rest tot lc, (∀ i, lc i = 0) → ∃ lc', (∀ i, lc' i = 0) ∧
      repeatM (fun st => ((ps.map DProp.prp).zipIdx.map (fun q => (q.2, q.1))).foldlM (firstStep cd tab en) st) rows.length
        (⟨p ++ (rows.flatMap (encRow pt ps) ++ rest), 0, tot, lc⟩ : FSt)
        = some ⟨p' ++ rest, 0, fun g => tot g + (rows.flatMap (pickRow canon tab g en ps)).length, lc'⟩ := by
  induction rows with
  | nil => intro p hp; exact ⟨p, hp, fun rest tot lc hlc => ⟨lc, hlc, by simp [repeatM]⟩⟩
  | cons row rows ih =>
    intro p hp
    obtain ⟨p1, hp1, h1⟩ := firstRow_spec L tab en ps row (h row (by simp)) hn p hp
    obtain ⟨p2, hp2, h2⟩ := ih (fun r hr => h r (by simp [hr])) _ (L.eol p1 hp1)
    refine ⟨p2, hp2, fun rest tot lc hlc => ?_⟩
    obtain ⟨lc1, hlc1, h3⟩ := h1 0 (pt.eol ++ (rows.flatMap (encRow pt ps) ++ rest)) tot lc hlc
    obtain ⟨lc2, hlc2, h4⟩ := h2 rest (fun g => tot g + (pickRow canon tab g en ps row).length) lc1 hlc1
    refine ⟨lc2, hlc2, ?_⟩
    simp only [List.length_cons, repeatM, List.flatMap_cons, encRow, List.append_assoc] at *
    rw [h3]
    simp only [Option.bind_some]
    rw [h4]
    simp [add_assoc]

/-- the first pass over a document without lists counts the bytes of each group -/
theorem firstFold_spec (L : Lawful pt cd canon Pad) (tab : Table) (d : Doc) (h : d.Ok) (hn : NoLists d) :
    ∀ p, Pad p → ∃ p', Pad p' ∧ ∀ rest tot lc, ∃ lc',
      (d.map DElem.elem).foldlM (fun st e =>
          repeatM (fun st => (e.props.zipIdx.map (fun q => (q.2, q.1))).foldlM (firstStep cd tab e.name) st) e.size { st with lc := fun _ => 0 })
        (⟨p ++ (d.payload pt ++ rest), 0, tot, lc⟩ : FSt)
        = some ⟨p' ++ rest, 0, fun g => tot g + (pickDoc canon tab g d).length, lc'⟩ := by
  induction d with
  | nil => intro p hp; exact ⟨p, hp, fun rest tot lc => ⟨lc, by simp [Doc.payload, pickDoc]⟩⟩
  | cons e d ih =>
    intro p hp
    obtain ⟨p1, hp1, h1⟩ := firstRows_spec L tab e.name e.props e.rows (h e (by simp)) (hn e (by simp)) p hp
    obtain ⟨p2, hp2, h2⟩ := ih (fun e' he' => h e' (by simp [he'])) (fun e' he' => hn e' (by simp [he'])) p1 hp1
    refine ⟨p2, hp2, fun rest tot lc => ?_⟩
    obtain ⟨lc1, hlc1, h3⟩ := h1 (Doc.payload pt d ++ rest) tot (fun _ => 0) (fun _ => rfl)
    obtain ⟨lc2, h4⟩ := h2 rest (fun g => tot g + (e.rows.flatMap (pickRow canon tab g e.name e.props)).length) lc1
    refine ⟨lc2, ?_⟩
    simp only [Doc.payload, List.map_cons, List.foldlM_cons, List.flatMap_cons, List.append_assoc, DElem.elem] at *
    rw [h3]
    simp only [Option.bind_eq_bind, Option.bind_some]
    rw [h4]
    simp [pickDoc, pickElem, add_assoc]

theorem firstPass_spec (L : Lawful pt cd canon Pad) (tab : Table) (d : Doc) (h : d.Ok) (hn : NoLists d) :
    firstPass cd tab (d.map DElem.elem) (d.payload pt) = some (fun g => (pickDoc canon tab g d).length) := by
  obtain ⟨p', _, h1⟩ := firstFold_spec L tab d h hn [] L.nil
  obtain ⟨lc', h2⟩ := h1 [] (fun _ => 0) (fun _ => 0)
  simp only [List.nil_append, List.append_nil] at h2
  unfold firstPass
  rw [h2]
  simp

end Gpy.Ply
