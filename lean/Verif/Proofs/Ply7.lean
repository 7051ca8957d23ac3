import Verif.Proofs.Ply6

/-!
# PLY: writing a document
-/

set_option autoImplicit false
namespace Gpy.Ply

/-- the value itself -/
def same : Ty → List Byte → List Byte := fun _ b => b

/-- a property as the writer keeps it; lists have three values -/
def DProp.wprp (p : DProp) : Prp := ⟨p.name, p.ty, p.list, if p.list.isSome then 3 else 0⟩

/-- an element as the writer keeps it -/
def DElem.welem (e : DElem) : Elem := ⟨e.name, e.rows.length, e.props.map DProp.wprp⟩

/-- cells the writer can produce -/
def WCell (p : DProp) (c : List (List Byte)) : Prop := (∀ v ∈ c, v.length = p.ty.stride) ∧ c.length = if p.list.isSome then 3 else 1

theorem writeVals_spec (pt : Put) (t : Ty) (g : ℕ) (vs : List (List Byte)) (hv : ∀ v ∈ vs, v.length = t.stride) (left : ℕ → List Byte) (ex out : List Byte)
    (hl : left g = vs.flatten ++ ex) : writeVals pt t g vs.length ⟨left, out⟩ = some ⟨upd left g ex, out ++ vs.flatMap (pt.val t)⟩ := by
  induction vs generalizing left out with
  | nil =>
    simp only [List.length_nil, writeVals, List.flatMap_nil, List.append_nil]
    congr 2
    funext x
    unfold upd
    split
    · rename_i h; rw [h, hl]; rfl
    · rfl
  | cons v vs ih =>
    have h1 := takeBytes_append v (vs.flatten ++ ex)
    rw [hv v (by simp)] at h1
    simp only [List.length_cons, writeVals, hl, List.flatten_cons, List.append_assoc]
    rw [h1]
    simp only [Option.bind_some]
    rw [ih (fun x hx => hv x (by simp [hx])) (upd left g (vs.flatten ++ ex)) _ (by simp [upd])]
    congr 2
    · funext x
      unfold upd
      split <;> rfl
    · simp

theorem flatMap_same (t : Ty) (c : List (List Byte)) : c.flatMap (same t) = c.flatten := by
  induction c with
  | nil => rfl
  | cons a c ih => rw [List.flatMap_cons, ih]; rfl

theorem writeStep_spec (pt : Put) (tab : Table) (en : Name) (q : DProp) (c : List (List Byte)) (h : WCell q c) (hf : ∃ g, tab.find en q.name = some g)
    (ex : ℕ → List Byte) (out : List Byte) :
    writeStep pt tab en ⟨fun g => pickCell same tab g en (q, c) ++ ex g, out⟩ q.wprp = some ⟨ex, out ++ encCell pt q c⟩ := by
  obtain ⟨g0, hg⟩ := hf
  have hnm : q.wprp.name = q.name := rfl
  have hleft : pickCell same tab g0 en (q, c) ++ ex g0 = c.flatten ++ ex g0 := by
    simp [pickCell, hg, flatMap_same]
  have hupd : upd (fun g => pickCell same tab g en (q, c) ++ ex g) g0 (ex g0) = ex := by
    funext x
    unfold upd
    split
    · rename_i h; rw [h]
    · rename_i h
      have : ¬ g0 = x := fun h' => h h'.symm
      simp [pickCell, hg, this]
  obtain ⟨h1, h2⟩ := h
  rcases q with ⟨nm, t, l⟩
  cases l with
  | none =>
    have hl : c.length = 1 := h2
    have := writeVals_spec pt t g0 c h1 (fun g => pickCell same tab g en (⟨nm, t, none⟩, c) ++ ex g) (ex g0) out hleft
    rw [hl, hupd] at this
    simp only [writeStep, hnm, hg, Option.bind_some, DProp.wprp, encCell]
    exact this
  | some lt =>
    have hl : c.length = 3 := h2
    have := writeVals_spec pt t g0 c h1 (fun g => pickCell same tab g en (⟨nm, t, some lt⟩, c) ++ ex g) (ex g0) (out ++ pt.count lt 3) hleft
    rw [hl, hupd] at this
    simp only [writeStep, hnm, hg, Option.bind_some, DProp.wprp, encCell, Option.isSome_some, if_true, hl]
    rw [this]
    simp

theorem writeCells_spec (pt : Put) (tab : Table) (en : Name) (ps : List DProp) (row : List (List (List Byte))) (h : List.Forall₂ WCell ps row)
    (hf : ∀ p ∈ ps, ∃ g, tab.find en p.name = some g) (ex : ℕ → List Byte) (out : List Byte) :
    (ps.map DProp.wprp).foldlM (writeStep pt tab en) ⟨fun g => pickRow same tab g en ps row ++ ex g, out⟩
      = some ⟨ex, out ++ (ps.zip row).flatMap (fun q => encCell pt q.1 q.2)⟩ := by
  induction h generalizing out with
  | nil => simp [pickRow]
  | @cons q c ps row hq _ ih =>
    have h1 := writeStep_spec pt tab en q c hq (hf q (by simp)) (fun g => pickRow same tab g en ps row ++ ex g) out
    have h2 := ih (fun p hp => hf p (by simp [hp])) (out ++ encCell pt q c)
    simp only [List.map_cons, List.foldlM_cons, pickRow, List.zip_cons_cons, List.flatMap_cons, List.append_assoc] at *
    rw [h1]
    simp only [Option.bind_eq_bind, Option.bind_some]
    rw [h2]

theorem writeRows_spec (pt : Put) (tab : Table) (e : DElem) (n : ℕ) (ps : List Prp) (hps : ps = e.props.map DProp.wprp) (rows : List (List (List (List Byte))))
    (h : ∀ row ∈ rows, List.Forall₂ WCell e.props row)
    (hf : ∀ p ∈ e.props, ∃ g, tab.find e.name p.name = some g) (ex : ℕ → List Byte) (out : List Byte) :
    repeatM (writeRowP pt tab ⟨e.name, n, ps⟩) rows.length ⟨fun g => rows.flatMap (pickRow same tab g e.name e.props) ++ ex g, out⟩
      = some ⟨ex, out ++ rows.flatMap (encRow pt e.props)⟩ := by
  subst hps
  induction rows generalizing out with
  | nil => simp [repeatM]
  | cons row rows ih =>
    have h1 := writeCells_spec pt tab e.name e.props row (h row (by simp)) hf (fun g => rows.flatMap (pickRow same tab g e.name e.props) ++ ex g) out
    have h2 := ih (fun r hr => h r (by simp [hr])) (out ++ encRow pt e.props row)
    simp only [List.length_cons, repeatM, List.flatMap_cons, List.append_assoc] at *
    simp only [writeRowP] at *
    rw [h1]
    simp only [Option.map_some, Option.bind_some]
    simp only [encRow, List.append_assoc] at *
    rw [h2]

/-- the payload written is that of the document -/
theorem writePayload_spec (pt : Put) (f : WFile) (d : Doc) (he : f.elems = d.map DElem.welem) (hc : ∀ e ∈ d, ∀ row ∈ e.rows, List.Forall₂ WCell e.props row)
    (hf : ∀ e ∈ d, ∀ p ∈ e.props, ∃ g, f.tab.find e.name p.name = some g) (ex : ℕ → List Byte)
    (hb : ∀ g, f.bufs.getD g [] = pickDoc same f.tab g d ++ ex g) : writePayload pt f = some (d.payload pt) := by
  have key : ∀ (l : Doc), (∀ e ∈ l, e ∈ d) → ∀ out, (l.map DElem.welem).foldlM (fun st e => repeatM (writeRowP pt f.tab e) e.size st)
      (⟨fun g => pickDoc same f.tab g l ++ ex g, out⟩ : WSt) = some ⟨ex, out ++ l.payload pt⟩ := by
    intro l
    induction l with
    | nil => intro _ out; simp [pickDoc, Doc.payload]
    | cons e l ih =>
      intro hs out
      have hed := hs e (by simp)
      have h1 := writeRows_spec pt f.tab e e.rows.length (e.props.map DProp.wprp) rfl e.rows (hc e hed) (hf e hed)
        (fun g => pickDoc same f.tab g l ++ ex g) out
      have h2 := ih (fun x hx => hs x (by simp [hx])) (out ++ e.rows.flatMap (encRow pt e.props))
      simp only [List.map_cons, List.foldlM_cons, pickDoc, pickElem, Doc.payload, List.flatMap_cons, List.append_assoc, DElem.welem] at *
      rw [h1]
      simp only [Option.bind_eq_bind, Option.bind_some]
      rw [h2]
  unfold writePayload
  rw [he]
  have hfun : (fun g => f.bufs.getD g []) = fun g => pickDoc same f.tab g d ++ ex g := funext hb
  rw [hfun, key d (fun e h => h) []]
  rfl

/-- the header written is that of the document -/
theorem writeHeader_spec (binary : Bool) (tab : Table) (d : Doc) (hf : ∀ e ∈ d, ∀ p ∈ e.props, ∃ g, tab.find e.name p.name = some g) :
    writeHeader binary tab (d.map DElem.welem) = d.header (if binary then .little else .ascii) [plyComment] := by
  have hl : ∀ p : DProp, propLine p.wprp = dpropLine p := by
    rintro ⟨nm, t, l⟩
    cases l <;> rfl
  have he : ∀ e ∈ d, elemLines tab e.welem = delemLines e := by
    intro e hed
    unfold elemLines delemLines
    have : e.welem.props.filter (fun p => (tab.find e.welem.name p.name).isSome) = e.welem.props := by
      rw [List.filter_eq_self]
      intro p hp
      obtain ⟨q, hq, rfl⟩ := List.mem_map.mp hp
      obtain ⟨g, hg⟩ := hf e hed q hq
      change (tab.find e.name q.name).isSome = true
      rw [hg]; rfl
    rw [this]
    simp only [DElem.welem, List.map_map]
    congr 1
  have hflat : ∀ l : Doc, (∀ e ∈ l, e ∈ d) → (l.map DElem.welem).flatMap (elemLines tab) = l.flatMap delemLines := by
    intro l
    induction l with
    | nil => intro _; rfl
    | cons e l ih =>
      intro hs
      rw [List.map_cons, List.flatMap_cons, List.flatMap_cons, he e (hs e (by simp)), ih (fun x hx => hs x (by simp [hx]))]
  unfold writeHeader Doc.header
  rw [hflat d (fun e h => h)]
  cases binary <;> rfl

end Gpy.Ply
