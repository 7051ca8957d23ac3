import Verif.Model.BoundaryLoops
import Verif.Spec.Loops
import Verif.Proofs.Edges
import Mathlib.Data.List.Rotate
import Mathlib.Data.List.Forall2
import Mathlib.Algebra.Ring.Parity

set_option autoImplicit false
namespace Gpy
open Np

/-- the edges not yet seen -/
def rem (bE : List Edge) (unseen : List Bool) : List Edge := npMask bE unseen

theorem rem_cons (e : Edge) (bE : List Edge) (b : Bool) (u : List Bool) :
    rem (e :: bE) (b :: u) = if b then e :: rem bE u else rem bE u := by
  unfold rem npMask
  cases b <;> simp

theorem rem_set {bE : List Edge} {unseen : List Bool} {i : ℕ} {e : Edge} (h1 : bE[i]? = some e) (h2 : unseen[i]? = some true) :
    (rem bE unseen).Perm (e :: rem bE (unseen.set i false)) := by
  induction bE generalizing unseen i with
  | nil => simp at h1
  | cons a t ih =>
    cases unseen with
    | nil => simp at h2
    | cons b u =>
      cases i with
      | zero =>
        simp at h1 h2
        subst h1 h2
        simp [rem_cons]
      | succ i =>
        simp only [List.getElem?_cons_succ] at h1 h2
        have := ih h1 h2
        rw [List.set_cons_succ, rem_cons, rem_cons]
        cases b
        · simpa using this
        · simp only [if_true]
          exact (this.cons a).trans (List.Perm.swap _ _ _)

theorem rem_replicate (bE : List Edge) : rem bE (List.replicate bE.length true) = bE := by
  induction bE with
  | nil => rfl
  | cons a t ih => rw [List.length_cons, List.replicate_succ, rem_cons, ih]; rfl

theorem rem_nil {bE : List Edge} {unseen : List Bool} (h : unseen.any (fun b => b) = false) : rem bE unseen = [] := by
  induction bE generalizing unseen with
  | nil => unfold rem npMask; simp
  | cons a t ih =>
    cases unseen with
    | nil => unfold rem npMask; simp
    | cons b u =>
      simp at h
      obtain ⟨rfl, h⟩ := h
      rw [rem_cons]
      simpa using ih (by simpa using h)

theorem blWhere_mem {bE : List Edge} {unseen : List Bool} {p : Edge → Bool} {i : ℕ} :
    i ∈ blWhere bE unseen p ↔ ∃ e, bE[i]? = some e ∧ p e = true ∧ unseen[i]? = some true := by
  unfold blWhere
  simp only [List.mem_filter, List.mem_range, Bool.and_eq_true, beq_iff_eq, Option.map_eq_some_iff]
  constructor
  · rintro ⟨-, ⟨e, h1, h2⟩, h3⟩; exact ⟨e, h1, h2, h3⟩
  · rintro ⟨e, h1, h2, h3⟩; exact ⟨(List.getElem?_eq_some_iff.mp h1).1, ⟨e, h1, h2⟩, h3⟩

theorem blWhere_length {bE : List Edge} {unseen : List Bool} (p : Edge → Bool) (hl : unseen.length = bE.length) :
    (blWhere bE unseen p).length = ((rem bE unseen).filter p).length := by
  unfold blWhere
  induction bE generalizing unseen with
  | nil =>
    simp [rem, npMask]
  | cons a t ih =>
    cases unseen with
    | nil => simp at hl
    | cons b u =>
      have := ih (unseen := u) (by simpa using hl)
      rw [List.length_cons, List.range_succ_eq_map, List.filter_cons, List.filter_map, rem_cons]
      simp only [Function.comp_def, List.getElem?_cons_succ, List.getElem?_cons_zero]
      cases b
      · simpa using this
      · by_cases hp : p a
        · simp [hp, List.filter_cons, this]
        · simp [hp, List.filter_cons, this]

/-- `p` is the edge `e` as walked along: `e` itself or, if wrong orientations are allowed, its reverse -/
def Walks (allow : Bool) (e p : Edge) : Prop := p = e ∨ (allow = true ∧ p = e.flip)

theorem blNext_spec {bE : List Edge} {allow : Bool} {unseen : List Bool} {head i h' : ℕ} (h : blNext bE allow unseen head = some (i, h')) :
    ∃ e, bE[i]? = some e ∧ unseen[i]? = some true ∧ Walks allow e ⟨head, h'⟩ := by
  have hs : ∀ i, blWhere bE unseen (fun e => e.s == head) = [i] → ∃ e, bE[i]? = some e ∧ e.s = head ∧ unseen[i]? = some true := by
    intro i hi
    have : i ∈ blWhere bE unseen (fun e => e.s == head) := by rw [hi]; simp
    obtain ⟨e, h1, h2, h3⟩ := blWhere_mem.mp this
    exact ⟨e, h1, by simpa using h2, h3⟩
  have ht : ∀ i, blWhere bE unseen (fun e => e.t == head) = [i] → ∃ e, bE[i]? = some e ∧ e.t = head ∧ unseen[i]? = some true := by
    intro i hi
    have : i ∈ blWhere bE unseen (fun e => e.t == head) := by rw [hi]; simp
    obtain ⟨e, h1, h2, h3⟩ := blWhere_mem.mp this
    exact ⟨e, h1, by simpa using h2, h3⟩
  unfold blNext at h
  dsimp only at h
  generalize blWhere bE unseen (fun e => e.s == head) = c0 at *
  generalize blWhere bE unseen (fun e => e.t == head) = c1 at *
  cases allow
  · simp only [Bool.false_eq_true, if_false] at h
    match c0, h with
    | [k], h =>
      obtain ⟨e, h1, h2, h3⟩ := hs k rfl
      dsimp only at h
      rw [h1] at h
      simp at h
      obtain ⟨rfl, rfl⟩ := h
      exact ⟨e, h1, h3, Or.inl (by rw [← h2])⟩
  · simp only [if_true] at h
    split_ifs at h with hc
    · match c0, h with
      | [k], h =>
        obtain ⟨e, h1, h2, h3⟩ := hs k rfl
        dsimp only at h
        rw [h1] at h
        simp at h
        obtain ⟨rfl, rfl⟩ := h
        exact ⟨e, h1, h3, Or.inl (by rw [← h2])⟩
    · match c1, h with
      | [k], h =>
        obtain ⟨e, h1, h2, h3⟩ := ht k rfl
        dsimp only at h
        rw [h1] at h
        simp at h
        obtain ⟨rfl, rfl⟩ := h
        exact ⟨e, h1, h3, Or.inr ⟨rfl, by rw [← h2]; rfl⟩⟩

/-- the edges of the path through `ws` that ends in `z` -/
def pathEdges : List ℕ → ℕ → List Edge
  | [], _ => []
  | v :: ws, z => ⟨v, ws.headD z⟩ :: pathEdges ws z

theorem pathEdges_eq (ws : List ℕ) (z : ℕ) : pathEdges ws z = List.zipWith Edge.mk ws (ws.tail ++ [z]) := by
  induction ws with
  | nil => rfl
  | cons v ws ih =>
    rw [pathEdges, ih]
    cases ws <;> simp

theorem cyclicEdges_cons (v : ℕ) (ws : List ℕ) : cyclicEdges (v :: ws) = pathEdges (v :: ws) v := by
  rw [pathEdges_eq, cyclicEdges, List.rotate_cons_succ, List.rotate_zero]; rfl

theorem blTrace_spec {bE : List Edge} {allow : Bool} {start : ℕ} : ∀ (fuel : ℕ) (unseen : List Bool) (head : ℕ) (acc vs : List ℕ)
    (unseen' : List Bool), blTrace bE allow start fuel unseen head acc = some (vs, unseen') →
    ∃ ws es, vs = acc ++ ws ∧ ws.headD start = head ∧ unseen'.length = unseen.length ∧
      (rem bE unseen).Perm (es ++ rem bE unseen') ∧ List.Forall₂ (Walks allow) es (pathEdges ws start) := by
  intro fuel
  induction fuel with
  | zero => intro unseen head acc vs unseen' h; simp [blTrace] at h
  | succ fuel ih =>
    intro unseen head acc vs unseen' h
    rw [blTrace] at h
    split_ifs at h with hs
    · simp at h
      obtain ⟨rfl, rfl⟩ := h
      exact ⟨[], [], by simp, by simp [hs], rfl, by simp, by simp [pathEdges]⟩
    · cases hn : blNext bE allow unseen head with
      | none => rw [hn] at h; simp at h
      | some q =>
        obtain ⟨i, h'⟩ := q
        rw [hn] at h
        dsimp only at h
        obtain ⟨e, e1, e2, e3⟩ := blNext_spec hn
        obtain ⟨ws, es, w1, w2, w3, w4, w5⟩ := ih _ _ _ _ _ h
        refine ⟨head :: ws, e :: es, by rw [w1]; simp, by simp, by rw [w3, List.length_set], ?_, ?_⟩
        · exact (rem_set e1 e2).trans (by simpa using w4.cons e)
        · rw [pathEdges, w2]
          exact List.Forall₂.cons e3 w5

theorem blLoops_spec {bE : List Edge} {allow : Bool} {inner : ℕ} : ∀ (fuel : ℕ) (unseen : List Bool) (loops out : List (List ℕ)),
    blLoops bE allow inner fuel unseen loops = some out →
    ∃ new es, out = loops ++ new ∧ (∀ l ∈ new, l ≠ []) ∧ (rem bE unseen).Perm es ∧ List.Forall₂ (Walks allow) es (new.flatMap cyclicEdges) := by
  intro fuel
  induction fuel with
  | zero => intro unseen loops out h; simp [blLoops] at h
  | succ fuel ih =>
    intro unseen loops out h
    rw [blLoops] at h
    split_ifs at h with ha
    · dsimp only at h
      have hmem : true ∈ unseen := by
        rw [List.any_eq_true] at ha
        obtain ⟨x, hx, hx'⟩ := ha
        rwa [hx'] at hx
      cases he : bE[unseen.idxOf true]? with
      | none => rw [he] at h; simp at h
      | some e =>
        rw [he] at h
        dsimp only at h
        cases ht : blTrace bE allow e.s inner (unseen.set (unseen.idxOf true) false) e.t [e.s] with
        | none => rw [ht] at h; simp at h
        | some q =>
          obtain ⟨loop, unseen'⟩ := q
          rw [ht] at h
          dsimp only at h
          obtain ⟨ws, es, w1, w2, w3, w4, w5⟩ := blTrace_spec _ _ _ _ _ _ ht
          obtain ⟨new, es', n1, n2, n3, n4⟩ := ih _ _ _ h
          have hl : loop = e.s :: ws := by rw [w1]; rfl
          refine ⟨loop :: new, (e :: es) ++ es', by rw [n1]; simp, ?_, ?_, ?_⟩
          · intro l hl'
            rcases List.mem_cons.mp hl' with rfl | hl'
            · rw [hl]; simp
            · exact n2 l hl'
          · refine (rem_set he (List.getElem?_idxOf hmem)).trans ?_
            rw [List.cons_append]
            exact (w4.trans (n3.append_left es)).cons e
          · rw [List.flatMap_cons, hl, cyclicEdges_cons, pathEdges, w2]
            have hw : List.Forall₂ (Walks allow) (e :: es) (⟨e.s, e.t⟩ :: pathEdges ws e.s) := List.Forall₂.cons (show Walks allow e e from Or.inl rfl) w5
            exact List.rel_append hw n4
    · simp at h
      subst h
      have : unseen.any (fun b => b) = false := by simpa using ha
      exact ⟨[], [], by simp, by simp, by rw [rem_nil this], by simp⟩

/-! ### fuel -/

theorem rem_length_set {bE : List Edge} {unseen : List Bool} {i : ℕ} {e : Edge} (h1 : bE[i]? = some e) (h2 : unseen[i]? = some true) :
    (rem bE unseen).length = (rem bE (unseen.set i false)).length + 1 := by
  rw [(rem_set h1 h2).length_eq]; rfl

theorem blTrace_fuel {bE : List Edge} {allow : Bool} {start : ℕ} : ∀ (fuel fuel' : ℕ) (unseen : List Bool) (head : ℕ) (acc : List ℕ),
    (rem bE unseen).length < fuel → fuel ≤ fuel' →
    blTrace bE allow start fuel' unseen head acc = blTrace bE allow start fuel unseen head acc := by
  intro fuel
  induction fuel with
  | zero => intro _ _ _ _ h; omega
  | succ fuel ih =>
    intro fuel' unseen head acc h h'
    obtain ⟨k, rfl⟩ : ∃ k, fuel' = k + 1 := ⟨fuel' - 1, by omega⟩
    rw [blTrace, blTrace]
    split_ifs with hs
    · rfl
    · cases hn : blNext bE allow unseen head with
      | none => rfl
      | some q =>
        obtain ⟨i, h''⟩ := q
        obtain ⟨e, e1, e2, -⟩ := blNext_spec hn
        have := rem_length_set e1 e2
        exact ih _ _ _ _ (by omega) (by omega)

theorem blLoops_fuel {bE : List Edge} {allow : Bool} : ∀ (fuel fuel' inner inner' : ℕ) (unseen : List Bool) (loops : List (List ℕ)),
    (rem bE unseen).length < fuel → fuel ≤ fuel' → (rem bE unseen).length < inner → inner ≤ inner' →
    blLoops bE allow inner' fuel' unseen loops = blLoops bE allow inner fuel unseen loops := by
  intro fuel
  induction fuel with
  | zero => intro _ _ _ _ _ h; omega
  | succ fuel ih =>
    intro fuel' inner inner' unseen loops h h' hi hi'
    obtain ⟨k, rfl⟩ : ∃ k, fuel' = k + 1 := ⟨fuel' - 1, by omega⟩
    rw [blLoops, blLoops]
    split_ifs with ha
    · dsimp only
      have hmem : true ∈ unseen := by
        rw [List.any_eq_true] at ha
        obtain ⟨x, hx, hx'⟩ := ha
        rwa [hx'] at hx
      cases he : bE[unseen.idxOf true]? with
      | none => rfl
      | some e =>
        dsimp only
        have hl := rem_length_set he (List.getElem?_idxOf hmem)
        rw [blTrace_fuel inner inner' _ _ _ (by omega) hi']
        cases ht : blTrace bE allow e.s inner (unseen.set (unseen.idxOf true) false) e.t [e.s] with
        | none => rfl
        | some q =>
          obtain ⟨loop, unseen'⟩ := q
          dsimp only
          obtain ⟨ws, es, -, -, -, w4, -⟩ := blTrace_spec _ _ _ _ _ _ ht
          have := w4.length_eq
          rw [List.length_append] at this
          exact ih _ _ _ _ _ (by omega) (by omega) (by omega) hi'
    · rfl

/-! ### progress -/

theorem deg_cons_perm {L L' : List Edge} {e : Edge} (h : L.Perm (e :: L')) (v : ℕ) :
    outDeg L v = outDeg L' v + (if e.s = v then 1 else 0) ∧ inDeg L v = inDeg L' v + (if e.t = v then 1 else 0) := by
  unfold outDeg inDeg
  rw [(h.filter _).length_eq, (h.filter _).length_eq, List.filter_cons, List.filter_cons]
  constructor <;> (split_ifs <;> simp_all)

theorem length_one {α : Type} {l : List α} (h : l.length = 1) : ∃ x, l = [x] := List.length_eq_one_iff.mp h

/-- the parity condition met along an unoriented walk from `start` to `head` -/
def Inv1 (L : List Edge) (start head : ℕ) : Prop :=
  ∀ v, outDeg L v + inDeg L v ≤ 2 ∧ Even (outDeg L v + inDeg L v + (if start = v then 1 else 0) + (if head = v then 1 else 0))

/-- the balance condition met along an oriented walk from `start` to `head` -/
def Inv2 (L : List Edge) (start head : ℕ) : Prop :=
  ∀ v, outDeg L v ≤ 1 ∧ inDeg L v ≤ 1 ∧ outDeg L v + (if start = v then 1 else 0) = inDeg L v + (if head = v then 1 else 0)

def InvB (allow : Bool) (L : List Edge) (start head : ℕ) : Prop := if allow then Inv1 L start head else Inv2 L start head

theorem blNext_ok {bE : List Edge} {allow : Bool} {unseen : List Bool} {start head : ℕ} (hl : unseen.length = bE.length)
    (hI : InvB allow (rem bE unseen) start head) (hne : head ≠ start) :
    ∃ i h', blNext bE allow unseen head = some (i, h') ∧ InvB allow (rem bE (unseen.set i false)) start h' := by
  have h0 := blWhere_length (bE := bE) (unseen := unseen) (fun e => e.s == head) hl
  have h1 := blWhere_length (bE := bE) (unseen := unseen) (fun e => e.t == head) hl
  have e0 : ((rem bE unseen).filter (fun e => e.s == head)).length = outDeg (rem bE unseen) head := by
    unfold outDeg; congr 1
  have e1 : ((rem bE unseen).filter (fun e => e.t == head)).length = inDeg (rem bE unseen) head := by
    unfold inDeg; congr 1
  rw [e0] at h0
  rw [e1] at h1
  have hget : ∀ i, i ∈ blWhere bE unseen (fun e => e.s == head) ∨ i ∈ blWhere bE unseen (fun e => e.t == head) → ∃ e, bE[i]? = some e := by
    intro i hi
    rcases hi with hi | hi <;> (obtain ⟨e, h, -⟩ := blWhere_mem.mp hi; exact ⟨e, h⟩)
  have hsome : ∃ i h', blNext bE allow unseen head = some (i, h') := by
    unfold blNext
    dsimp only
    cases allow
    · simp only [Bool.false_eq_true, if_false]
      have := hI head
      obtain ⟨a, b, c⟩ := this
      rw [if_neg (Ne.symm hne), if_pos rfl] at c
      obtain ⟨x, hx⟩ := length_one (h0.trans (show outDeg (rem bE unseen) head = 1 by omega))
      obtain ⟨e, he⟩ := hget x (Or.inl (by rw [hx]; simp))
      rw [hx]
      dsimp only
      rw [he]
      exact ⟨_, _, rfl⟩
    · simp only [if_true]
      obtain ⟨a, b⟩ := hI head
      rw [if_neg (Ne.symm hne), if_pos rfl] at b
      have hsum : outDeg (rem bE unseen) head + inDeg (rem bE unseen) head = 1 := by
        obtain ⟨r, hr⟩ := b
        omega
      by_cases hc : (blWhere bE unseen (fun e => e.s == head)).length > (blWhere bE unseen (fun e => e.t == head)).length
      · rw [if_pos hc]
        obtain ⟨x, hx⟩ := length_one (h0.trans (show outDeg (rem bE unseen) head = 1 by omega))
        obtain ⟨e, he⟩ := hget x (Or.inl (by rw [hx]; simp))
        rw [hx]
        dsimp only
        rw [he]
        exact ⟨_, _, rfl⟩
      · rw [if_neg hc]
        obtain ⟨x, hx⟩ := length_one (h1.trans (show inDeg (rem bE unseen) head = 1 by omega))
        obtain ⟨e, he⟩ := hget x (Or.inr (by rw [hx]; simp))
        rw [hx]
        dsimp only
        rw [he]
        exact ⟨_, _, rfl⟩
  obtain ⟨i, h', hn⟩ := hsome
  refine ⟨i, h', hn, ?_⟩
  obtain ⟨e, f1, f2, f3⟩ := blNext_spec hn
  have hp := deg_cons_perm (rem_set f1 f2)
  cases allow
  · obtain rfl : e = ⟨head, h'⟩ := by
      rcases f3 with f3 | ⟨f3, -⟩
      · exact f3.symm
      · simp at f3
    intro v
    obtain ⟨a, b⟩ := hp v
    obtain ⟨c, d, g⟩ := hI v
    dsimp only at a b
    refine ⟨by omega, by omega, by omega⟩
  · intro v
    obtain ⟨a, b⟩ := hp v
    obtain ⟨c, d⟩ := hI v
    have hsum : (if e.s = v then 1 else 0) + (if e.t = v then 1 else 0) = (if head = v then 1 else 0) + (if h' = v then 1 else 0) := by
      rcases f3 with f3 | ⟨-, f3⟩
      · rw [← f3]
      · have : e = ⟨h', head⟩ := by rw [← Edge.flip_flip e, ← f3]; rfl
        rw [this]; dsimp only; omega
    refine ⟨by omega, ?_⟩
    obtain ⟨r, hr⟩ := d
    exact ⟨r - (if head = v then 1 else 0), by omega⟩

theorem blTrace_ok {bE : List Edge} {allow : Bool} {start : ℕ} : ∀ (fuel : ℕ) (unseen : List Bool) (head : ℕ) (acc : List ℕ),
    unseen.length = bE.length → (rem bE unseen).length < fuel → InvB allow (rem bE unseen) start head →
    ∃ vs unseen', blTrace bE allow start fuel unseen head acc = some (vs, unseen') ∧ InvB allow (rem bE unseen') start start := by
  intro fuel
  induction fuel with
  | zero => intro _ _ _ _ h; omega
  | succ fuel ih =>
    intro unseen head acc hl hf hI
    rw [blTrace]
    by_cases hs : head = start
    · rw [if_pos hs]
      subst hs
      exact ⟨_, _, rfl, hI⟩
    · rw [if_neg hs]
      obtain ⟨i, h', hn, hI'⟩ := blNext_ok hl hI hs
      rw [hn]
      dsimp only
      obtain ⟨e, e1, e2, -⟩ := blNext_spec hn
      have := rem_length_set e1 e2
      exact ih _ _ _ (by simpa using hl) (by omega) hI'

theorem invB_start_irrel {allow : Bool} {L : List Edge} {s s' : ℕ} (h : InvB allow L s s) : InvB allow L s' s' := by
  cases allow
  · intro v
    obtain ⟨a, b, c⟩ := h v
    exact ⟨a, b, by omega⟩
  · intro v
    obtain ⟨a, b⟩ := h v
    refine ⟨a, ?_⟩
    obtain ⟨r, hr⟩ := b
    exact ⟨r - (if s = v then 1 else 0) + (if s' = v then 1 else 0), by omega⟩

theorem blLoops_ok {bE : List Edge} {allow : Bool} {inner : ℕ} : ∀ (fuel : ℕ) (unseen : List Bool) (loops : List (List ℕ)),
    unseen.length = bE.length → (rem bE unseen).length < fuel → (rem bE unseen).length < inner → InvB allow (rem bE unseen) 0 0 →
    ∃ out, blLoops bE allow inner fuel unseen loops = some out := by
  intro fuel
  induction fuel with
  | zero => intro _ _ _ h; omega
  | succ fuel ih =>
    intro unseen loops hl hf hi hI
    rw [blLoops]
    split_ifs with ha
    · dsimp only
      have hmem : true ∈ unseen := by
        rw [List.any_eq_true] at ha
        obtain ⟨x, hx, hx'⟩ := ha
        rwa [hx'] at hx
      have hlt := List.idxOf_lt_length_iff.mpr hmem
      have he := List.getElem?_eq_getElem (l := bE) (i := unseen.idxOf true) (by omega)
      rw [he]
      dsimp only
      generalize bE[unseen.idxOf true] = e at he
      have hlen := rem_length_set he (List.getElem?_idxOf hmem)
      have hp := deg_cons_perm (rem_set he (List.getElem?_idxOf hmem))
      have hI' : InvB allow (rem bE (unseen.set (unseen.idxOf true) false)) e.s e.t := by
        cases allow
        · intro v
          obtain ⟨a, b⟩ := hp v
          obtain ⟨c, d, g⟩ := hI v
          refine ⟨by omega, by omega, by omega⟩
        · intro v
          obtain ⟨a, b⟩ := hp v
          obtain ⟨c, d⟩ := hI v
          refine ⟨by omega, ?_⟩
          obtain ⟨r, hr⟩ := d
          exact ⟨r - (if 0 = v then 1 else 0), by omega⟩
      obtain ⟨vs, unseen', t1, t2⟩ := blTrace_ok inner _ e.t [e.s] (by simpa using hl) (by omega) hI'
      rw [t1]
      dsimp only
      obtain ⟨ws, es, -, -, w3, w4, -⟩ := blTrace_spec _ _ _ _ _ _ t1
      have := w4.length_eq
      rw [List.length_append] at this
      exact ih _ _ (by rw [w3]; simpa using hl) (by omega) (by omega) (invB_start_irrel t2)
    · exact ⟨_, rfl⟩

end Gpy
