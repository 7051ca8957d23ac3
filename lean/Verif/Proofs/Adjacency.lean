import Verif.Model.Adjacency
import Verif.Proofs.Edges
import Mathlib.Logic.Relation
import Mathlib.Data.Finset.Card

/-! Depth first search labelling: the labels are exactly the connected components. -/

set_option autoImplicit false
namespace Gpy
open Np

section Cc
variable (nb : ℕ → List ℕ)

/-- joined by a chain of neighbours -/
def CcConn : ℕ → ℕ → Prop := Relation.ReflTransGen (fun v w => w ∈ nb v)

theorem ccPush_lab (st : CcState) (ws : List ℕ) : (ws.foldl ccPush st).lab = st.lab := by
  induction ws generalizing st with
  | nil => rfl
  | cons w t ih =>
    rw [List.foldl_cons, ih]
    unfold ccPush; split <;> rfl

theorem ccPush_spec (st : CcState) (ws : List ℕ) :
    (∀ x, (ws.foldl ccPush st).seen x = true ↔ st.seen x = true ∨ x ∈ ws) ∧
    ∃ new, (ws.foldl ccPush st).stack = new ++ st.stack ∧ new.Nodup ∧
      ∀ x, x ∈ new ↔ x ∈ ws ∧ ¬ st.seen x = true := by
  induction ws generalizing st with
  | nil => exact ⟨by simp, [], by simp⟩
  | cons w t ih =>
    rw [List.foldl_cons]
    obtain ⟨h1, new, h2, h3, h4⟩ := ih (ccPush st w)
    by_cases hw : st.seen w = true
    · have he : ccPush st w = st := by unfold ccPush; rw [if_pos hw]
      rw [he] at h1 h2 h4 ⊢
      refine ⟨fun x => ?_, new, h2, h3, fun x => ?_⟩
      · rw [h1, List.mem_cons]
        constructor
        · rintro (h | h) <;> simp [h]
        · rintro (h | rfl | h)
          · exact Or.inl h
          · exact Or.inl hw
          · exact Or.inr h
      · rw [h4, List.mem_cons]
        constructor
        · rintro ⟨a, b⟩; exact ⟨Or.inr a, b⟩
        · rintro ⟨rfl | a, b⟩
          · exact absurd hw b
          · exact ⟨a, b⟩
    · have he : ccPush st w = { st with seen := Function.update st.seen w true, stack := w :: st.stack } := by
        unfold ccPush; rw [if_neg hw]
      have hs : ∀ x, (ccPush st w).seen x = true ↔ x = w ∨ st.seen x = true := by
        intro x
        rw [he]
        by_cases hx : x = w
        · subst hx; simp
        · simp [Function.update_of_ne hx, hx]
      have hst : (ccPush st w).stack = w :: st.stack := by rw [he]
      refine ⟨fun x => ?_, new ++ [w], ?_, ?_, fun x => ?_⟩
      · rw [h1, hs, List.mem_cons]; tauto
      · rw [h2, hst]; simp
      · rw [List.nodup_append]
        refine ⟨h3, by simp, ?_⟩
        intro a ha b hb
        rw [List.mem_singleton] at hb
        rintro rfl
        have := ((h4 a).mp ha).2
        rw [hs] at this
        exact this (Or.inl hb)
      · rw [List.mem_append, h4, hs, List.mem_singleton, List.mem_cons]
        constructor
        · rintro (⟨a, b⟩ | rfl)
          · push Not at b; exact ⟨Or.inr a, b.2⟩
          · exact ⟨Or.inl rfl, hw⟩
        · rintro ⟨rfl | a, b⟩
          · exact Or.inr rfl
          · by_cases hx : x = w
            · exact Or.inr hx
            · exact Or.inl ⟨a, by push Not; exact ⟨hx, b⟩⟩

/-- invariant of the search started at `r` -/
structure CcInv (n label r : ℕ) (lab0 : ℕ → Option ℕ) (st : CcState) : Prop where
  seen_iff : ∀ x, st.seen x = true ↔ st.lab x ≠ none ∨ x ∈ st.stack
  nodup : st.stack.Nodup
  unlab : ∀ x ∈ st.stack, st.lab x = none
  reach : ∀ x ∈ st.stack, x < n ∧ CcConn nb r x
  old : ∀ x, lab0 x ≠ none → st.lab x = lab0 x
  new : ∀ x a, lab0 x = none → st.lab x = some a → a = label ∧ CcConn nb r x ∧ x < n
  closed : ∀ x, st.lab x ≠ none → ∀ w ∈ nb x, st.seen w = true
  root : st.seen r = true

theorem ccLoop_spec {n label r : ℕ} {lab0 : ℕ → Option ℕ} (hn : ∀ v, ∀ w ∈ nb v, w < n) (fuel : ℕ) (st : CcState)
    (hi : CcInv nb n label r lab0 st) (hf : ((Finset.range n).filter (fun x => st.lab x = none)).card ≤ fuel) :
    ∃ st', ccLoop nb label fuel st = some st' ∧ st'.stack = [] ∧ CcInv nb n label r lab0 st' := by
  induction fuel generalizing st with
  | zero =>
    obtain ⟨lab, seen, stack⟩ := st
    cases stack with
    | nil => exact ⟨_, rfl, rfl, hi⟩
    | cons v s =>
      exfalso
      have h1 := hi.unlab v (by simp)
      have h2 := (hi.reach v (by simp)).1
      have : v ∈ (Finset.range n).filter (fun x => lab x = none) := by simp [h2]; exact h1
      have := Finset.card_pos.mpr ⟨v, this⟩
      simp only at hf
      omega
  | succ fuel ih =>
    obtain ⟨lab, seen, stack⟩ := st
    cases stack with
    | nil => exact ⟨_, rfl, rfl, hi⟩
    | cons v s =>
      have hv1 : lab v = none := hi.unlab v (by simp)
      obtain ⟨hv2, hv3⟩ := hi.reach v (by simp)
      have hseen : ∀ x, seen x = true ↔ lab x ≠ none ∨ x ∈ v :: s := hi.seen_iff
      obtain ⟨hvs, hns⟩ := List.nodup_cons.mp hi.nodup
      rw [ccLoop]
      set st1 : CcState := ⟨Function.update lab v (some label), seen, s⟩ with hst1
      obtain ⟨p1, new, p2, p3, p4⟩ := ccPush_spec st1 (nb v)
      have p0 := ccPush_lab st1 (nb v)
      have hl : ∀ x, x ≠ v → st1.lab x = lab x := fun x hx => by simp [hst1, Function.update_of_ne hx]
      have hlv : st1.lab v = some label := by simp [hst1]
      apply ih
      · refine ⟨?_, ?_, ?_, ?_, ?_, ?_, ?_, ?_⟩
        · intro x
          rw [p1, p0, p2, List.mem_append, p4]
          show (seen x = true ∨ x ∈ nb v) ↔ st1.lab x ≠ none ∨ (x ∈ nb v ∧ ¬ seen x = true) ∨ x ∈ s
          by_cases hx : x = v
          · subst hx
            rw [hlv]
            have : seen x = true := (hseen x).mpr (Or.inr (by simp))
            simp [this]
          · rw [hl x hx, hseen, List.mem_cons]
            simp only [hx, false_or]
            tauto
        · rw [p2, List.nodup_append]
          refine ⟨p3, hns, ?_⟩
          rintro a ha b hb rfl
          exact ((p4 a).mp ha).2 ((hseen a).mpr (Or.inr (List.mem_cons_of_mem _ hb)))
        · intro x hx
          rw [p2, List.mem_append] at hx
          rw [p0]
          have hxv : x ≠ v := by
            rintro rfl
            rcases hx with hx | hx
            · exact ((p4 x).mp hx).2 ((hseen x).mpr (Or.inr (by simp)))
            · exact hvs hx
          rw [hl x hxv]
          rcases hx with hx | hx
          · have := ((p4 x).mp hx).2
            by_contra hc
            exact this ((hseen x).mpr (Or.inl hc))
          · exact hi.unlab x (List.mem_cons_of_mem _ hx)
        · intro x hx
          rw [p2, List.mem_append] at hx
          rcases hx with hx | hx
          · have := ((p4 x).mp hx).1
            exact ⟨hn v x this, hv3.tail this⟩
          · exact hi.reach x (List.mem_cons_of_mem _ hx)
        · intro x hx
          rw [p0]
          have hxv : x ≠ v := by
            rintro rfl
            have := hi.old x hx
            simp only [hv1] at this
            exact hx this.symm
          rw [hl x hxv]; exact hi.old x hx
        · intro x a h0 ha
          rw [p0] at ha
          by_cases hx : x = v
          · subst hx
            rw [hlv] at ha
            exact ⟨(Option.some.inj ha).symm, hv3, hv2⟩
          · rw [hl x hx] at ha
            exact hi.new x a h0 ha
        · intro x hx w hw
          rw [p0] at hx
          rw [p1]
          by_cases hxv : x = v
          · subst hxv; exact Or.inr hw
          · rw [hl x hxv] at hx
            exact Or.inl (hi.closed x hx w hw)
        · rw [p1]; exact Or.inl hi.root
      · rw [p0]
        have : ((Finset.range n).filter (fun x => st1.lab x = none)) ⊂ (Finset.range n).filter (fun x => lab x = none) := by
          rw [Finset.ssubset_iff_of_subset]
          · refine ⟨v, by simp [hv2, hv1], by simp [hlv]⟩
          · intro x hx
            simp only [Finset.mem_filter] at hx ⊢
            refine ⟨hx.1, ?_⟩
            by_cases hxv : x = v
            · subst hxv; exact hv1
            · rw [← hl x hxv]; exact hx.2
        have := Finset.card_lt_card this
        simp only at hf
        omega

/-- invariant of the outer loop: `L` labels were given out -/
structure CcOuterInv (n L : ℕ) (st : CcState) : Prop where
  stack : st.stack = []
  seen_iff : ∀ x, st.seen x = true ↔ st.lab x ≠ none
  closed : ∀ x, st.lab x ≠ none → ∀ w ∈ nb x, st.lab w ≠ none
  lt : ∀ x a, st.lab x = some a → a < L ∧ x < n
  onto : ∀ a < L, ∃ x, x < n ∧ st.lab x = some a
  same : ∀ x y a b, st.lab x = some a → st.lab y = some b → (a = b ↔ CcConn nb x y)

theorem ccConn_symm (hs : ∀ v w, w ∈ nb v → v ∈ nb w) {x y : ℕ} (h : CcConn nb x y) : CcConn nb y x := by
  induction h with
  | refl => exact Relation.ReflTransGen.refl
  | tail _ h ih => exact Relation.ReflTransGen.head (hs _ _ h) ih

theorem ccConn_closed {P : ℕ → Prop} (hc : ∀ x, P x → ∀ w ∈ nb x, P w) {x y : ℕ} (h : CcConn nb x y) (hx : P x) : P y := by
  induction h with
  | refl => exact hx
  | tail _ h ih => exact hc _ ih _ h

theorem ccOuter_spec {n : ℕ} (hs : ∀ v w, w ∈ nb v → v ∈ nb w) (hn : ∀ v, ∀ w ∈ nb v, w < n) (vs : List ℕ)
    (hvs : ∀ v ∈ vs, v < n) (L : ℕ) (st : CcState) (hi : CcOuterInv nb n L st) :
    ∃ L' st', ccOuter nb n vs L st = some (L', st') ∧ CcOuterInv nb n L' st' ∧
      (∀ x, st.lab x ≠ none → st'.lab x ≠ none) ∧ ∀ v ∈ vs, st'.lab v ≠ none := by
  induction vs generalizing L st with
  | nil => exact ⟨L, st, rfl, hi, fun _ h => h, by simp⟩
  | cons v t ih =>
    rw [ccOuter]
    cases hv : st.lab v with
    | some a =>
      obtain ⟨L', st', h1, h2, h3, h4⟩ := ih (fun x hx => hvs x (List.mem_cons_of_mem _ hx)) L st hi
      refine ⟨L', st', h1, h2, h3, ?_⟩
      intro x hx
      rcases List.mem_cons.mp hx with rfl | hx
      · exact h3 x (by rw [hv]; simp)
      · exact h4 x hx
    | none =>
      have hvn := hvs v (by simp)
      have hinv : CcInv nb n L v st.lab ⟨st.lab, Function.update st.seen v true, [v]⟩ := by
        refine ⟨?_, by simp, ?_, ?_, fun _ _ => rfl, ?_, ?_, by simp⟩
        · intro x
          by_cases hx : x = v
          · subst hx; simp
          · simp only [Function.update_of_ne hx, List.mem_singleton, hx, or_false]; exact hi.seen_iff x
        · intro x hx; rw [List.mem_singleton] at hx; subst hx; exact hv
        · intro x hx; rw [List.mem_singleton] at hx; subst hx; exact ⟨hvn, Relation.ReflTransGen.refl⟩
        · intro x a h0 h1; simp only at h1; rw [h0] at h1; cases h1
        · intro x hx w hw
          have h1 := (hi.seen_iff w).mpr (hi.closed x hx w hw)
          by_cases hwv : w = v
          · subst hwv; simp
          · simp only [Function.update_of_ne hwv]; exact h1
      obtain ⟨st1, h1, h2, h3⟩ := ccLoop_spec nb hn n _ hinv (le_trans (Finset.card_filter_le _ _) (by simp))
      have hsee : ∀ x, st1.seen x = true ↔ st1.lab x ≠ none := by
        intro x; rw [h3.seen_iff x, h2]; simp
      have hclosed : ∀ x, st1.lab x ≠ none → ∀ w ∈ nb x, st1.lab w ≠ none := fun x hx w hw =>
        (hsee w).mp (h3.closed x hx w hw)
      have hroot : st1.lab v = some L := by
        have hr := (hsee v).mp h3.root
        obtain ⟨a, ha⟩ := Option.ne_none_iff_exists'.mp hr
        rw [ha, (h3.new v a hv ha).1]
      have hcls : ∀ x a, st1.lab x = some a → (st.lab x = some a ∧ a < L) ∨ (st.lab x = none ∧ a = L ∧ CcConn nb v x) := by
        intro x a ha
        cases h0 : st.lab x with
        | none =>
          obtain ⟨q1, q2, _⟩ := h3.new x a h0 ha
          exact Or.inr ⟨rfl, q1, q2⟩
        | some b =>
          have := h3.old x (by rw [h0]; simp)
          rw [ha, h0] at this
          rw [this]
          exact Or.inl ⟨rfl, by cases this; exact (hi.lt x a h0).1⟩
      have hout : CcOuterInv nb n (L + 1) st1 := by
        refine ⟨h2, hsee, hclosed, ?_, ?_, ?_⟩
        · intro x a ha
          rcases hcls x a ha with ⟨p, q⟩ | ⟨p, q, _⟩
          · exact ⟨by omega, (hi.lt x a p).2⟩
          · exact ⟨by omega, (h3.new x a p ha).2.2⟩
        · intro a ha
          by_cases hL : a = L
          · subst hL; exact ⟨v, hvn, hroot⟩
          · obtain ⟨x, hx, hxa⟩ := hi.onto a (by omega)
            exact ⟨x, hx, by rw [h3.old x (by rw [hxa]; simp), hxa]⟩
        · intro x y a b ha hb
          rcases hcls x a ha with ⟨p, q⟩ | ⟨p, q, r⟩ <;> rcases hcls y b hb with ⟨p', q'⟩ | ⟨p', q', r'⟩
          · exact hi.same x y a b p p'
          · constructor
            · intro h; omega
            · intro hc
              exfalso
              exact ccConn_closed nb hi.closed hc (by rw [p]; simp) p'
          · constructor
            · intro h; omega
            · intro hc
              exfalso
              exact ccConn_closed nb hi.closed (ccConn_symm nb hs hc) (by rw [p']; simp) p
          · constructor
            · intro _
              exact (ccConn_symm nb hs r).trans r'
            · intro _; rw [q, q']
      obtain ⟨L', st', g1, g2, g3, g4⟩ := ih (fun x hx => hvs x (List.mem_cons_of_mem _ hx)) (L + 1) st1 hout
      have hmono : ∀ x, st.lab x ≠ none → st1.lab x ≠ none := fun x hx => by rw [h3.old x hx]; exact hx
      refine ⟨L', st', ?_, g2, fun x hx => g3 x (hmono x hx), ?_⟩
      · simp only [h1, Option.bind_eq_bind, Option.bind_some]; exact g1
      · intro x hx
        rcases List.mem_cons.mp hx with rfl | hx
        · exact g3 x (by rw [hroot]; simp)
        · exact g4 x hx

end Cc

theorem mem_csrRow {A : Csr ℤ} {v w : ℕ} : w ∈ csrRow A v ↔ ∃ k, (v, w, k) ∈ A.trip := by
  unfold csrRow
  rw [List.mem_map]
  constructor
  · rintro ⟨⟨a, b, k⟩, h, rfl⟩
    rw [List.mem_filter] at h
    simp only [decide_eq_true_eq] at h
    obtain ⟨h1, rfl⟩ := h
    exact ⟨k, h1⟩
  · rintro ⟨k, h⟩
    exact ⟨_, List.mem_filter.mpr ⟨h, by simp⟩, rfl⟩

theorem mem_csrCol {A : Csr ℤ} {v w : ℕ} : w ∈ csrCol A v ↔ ∃ k, (w, v, k) ∈ A.trip := by
  unfold csrCol
  rw [List.mem_map]
  constructor
  · rintro ⟨⟨a, b, k⟩, h, rfl⟩
    rw [List.mem_filter] at h
    simp only [decide_eq_true_eq] at h
    obtain ⟨h1, rfl⟩ := h
    exact ⟨k, h1⟩
  · rintro ⟨k, h⟩
    exact ⟨_, List.mem_filter.mpr ⟨h, by simp⟩, rfl⟩

/-- contract of `csgraph.connected_components` -/
theorem csgraph_spec (A : Csr ℤ) (hA : A.WF) (hsq : A.nrows = A.ncols) :
    ∃ k C, csgraphConnectedComponents A = some (k, C) ∧ C.length = A.nrows ∧
      (∀ a ∈ C, a < k) ∧ (∀ a < k, a ∈ C) ∧
      ∀ (x y a b : ℕ), C[x]? = some a → C[y]? = some b →
        (a = b ↔ Relation.ReflTransGen (fun v w => (∃ k, (v, w, k) ∈ A.trip) ∨ ∃ k, (w, v, k) ∈ A.trip) x y) := by
  set nb : ℕ → List ℕ := fun v => csrRow A v ++ csrCol A v with hnb
  have hmem : ∀ v w, w ∈ nb v ↔ (∃ k, (v, w, k) ∈ A.trip) ∨ ∃ k, (w, v, k) ∈ A.trip := by
    intro v w; rw [hnb]; simp only [List.mem_append, mem_csrRow, mem_csrCol]
  have hs : ∀ v w, w ∈ nb v → v ∈ nb w := by
    intro v w; rw [hmem, hmem]; exact Or.symm
  have hn : ∀ v, ∀ w ∈ nb v, w < A.nrows := by
    intro v w hw
    rcases (hmem v w).mp hw with ⟨k, h⟩ | ⟨k, h⟩
    · rw [hsq]; exact (hA _ h).2
    · exact (hA _ h).1
  have hi : CcOuterInv nb A.nrows 0 ⟨fun _ => none, fun _ => false, []⟩ :=
    ⟨rfl, by simp, by simp, by simp, by simp, by simp⟩
  obtain ⟨L, st, h1, h2, _, h4⟩ := ccOuter_spec nb hs hn (List.range A.nrows) (fun v hv => List.mem_range.mp hv) 0 _ hi
  have hdef : ∀ x < A.nrows, ∃ a, st.lab x = some a := fun x hx =>
    Option.ne_none_iff_exists'.mp (h4 x (List.mem_range.mpr hx))
  choose! g hg using hdef
  have hmap : (List.range A.nrows).mapM st.lab = some ((List.range A.nrows).map g) := by
    exact mapM_eq_some_map (fun x hx => hg x (List.mem_range.mp hx))
  have hget : ∀ (x a : ℕ), ((List.range A.nrows).map g)[x]? = some a → st.lab x = some a := by
    intro x a h
    rw [List.getElem?_map] at h
    by_cases hx : x < A.nrows
    · rw [List.getElem?_range hx] at h
      simp only [Option.map_some, Option.some.injEq] at h
      rw [← h]; exact hg x hx
    · rw [List.getElem?_eq_none (by simpa using hx)] at h; cases h
  refine ⟨L, (List.range A.nrows).map g, ?_, by simp, ?_, ?_, ?_⟩
  · unfold csgraphConnectedComponents
    rw [h1]
    simp only [Option.bind_eq_bind, Option.bind_some, hmap]
    rfl
  · intro a ha
    obtain ⟨x, hx⟩ := List.mem_iff_getElem?.mp ha
    exact (h2.lt x a (hget x a hx)).1
  · intro a ha
    obtain ⟨x, hx, hxa⟩ := h2.onto a ha
    rw [List.mem_map]
    refine ⟨x, List.mem_range.mpr hx, ?_⟩
    have := hg x hx
    rw [hxa] at this
    exact (Option.some.inj this).symm
  · intro x y a b ha hb
    rw [h2.same x y a b (hget x a ha) (hget y b hb)]
    unfold CcConn
    simp only [hmem]

end Gpy
