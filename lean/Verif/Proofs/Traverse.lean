import Verif.Spec.Aabb

set_option autoImplicit false
namespace Gpy
open Np
variable {d : ℕ}

theorem Covers.ne_nil {V : List (Pt d)} {F : List (List ℕ)} {T : List (AabbNode d)} {q : ℕ} {es : List ℕ}
    (h : Covers V F T q es) : es ≠ [] := by
  induction h with
  | leaf => simp
  | node _ _ _ _ _ _ ih _ => simp [ih]

theorem Covers.elemIn {V : List (Pt d)} {F : List (List ℕ)} {T : List (AabbNode d)} {q : ℕ} {es : List ℕ}
    (h : Covers V F T q es) {n : AabbNode d} (hn : T[q]? = some n) : ∀ e ∈ es, ElemIn V F n e := by
  cases h with
  | leaf h h1 h0 ht hb => rw [hn] at h; cases h; intro e he; simp at he; subst he; exact hb
  | node h h0 h1 hl hr hb => rw [hn] at h; cases h; exact hb

theorem traverse_mono {σ : Type} {T : List (AabbNode d)}
    {visit : σ → AabbNode d → Bool → Option (Bool × σ)} {addq : σ → List Int → AabbNode d → List Int} :
    ∀ (fuel : ℕ) (q : List Int) (s s' : σ), traverse T visit addq fuel q s = some s' →
      ∀ k, fuel ≤ k → traverse T visit addq k q s = some s' := by
  intro fuel
  induction fuel with
  | zero =>
    intro q s s' h k _
    cases q with
    | nil => cases k <;> simpa [traverse] using h
    | cons a t => simp [traverse] at h
  | succ fuel ih =>
    intro q s s' h k hk
    cases q with
    | nil => cases k <;> simpa [traverse] using h
    | cons a t =>
      obtain ⟨k, rfl⟩ : ∃ k', k = k' + 1 := ⟨k - 1, by omega⟩
      unfold traverse at h ⊢
      cases hn : npGet? T a with
      | none => simp [hn] at h
      | some n =>
        simp only [hn, Option.bind_eq_bind, Option.bind_some] at h ⊢
        cases hv : visit s n (decide (n.ch1 = -1)) with
        | none => simp [hv] at h
        | some r =>
          simp only [hv, Option.bind_some] at h ⊢
          split at h
          · next hc => rw [if_pos hc]; exact ih _ _ _ h k (by omega)
          · next hc => rw [if_neg hc]; exact ih _ _ _ h k (by omega)

/-- number of nodes below a row whose leaves hold `es` -/
def weight (es : List ℕ) : ℕ := 2 * es.length - 1

theorem weight_append {l r : List ℕ} (hl : l ≠ []) (hr : r ≠ []) : weight (l ++ r) = weight l + weight r + 1 := by
  have := List.length_pos_iff.mpr hl
  have := List.length_pos_iff.mpr hr
  simp only [weight, List.length_append]; omega

/-- branch and bound over a valid tree -/
theorem traverse_bnb {σ : Type} {V : List (Pt d)} {F : List (List ℕ)} {T : List (AabbNode d)}
    {visit : σ → AabbNode d → Bool → Option (Bool × σ)} {addq : σ → List Int → AabbNode d → List Int}
    (best : σ → WithTop ℝ) (val : ℕ → WithTop ℝ) (Good : σ → Prop) (m : ℕ)
    (hleaf : ∀ s n (e : ℕ), n ∈ T → n.ch1 = -1 → n.tri = e → e < m → Good s →
      ∃ b s', visit s n true = some (b, s') ∧ Good s' ∧ best s' = min (best s) (val e))
    (hinner : ∀ s n (es : List ℕ), n ∈ T → n.ch1 ≠ -1 → (∀ e ∈ es, ElemIn V F n e ∧ e < m) → Good s →
      ∃ b s', visit s n false = some (b, s') ∧ Good s' ∧ best s' = best s ∧ (b = false → ∀ e ∈ es, best s ≤ val e))
    (hadd : ∀ s q n, addq s q n = n.ch0 :: n.ch1 :: q ∨ addq s q n = n.ch1 :: n.ch0 :: q) :
    ∀ (fuel : ℕ) (L : List (ℕ × List ℕ)) (s : σ), (∀ x ∈ L, Covers V F T x.1 x.2 ∧ ∀ e ∈ x.2, e < m) → Good s →
      (L.map (fun x => weight x.2)).sum ≤ fuel →
      ∃ s', traverse T visit addq fuel (L.map (fun x => (x.1 : Int))) s = some s' ∧ Good s' ∧ best s' ≤ best s ∧
        ∀ x ∈ L, ∀ e ∈ x.2, best s' ≤ val e := by
  intro fuel
  induction fuel with
  | zero =>
    intro L s hL hs hf
    cases L with
    | nil => exact ⟨s, by simp [traverse], hs, le_rfl, by simp⟩
    | cons x t =>
      exfalso
      have := List.length_pos_iff.mpr (hL x (by simp)).1.ne_nil
      simp [weight] at hf
      omega
  | succ fuel ih =>
    intro L s hL hs hf
    cases L with
    | nil => exact ⟨s, by simp [traverse], hs, le_rfl, by simp⟩
    | cons x t =>
      obtain ⟨q, es⟩ := x
      obtain ⟨hc, hlt⟩ := hL (q, es) (by simp)
      have ht : ∀ x ∈ t, Covers V F T x.1 x.2 ∧ ∀ e ∈ x.2, e < m := fun x hx => hL x (by simp [hx])
      simp only [List.map_cons, List.sum_cons] at hf ⊢
      have hpos := List.length_pos_iff.mpr hc.ne_nil
      unfold traverse
      rw [npGet?_natCast]
      cases hc with
      | @leaf _ e n h h1 h0 htri hb =>
        obtain ⟨b, s', v1, v2, v3⟩ := hleaf s n e (List.mem_of_getElem? h) h1 htri (hlt e (by simp)) hs
        simp only [h, h1, Option.bind_eq_bind, Option.bind_some, decide_true, v1, Bool.not_true, Bool.and_false,
          Bool.false_eq_true, if_false]
        obtain ⟨s'', w1, w2, w3, w4⟩ := ih t s' ht v2 (by
          change weight [e] + _ ≤ _ at hf
          have : weight [e] = 1 := rfl
          omega)
        refine ⟨s'', w1, w2, w3.trans (by rw [v3]; exact min_le_left _ _), ?_⟩
        intro x hx e' he'
        rcases List.mem_cons.mp hx with rfl | hx
        · simp at he'; subst he'
          exact w3.trans (by rw [v3]; exact min_le_right _ _)
        · exact w4 x hx e' he'
      | @node _ c0 c1 n l r h h0 h1 hl hr hb =>
        have hch : n.ch1 ≠ -1 := by rw [h1]; omega
        obtain ⟨b, s', v1, v2, v3, v4⟩ := hinner s n (l ++ r) (List.mem_of_getElem? h) hch
          (fun e he => ⟨hb e he, hlt e he⟩) hs
        simp only [h, hch, Option.bind_eq_bind, Option.bind_some, decide_false, v1, Bool.not_false, Bool.and_true]
        cases b with
        | false =>
          simp only [Bool.false_eq_true, if_false]
          obtain ⟨s'', w1, w2, w3, w4⟩ := ih t s' ht v2 (by
          change weight (l ++ r) + _ ≤ _ at hf
          have := weight_append hl.ne_nil hr.ne_nil
          omega)
          refine ⟨s'', w1, w2, w3.trans v3.le, ?_⟩
          intro x hx e' he'
          rcases List.mem_cons.mp hx with rfl | hx
          · exact (w3.trans v3.le).trans (v4 rfl e' he')
          · exact w4 x hx e' he'
        | true =>
          simp only [if_true]
          have fin : ∀ A : List (ℕ × List ℕ), A = [(c0, l), (c1, r)] ∨ A = [(c1, r), (c0, l)] →
              addq s' (t.map (fun x => (x.1 : Int))) n = (A ++ t).map (fun x => (x.1 : Int)) →
              ∃ s'', traverse T visit addq fuel (addq s' (t.map (fun x => (x.1 : Int))) n) s' = some s'' ∧ Good s'' ∧
                best s'' ≤ best s ∧ ∀ x ∈ (q, l ++ r) :: t, ∀ e ∈ x.2, best s'' ≤ val e := by
            intro A hA he
            have hmem : ∀ x, x ∈ A ↔ x = (c0, l) ∨ x = (c1, r) := by
              intro x; rcases hA with rfl | rfl <;> simp [or_comm]
            have hsum : (A.map (fun x => weight x.2)).sum = weight l + weight r := by
              rcases hA with rfl | rfl <;> simp [add_comm]
            rw [he]
            obtain ⟨s'', w1, w2, w3, w4⟩ := ih (A ++ t) s' (by
              intro x hx
              rcases List.mem_append.mp hx with hx | hx
              · rcases (hmem x).mp hx with rfl | rfl
                · exact ⟨hl, fun e he => hlt e (by simp [he])⟩
                · exact ⟨hr, fun e he => hlt e (by simp [he])⟩
              · exact ht x hx) v2 (by
              rw [List.map_append, List.sum_append, hsum]
              change weight (l ++ r) + _ ≤ _ at hf
              have := weight_append hl.ne_nil hr.ne_nil
              omega)
            refine ⟨s'', w1, w2, w3.trans v3.le, ?_⟩
            intro x hx e' he'
            rcases List.mem_cons.mp hx with rfl | hx
            · rcases List.mem_append.mp he' with he' | he'
              · exact w4 (c0, l) (by simp [(hmem _).mpr]) e' he'
              · exact w4 (c1, r) (by simp [(hmem _).mpr]) e' he'
            · exact w4 x (by simp [hx]) e' he'
          rcases hadd s' (t.map (fun x => (x.1 : Int))) n with h' | h'
          · exact fin _ (Or.inl rfl) (by rw [h', h0, h1]; rfl)
          · exact fin _ (Or.inr rfl) (by rw [h', h0, h1]; rfl)

end Gpy
