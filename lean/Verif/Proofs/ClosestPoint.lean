import Verif.Proofs.Traverse
import Verif.Props.PointElement

set_option autoImplicit false
namespace Gpy
open Np
variable {d : ℕ}

theorem list_bounds {w : List ℝ} {Y : List ℝ} {lo hi : ℝ} (hw : ∀ x ∈ w, 0 ≤ x) (hl : w.length = Y.length)
    (hY : ∀ y ∈ Y, lo ≤ y ∧ y ≤ hi) :
    lo * w.sum ≤ ((w.zip Y).map (fun q => q.1 * q.2)).sum ∧ ((w.zip Y).map (fun q => q.1 * q.2)).sum ≤ hi * w.sum := by
  induction w generalizing Y with
  | nil => simp
  | cons a t ih =>
    cases Y with
    | nil => simp at hl
    | cons y ys =>
      obtain ⟨h1, h2⟩ := ih (Y := ys) (fun x hx => hw x (by simp [hx])) (by simpa using hl) (fun y hy => hY y (by simp [hy]))
      have ha := hw a (by simp)
      obtain ⟨h3, h4⟩ := hY y (by simp)
      simp only [List.zip_cons_cons, List.map_cons, List.sum_cons]
      constructor <;> nlinarith

theorem comb_inBox {w : List ℝ} {X : List (Pt d)} {C W : Pt d} (hw : IsWeights w X.length) (hX : ∀ x ∈ X, InBox C W x) :
    InBox C W (comb w X) := by
  intro j
  have h := list_bounds (w := w) (Y := X.map (fun x => x j)) (lo := C j - W j / 2) (hi := C j + W j / 2) hw.2.1
    (by simpa using hw.1) (by
      intro y hy
      obtain ⟨x, hx, rfl⟩ := List.mem_map.mp hy
      exact hX x hx j)
  rw [hw.2.2, mul_one, mul_one, List.zip_map_right, List.map_map] at h
  exact h

theorem sdBox_bound [NeZero d] {p C W x : Pt d} (hx : InBox C W x) : signedSq (sdBox p C W) ≤ psq (x - p) := by
  set N := pnorm (fun i => max (|p i - C i| - 0.5 * W i) 0) with hN
  have hN0 : 0 ≤ N := Real.sqrt_nonneg _
  have hNs : N ^ 2 ≤ psq (x - p) := by
    rw [hN, pnorm_sq]
    apply Finset.sum_le_sum
    intro i _
    have h1 := hx i
    have h2 : |p i - C i| - 0.5 * W i ≤ |x i - p i| := by
      have : |p i - C i| ≤ |x i - p i| + |x i - C i| := by
        have := abs_sub_le (p i) (x i) (C i)
        rwa [abs_sub_comm (p i) (x i)] at this
      have h3 : |x i - C i| ≤ W i / 2 := abs_le.mpr ⟨by linarith [h1.1], by linarith [h1.2]⟩
      linarith
    have h4 : max (|p i - C i| - 0.5 * W i) 0 ≤ |x i - p i| := max_le h2 (abs_nonneg _)
    have h5 : 0 ≤ max (|p i - C i| - 0.5 * W i) 0 := le_max_right _ _
    have : max (|p i - C i| - 0.5 * W i) 0 ^ 2 ≤ |x i - p i| ^ 2 := pow_le_pow_left₀ h5 h4 2
    rwa [sq_abs] at this
  have hle : sdBox p C W ≤ N := by
    unfold sdBox; dsimp only
    have := min_le_right ((List.finRange d).foldl (fun acc i => max acc (|p i - C i| - 0.5 * W i)) (|p 0 - C 0| - 0.5 * W 0)) 0
    linarith
  have h0 := psq_nonneg (x - p)
  unfold signedSq
  split_ifs with h1 h2
  · nlinarith [sq_nonneg (sdBox p C W)]
  · rw [zero_mul]; exact h0
  · have : 0 ≤ sdBox p C W := not_lt.mp h1
    have : sdBox p C W ^ 2 ≤ N ^ 2 := pow_le_pow_left₀ this hle 2
    linarith

/-- the vertices of every element exist and have one of the supported shapes -/
def ElemsOk (V : List (Pt d)) (F : List (List ℕ)) : Prop :=
  ∀ es ∈ F, ∃ X, es.mapM (fun i => V[i]?) = some X ∧ ElemShape X

/-- element distance of element `e` (`⊤` when there is none) -/
noncomputable def elemVal (p : Pt d) (V : List (Pt d)) (F : List (List ℕ)) (e : ℕ) : WithTop ℝ :=
  match F[e]? with
  | none => ⊤
  | some es => match squaredDistanceToElement p V es with
    | none => ⊤
    | some r => (r.1 : WithTop ℝ)

theorem mapM_mem {α β : Type*} {f : α → Option β} : ∀ {l : List α} {X : List β}, l.mapM f = some X →
    ∀ x ∈ X, ∃ i ∈ l, f i = some x := by
  intro l X
  induction X generalizing l with
  | nil => simp
  | cons y Y ih =>
    intro h x hx
    obtain ⟨i, t, rfl, h1, h2⟩ := mapM_cons_inv h
    rcases List.mem_cons.mp hx with rfl | hx
    · exact ⟨i, by simp, h1⟩
    · obtain ⟨k, hk, h3⟩ := ih h2 x hx
      exact ⟨k, by simp [hk], h3⟩

/-- the value of an element is at least the bound of any box that contains its vertices -/
theorem elemVal_ge_box [NeZero d] {p : Pt d} {V : List (Pt d)} {F : List (List ℕ)} (hF : ElemsOk V F) {n : AabbNode d} {e : ℕ}
    (h : ElemIn V F n e) : ((signedSq (sdBox p n.C n.W) : ℝ) : WithTop ℝ) ≤ elemVal p V F e := by
  unfold elemVal
  cases hes : F[e]? with
  | none => exact le_top
  | some es =>
    obtain ⟨X, h1, h2⟩ := hF es (List.mem_of_getElem? hes)
    obtain ⟨r, r1, r2, r3, _⟩ := elem_touch (p := p) h1 h2
    simp only [r1]
    rw [WithTop.coe_le_coe, r3]
    apply sdBox_bound
    apply comb_inBox r2
    intro x hx
    obtain ⟨i, hi, hxi⟩ := mapM_mem h1 x hx
    exact h es hes i hi x hxi

theorem elemVal_some {p : Pt d} {V : List (Pt d)} {F : List (List ℕ)} (hF : ElemsOk V F) {e : ℕ} (he : e < F.length) :
    ∃ es r, F[e]? = some es ∧ squaredDistanceToElement p V es = some r ∧ elemVal p V F e = (r.1 : WithTop ℝ) := by
  have hes : F[e]? = some F[e] := List.getElem?_eq_getElem he
  obtain ⟨X, h1, h2⟩ := hF F[e] (List.getElem_mem he)
  obtain ⟨r, r1, _⟩ := elem_touch (p := p) h1 h2
  exact ⟨F[e], r, hes, r1, by unfold elemVal; rw [hes]; simp only [r1]⟩

/-- the recorded element attains the recorded distance -/
def CpGood (p : Pt d) (V : List (Pt d)) (F : List (List ℕ)) (s : CpState) : Prop :=
  (s.best = ⊤ ∧ s.elem = -1) ∨ ∃ (e : ℕ) (es : List ℕ) (r : ℝ × List ℝ), s.elem = e ∧ F[e]? = some es ∧
    squaredDistanceToElement p V es = some r ∧ s.best = (r.1 : WithTop ℝ) ∧ s.lmb = r.2

theorem cp_traverse [NeZero d] {p : Pt d} {V : List (Pt d)} {F : List (List ℕ)} {T : List (AabbNode d)} (hF : ElemsOk V F)
    (hS : SplitOk T) {es : List ℕ} (hc : Covers V F T 0 es) (hes : ∀ e ∈ es, e < F.length) :
    ∃ s, (∀ fuel, weight es ≤ fuel → squaredDistanceAabb p V F T fuel = some s) ∧ CpGood p V F s ∧
      ∀ e ∈ es, s.best ≤ elemVal p V F e := by
  have H := traverse_bnb (V := V) (F := F) (T := T) (visit := cpVisit p V F) (addq := cpAdd) CpState.best (elemVal p V F)
    (CpGood p V F) F.length ?_ ?_ ?_
  · obtain ⟨s, h1, h2, _, h4⟩ := H (weight es) [(0, es)] ⟨⊤, -1, [], false⟩ (by simpa using ⟨hc, hes⟩) (Or.inl ⟨rfl, rfl⟩)
      (by simp)
    refine ⟨s, ?_, h2, fun e he => h4 (0, es) (by simp) e he⟩
    intro fuel hf
    exact traverse_mono _ _ _ _ h1 fuel hf
  · intro s n e hn hch htri he hs
    obtain ⟨es, r, e1, e2, e3⟩ := elemVal_some (p := p) hF he
    unfold cpVisit
    simp only [if_true, htri, npGet?_natCast, e1, e2, Option.bind_eq_bind, Option.bind_some]
    by_cases hb : (r.1 : WithTop ℝ) < s.best
    · rw [if_pos hb]
      refine ⟨_, _, rfl, Or.inr ⟨e, es, r, rfl, e1, e2, rfl, rfl⟩, ?_⟩
      show (r.1 : WithTop ℝ) = _
      rw [e3, min_eq_right hb.le]
    · rw [if_neg hb]
      refine ⟨_, _, rfl, hs, ?_⟩
      rw [e3, min_eq_left (not_lt.mp hb)]
  · intro s n es hn hch hel hs
    obtain ⟨s0, s1⟩ := hS n hn hch
    obtain ⟨k, hk⟩ : ∃ k : ℕ, n.split = k := ⟨n.split.toNat, by omega⟩
    have hkd : k < d := by omega
    unfold cpVisit
    simp only [Bool.false_eq_true, if_false, Option.bind_eq_bind]
    by_cases hb : ((signedSq (sdBox p n.C n.W) : ℝ) : WithTop ℝ) < s.best
    · rw [if_pos hb]
      have g1 : ∀ x : Pt d, npGet? (List.ofFn x) n.split = some (x ⟨k, hkd⟩) := by
        intro x
        rw [hk, npGet?_natCast]; simp [hkd]
      simp only [g1, Option.bind_some]
      refine ⟨_, _, rfl, ?_, rfl, by simp⟩
      rcases hs with h | h
      · exact Or.inl h
      · exact Or.inr h
    · rw [if_neg hb]
      refine ⟨_, _, rfl, hs, rfl, ?_⟩
      intro _ e he
      exact (not_lt.mp hb).trans (elemVal_ge_box hF (hel e he).1)
  · intro s q n
    unfold cpAdd
    split
    · exact Or.inl rfl
    · exact Or.inr rfl

theorem brute_spec {p : Pt d} {V : List (Pt d)} : ∀ (F : List (List ℕ)) (k : ℕ) (acc : WithTop ℝ × Int × List ℝ), ElemsOk V F →
    ∃ out, (F.zipIdx k).foldlM (fun (acc : WithTop ℝ × Int × List ℝ) x => do
        let r ← squaredDistanceToElement p V x.1
        some (if (r.1 : WithTop ℝ) < acc.1 then ((r.1 : WithTop ℝ), (x.2 : Int), r.2) else acc)) acc = some out ∧
      out.1 ≤ acc.1 ∧ (∀ e < F.length, out.1 ≤ elemVal p V F e) ∧
      (out = acc ∨ ∃ (e : ℕ) (es : List ℕ) (r : ℝ × List ℝ), out.2.1 = ((e + k : ℕ) : Int) ∧ F[e]? = some es ∧
        squaredDistanceToElement p V es = some r ∧ out.1 = (r.1 : WithTop ℝ) ∧ out.2.2 = r.2) := by
  intro F
  induction F with
  | nil => intro k acc _; exact ⟨acc, rfl, le_rfl, by simp, Or.inl rfl⟩
  | cons es t ih =>
    intro k acc hF
    obtain ⟨es', r, e1, e2, e3⟩ := elemVal_some (p := p) hF (e := 0) (by simp)
    simp at e1
    subst e1
    simp only [List.zipIdx_cons, List.foldlM_cons, e2, Option.bind_eq_bind, Option.bind_some]
    set acc' : WithTop ℝ × Int × List ℝ := if (r.1 : WithTop ℝ) < acc.1 then ((r.1 : WithTop ℝ), (k : Int), r.2) else acc with hacc
    obtain ⟨out, h1, h2, h3, h4⟩ := ih (k + 1) acc' (fun es hes => hF es (by simp [hes]))
    have ha : acc'.1 ≤ acc.1 ∧ acc'.1 ≤ (r.1 : WithTop ℝ) := by
      rw [hacc]; split
      · next h => exact ⟨h.le, le_rfl⟩
      · next h => exact ⟨le_rfl, not_lt.mp h⟩
    refine ⟨out, h1, h2.trans ha.1, ?_, ?_⟩
    · intro e he
      cases e with
      | zero => rw [e3]; exact h2.trans ha.2
      | succ e =>
        have : elemVal p V (es :: t) (e + 1) = elemVal p V t e := by simp [elemVal]
        rw [this]
        exact h3 e (by simpa using he)
    · rcases h4 with h4 | ⟨e, es', r', a1, a2, a3⟩
      · by_cases hlt : (r.1 : WithTop ℝ) < acc.1
        · right
          rw [if_pos hlt] at hacc
          refine ⟨0, es, r, ?_, by simp, e2, ?_, ?_⟩
          · rw [h4, hacc]; simp
          · rw [h4, hacc]
          · rw [h4, hacc]
        · left
          rw [if_neg hlt] at hacc
          rw [h4, hacc]
      · right
        exact ⟨e + 1, es', r', by rw [a1]; congr 1; omega, by simpa using a2, a3⟩

end Gpy
