import Verif.Proofs.CollapseRun
import Verif.Proofs.UnionFind

/-! The map from the old to the new vertices. -/

set_option autoImplicit false
namespace Gpy

/-- the merges are recorded in the union-find structure -/
def UFok (n : ℕ) (m : List (ℕ × ℕ)) : Prop :=
  ∃ P root, m.foldlM ufUnion ⟨n, fun i => i⟩ = some P ∧ Forest n P root ∧ ∀ x < n, ∀ y < n, root x = root y ↔ repOf m x = repOf m y

theorem UFok.nil (n : ℕ) : UFok n [] := by
  refine ⟨_, fun x => x, rfl, ⟨rfl, fun x hx => hx, fun _ _ => rfl, fun _ _ _ => rfl, fun x hx => hx, fun _ _ => rfl, ⟨fun _ => 0, fun x _ h => absurd rfl h⟩⟩, fun _ _ _ _ => Iff.rfl⟩

theorem UFok.snoc {n : ℕ} {m : List (ℕ × ℕ)} (h : UFok n m) {a b : ℕ} (ha : a < n) (hb : b < n) (ra : repOf m a = a) (rb : repOf m b = b) :
    UFok n (m ++ [(a, b)]) := by
  obtain ⟨P, root, h1, h2, h3⟩ := h
  obtain ⟨P', q1, q2⟩ := ufUnion_ok h2 ha hb
  refine ⟨P', _, ?_, q2, ?_⟩
  · rw [List.foldlM_append, h1]
    simp [q1]
  · intro x hx y hy
    rw [repOf_snoc, repOf_snoc, mergeTo_eq_iff]
    have e1 := h3 x hx a ha
    have e2 := h3 x hx b hb
    have e3 := h3 y hy a ha
    have e4 := h3 y hy b hb
    have e5 := h3 x hx y hy
    rw [ra] at e1 e3
    rw [rb] at e2 e4
    rw [← e1, ← e2, ← e3, ← e4, ← e5]
    split_ifs <;> omega

theorem run_inv {C : CollapseIn} {n : ℕ} {V : ℕ → V3 ℝ} {F : List Tri} (hF : ClosedOriented n F) {s : DState}
    (h : Relation.ReflTransGen (fun s s' => ∃ a b p, CollapseStep C n a b p s s') ⟨V, F, []⟩ s) : RunInv C n V F s ∧ UFok n s.merges := by
  induction h with
  | refl => exact ⟨RunInv.init hF, UFok.nil n⟩
  | tail _ hs ih =>
    obtain ⟨a, b, p, hs⟩ := hs
    obtain ⟨q, ra, rb, _, ha, hb⟩ := ih.1.step hs
    refine ⟨q, ?_⟩
    rw [hs.merges]
    exact ih.2.snoc ha hb ra rb

theorem birth_fold (n : ℕ) (L : List ℕ) : ∀ (k : ℕ) (B : Arr (Option ℕ)), B.size = n → L.Nodup → (∀ i ∈ L, i < n) →
    ∃ B', (L.zipIdx k).foldlM (fun (B : Arr (Option ℕ)) p => B.wr p.1 (some p.2)) B = some B' ∧ B'.size = n ∧
      ∀ i, B'.val i = if i ∈ L then some (k + L.idxOf i) else B.val i := by
  induction L with
  | nil => intro k B hB _ _; exact ⟨B, rfl, hB, fun i => by simp⟩
  | cons a L ih =>
    intro k B hB hn hl
    rw [List.nodup_cons] at hn
    have ha : a < n := hl a (by simp)
    obtain ⟨B', q1, q2, q3⟩ := ih (k + 1) ⟨n, Function.update B.val a (some k)⟩ rfl hn.2 (fun i hi => hl i (by simp [hi]))
    refine ⟨B', ?_, q2, ?_⟩
    · rw [List.zipIdx_cons, List.foldlM_cons]
      simp only [Arr.wr, hB, ha, if_true, Option.bind_eq_bind, Option.bind_some]
      exact q1
    · intro i
      rw [q3]
      by_cases hi : i = a
      · subst hi
        rw [if_neg hn.1, if_pos (by simp)]
        simp
      · by_cases hiL : i ∈ L
        · rw [if_pos hiL, if_pos (by simp [hiL]), List.idxOf_cons_ne _ (Ne.symm hi)]
          congr 1; omega
        · rw [if_neg hiL, if_neg (by simp [hi, hiL])]
          simp [Function.update_of_ne hi]

theorem root_fold {n : ℕ} {root : ℕ → ℕ} {birth : Arr (Option ℕ)} (hb : birth.size = n)
    (hu : ∀ o < n, ∀ o' < n, birth.val o ≠ none → birth.val o' ≠ none → root o = root o' → o = o') :
    ∀ m ≤ n, ∀ P, Forest n P root → ∃ P' R, (List.range m).foldlM (rootStep birth) (P, ⟨n, fun _ => none⟩) = some (P', R) ∧ Forest n P' root ∧ R.size = n ∧
      (∀ o < m, birth.val o ≠ none → R.val (root o) = birth.val o) ∧ (∀ r, R.val r ≠ none → ∃ o < m, birth.val o ≠ none ∧ root o = r) := by
  intro m
  induction m with
  | zero => intro _ P hP; exact ⟨P, _, rfl, hP, rfl, fun o ho => absurd ho (by omega), fun r hr => absurd rfl hr⟩
  | succ m ih =>
    intro hm P hP
    obtain ⟨P1, R, q1, q2, q3, q4, q5⟩ := ih (by omega) P hP
    rw [List.range_succ, List.foldlM_append, q1]
    simp only [Option.bind_eq_bind, Option.bind_some, List.foldlM_cons, List.foldlM_nil]
    unfold rootStep
    rw [rd_eq (by rw [hb]; omega)]
    simp only [Option.bind_eq_bind, Option.bind_some]
    cases hx : birth.val m with
    | none =>
      refine ⟨P1, R, rfl, q2, q3, ?_, ?_⟩
      · intro o ho hob
        rcases Nat.lt_succ_iff_lt_or_eq.1 ho with ho | rfl
        · exact q4 o ho hob
        · exact absurd hx hob
      · intro r hr
        obtain ⟨o, ho, h1, h2⟩ := q5 r hr
        exact ⟨o, by omega, h1, h2⟩
    | some k =>
      obtain ⟨P2, w1, w2⟩ := ufFind_ok q2 (show m < n by omega)
      simp only [w1, Option.bind_some]
      have hr : root m < R.size := by rw [q3]; exact q2.rlt m (by omega)
      simp only [Arr.wr, hr, if_true, Option.bind_some]
      refine ⟨P2, _, rfl, w2, q3, ?_, ?_⟩
      · intro o ho hob
        show Function.update R.val (root m) (some k) (root o) = _
        rcases Nat.lt_succ_iff_lt_or_eq.1 ho with ho | rfl
        · rw [Function.update_of_ne]
          · exact q4 o ho hob
          · intro he
            have := hu o (by omega) m (by omega) hob (by rw [hx]; simp) he
            omega
        · rw [Function.update_self, hx]
      · intro r
        show Function.update R.val (root m) (some k) r ≠ none → _
        by_cases hrm : r = root m
        · intro _; exact ⟨m, by omega, by rw [hx]; simp, hrm.symm⟩
        · rw [Function.update_of_ne hrm]
          intro hr'
          obtain ⟨o, ho, h1, h2⟩ := q5 r hr'
          exact ⟨o, by omega, h1, h2⟩

theorem birth_fold2 {n : ℕ} {root : ℕ → ℕ} {R : Arr (Option ℕ)} (hR : R.size = n) (B : Arr (Option ℕ)) (hB : B.size = n) :
    ∀ m ≤ n, ∀ P, Forest n P root → ∃ P' B', (List.range m).foldlM (birthStep R) (P, B) = some (P', B') ∧ Forest n P' root ∧ B'.size = n ∧
      (∀ o < m, B'.val o = R.val (root o)) := by
  intro m
  induction m with
  | zero => intro _ P hP; exact ⟨P, B, rfl, hP, hB, fun o ho => absurd ho (by omega)⟩
  | succ m ih =>
    intro hm P hP
    obtain ⟨P1, B1, q1, q2, q3, q4⟩ := ih (by omega) P hP
    rw [List.range_succ, List.foldlM_append, q1]
    simp only [Option.bind_eq_bind, Option.bind_some, List.foldlM_cons, List.foldlM_nil]
    unfold birthStep
    obtain ⟨P2, w1, w2⟩ := ufFind_ok q2 (show m < n by omega)
    simp only [w1, Option.bind_eq_bind, Option.bind_some]
    rw [rd_eq (by rw [hR]; exact q2.rlt m (by omega))]
    have hm' : m < B1.size := by rw [q3]; omega
    simp only [Option.bind_some, Arr.wr, hm', if_true]
    refine ⟨P2, _, rfl, w2, q3, ?_⟩
    intro o ho
    show Function.update B1.val m _ o = _
    rcases Nat.lt_succ_iff_lt_or_eq.1 ho with ho | rfl
    · rw [Function.update_of_ne (by omega)]; exact q4 o ho
    · rw [Function.update_self]

theorem birthToNew_ok {n : ℕ} {I : List ℕ} {m : List (ℕ × ℕ)} (hU : UFok n m) (hn : I.Nodup) (hl : ∀ i ∈ I, i < n) (hs : ∀ i ∈ I, repOf m i = i)
    (hr : ∀ v < n, repOf m v < n) :
    ∃ B, birthToNew n I m = some B ∧ B.size = n ∧ ∀ o < n, B.val o = if repOf m o ∈ I then some (I.idxOf (repOf m o)) else none := by
  obtain ⟨P, root, h1, h2, h3⟩ := hU
  obtain ⟨birth, b1, b2, b3⟩ := birth_fold n I 0 ⟨n, fun _ => none⟩ rfl hn hl
  have hb : ∀ o, birth.val o ≠ none ↔ o ∈ I := by
    intro o; rw [b3]; split_ifs with h <;> simp [h]
  obtain ⟨P1, R, r1, r2, r3, r4, r5⟩ := root_fold (root := root) b2 (by
    intro o ho o' ho' h h' he
    rw [hb] at h h'
    have := (h3 o ho o' ho').1 he
    rwa [hs o h, hs o' h'] at this) n le_rfl P h2
  obtain ⟨P2, B, c1, c2, c3, c4⟩ := birth_fold2 r3 birth b2 n le_rfl P1 r2
  refine ⟨B, ?_, c3, ?_⟩
  · unfold birthToNew
    simp only [h1, b1, r1, c1, Option.bind_eq_bind, Option.bind_some]
  · intro o ho
    rw [c4 o ho]
    have hro := hr o ho
    by_cases hI : repOf m o ∈ I
    · rw [if_pos hI]
      have he : root o = root (repOf m o) := by rw [h3 o ho _ hro, hs _ hI]
      rw [he, r4 _ hro ((hb _).2 hI), b3, if_pos hI]
      simp
    · rw [if_neg hI]
      by_contra hne
      obtain ⟨o', ho', h1', h2'⟩ := r5 _ hne
      have hI' := (hb _).1 h1'
      have := (h3 o' ho' o ho).1 h2'
      rw [hs o' hI'] at this
      rw [← this] at hI
      exact hI hI'

end Gpy
