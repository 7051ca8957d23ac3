import Verif.Model.MinimumDistance
import Verif.Proofs.Traverse
import Verif.Proofs.ClosestPoint
import Verif.Props.TriTri
import Verif.Props.Aabb

set_option autoImplicit false
namespace Gpy
open Np

/-- the value of a pair of triangles -/
noncomputable def pairVal (V1 V2 : List (Pt 3)) (F1 F2 : List (List ℕ)) (e1 e2 : ℕ) : WithTop ℝ :=
  match triCorners V1 F1 e1, triCorners V2 F2 e2 with
  | some S, some T => (triangleTriangleDistance S T : WithTop ℝ)
  | _, _ => ⊤

theorem weight_pos {V : List (Pt 3)} {F : List (List ℕ)} {T : List (AabbNode 3)} {q : ℕ} {es : List ℕ} (h : Covers V F T q es) : 1 ≤ weight es := by
  have := List.length_pos_iff.mpr h.ne_nil
  unfold weight; omega

abbrev PairItem := (ℕ × List ℕ) × (ℕ × List ℕ)

theorem minDist_bnb {V1 V2 : List (Pt 3)} {F1 F2 : List (List ℕ)} {T1 T2 : List (AabbNode 3)}
    (h1 : ∀ e < F1.length, ∃ S, triCorners V1 F1 e = some S) (h2 : ∀ e < F2.length, ∃ S, triCorners V2 F2 e = some S)
    (hgap : ∀ n1 n2 e1 e2, e1 < F1.length → e2 < F2.length → ElemIn V1 F1 n1 e1 → ElemIn V2 F2 n2 e2 →
      (boxGap n1 n2 : WithTop ℝ) ≤ pairVal V1 V2 F1 F2 e1 e2) :
    ∀ (fuel : ℕ) (L : List PairItem) (best : WithTop ℝ),
      (∀ x ∈ L, (Covers V1 F1 T1 x.1.1 x.1.2 ∧ ∀ e ∈ x.1.2, e < F1.length) ∧ (Covers V2 F2 T2 x.2.1 x.2.2 ∧ ∀ e ∈ x.2.2, e < F2.length)) →
      (L.map (fun x => weight x.1.2 * weight x.2.2)).sum ≤ fuel →
      ∃ b, minDistLoop V1 V2 F1 F2 T1 T2 fuel (L.map (fun x => ((x.1.1 : Int), (x.2.1 : Int)))) best = some b ∧ b ≤ best ∧
        (∀ x ∈ L, ∀ e1 ∈ x.1.2, ∀ e2 ∈ x.2.2, b ≤ pairVal V1 V2 F1 F2 e1 e2) ∧
        (b = best ∨ ∃ e1 e2, e1 < F1.length ∧ e2 < F2.length ∧ b = pairVal V1 V2 F1 F2 e1 e2) := by
  intro fuel
  induction fuel with
  | zero =>
    intro L best hL hf
    cases L with
    | nil => exact ⟨best, by simp [minDistLoop], le_rfl, by simp, Or.inl rfl⟩
    | cons x t =>
      exfalso
      obtain ⟨⟨a, -⟩, ⟨b, -⟩⟩ := hL x (by simp)
      have := Nat.mul_pos (weight_pos a) (weight_pos b)
      simp only [List.map_cons, List.sum_cons] at hf
      omega
  | succ fuel ih =>
    intro L best hL hf
    cases L with
    | nil => exact ⟨best, by simp [minDistLoop], le_rfl, by simp, Or.inl rfl⟩
    | cons x t =>
      obtain ⟨⟨q1, es1⟩, ⟨q2, es2⟩⟩ := x
      obtain ⟨⟨c1, l1⟩, ⟨c2, l2⟩⟩ := hL _ (List.mem_cons_self ..)
      have ht := fun x hx => hL x (List.mem_cons_of_mem _ hx)
      dsimp only at c1 l1 c2 l2
      simp only [List.map_cons, List.sum_cons] at hf ⊢
      have p1 := weight_pos c1
      have p2 := weight_pos c2
      have p12 := Nat.mul_pos p1 p2
      -- going on with fewer items
      have drop : (∀ e1 ∈ es1, ∀ e2 ∈ es2, best ≤ pairVal V1 V2 F1 F2 e1 e2) →
          ∃ b, minDistLoop V1 V2 F1 F2 T1 T2 fuel (t.map (fun x => ((x.1.1 : Int), (x.2.1 : Int)))) best = some b ∧ b ≤ best ∧
        (∀ x ∈ ((q1, es1), (q2, es2)) :: t, ∀ e1 ∈ x.1.2, ∀ e2 ∈ x.2.2, b ≤ pairVal V1 V2 F1 F2 e1 e2) ∧
        (b = best ∨ ∃ e1 e2, e1 < F1.length ∧ e2 < F2.length ∧ b = pairVal V1 V2 F1 F2 e1 e2) := by
        intro hb
        obtain ⟨b, b1, b2, b3, b4⟩ := ih t best ht (by omega)
        refine ⟨b, b1, b2, ?_, b4⟩
        intro x hx
        rcases List.mem_cons.mp hx with rfl | hx
        · intro e1 he1 e2 he2
          exact b2.trans (hb e1 he1 e2 he2)
        · exact b3 x hx
      have push : ∀ A : List PairItem,
          (∀ x ∈ A, (Covers V1 F1 T1 x.1.1 x.1.2 ∧ ∀ e ∈ x.1.2, e < F1.length) ∧ (Covers V2 F2 T2 x.2.1 x.2.2 ∧ ∀ e ∈ x.2.2, e < F2.length)) →
          (∀ e1 ∈ es1, ∀ e2 ∈ es2, ∃ x ∈ A, e1 ∈ x.1.2 ∧ e2 ∈ x.2.2) →
          (A.map (fun x => weight x.1.2 * weight x.2.2)).sum + 1 ≤ weight es1 * weight es2 →
          ∃ b, minDistLoop V1 V2 F1 F2 T1 T2 fuel ((A ++ t).map (fun x => ((x.1.1 : Int), (x.2.1 : Int)))) best = some b ∧ b ≤ best ∧
        (∀ x ∈ ((q1, es1), (q2, es2)) :: t, ∀ e1 ∈ x.1.2, ∀ e2 ∈ x.2.2, b ≤ pairVal V1 V2 F1 F2 e1 e2) ∧
        (b = best ∨ ∃ e1 e2, e1 < F1.length ∧ e2 < F2.length ∧ b = pairVal V1 V2 F1 F2 e1 e2) := by
        intro A hA hcov hw
        obtain ⟨b, b1, b2, b3, b4⟩ := ih (A ++ t) best (by
          intro x hx
          rcases List.mem_append.mp hx with hx | hx
          · exact hA x hx
          · exact ht x hx) (by
          rw [List.map_append, List.sum_append]; omega)
        refine ⟨b, b1, b2, ?_, b4⟩
        intro x hx
        rcases List.mem_cons.mp hx with rfl | hx
        · intro e1 he1 e2 he2
          obtain ⟨y, hy, y1, y2⟩ := hcov e1 he1 e2 he2
          exact b3 y (List.mem_append_left _ hy) e1 y1 e2 y2
        · exact b3 x (List.mem_append_right _ hx)
      unfold minDistLoop
      rw [npGet?_natCast, npGet?_natCast]
      -- the pruning test
      have prune : ∀ n1 n2, T1[q1]? = some n1 → T2[q2]? = some n2 → ¬ (boxGap n1 n2 : WithTop ℝ) < best →
          ∀ e1 ∈ es1, ∀ e2 ∈ es2, best ≤ pairVal V1 V2 F1 F2 e1 e2 := by
        intro n1 n2 hn1 hn2 hb e1 he1 e2 he2
        exact (not_lt.mp hb).trans (hgap n1 n2 e1 e2 (l1 e1 he1) (l2 e2 he2) (c1.elemIn hn1 e1 he1) (c2.elemIn hn2 e2 he2))
      cases c1 with
      | @leaf _ e1 n1 hn1 a1 a0 atri ab =>
        cases c2 with
        | @leaf _ e2 n2 hn2 b1 b0 btri bb =>
          obtain ⟨S, hS⟩ := h1 e1 (l1 e1 (by simp))
          obtain ⟨T, hT⟩ := h2 e2 (l2 e2 (by simp))
          have hval : pairVal V1 V2 F1 F2 e1 e2 = (triangleTriangleDistance S T : WithTop ℝ) := by
            unfold pairVal; rw [hS, hT]
          simp only [hn1, hn2, Option.bind_eq_bind, Option.bind_some, a1, b1, and_self, if_true, atri, btri, hS, hT]
          obtain ⟨b, w1, w2, w3, w4⟩ := ih t (if (triangleTriangleDistance S T : WithTop ℝ) < best then (triangleTriangleDistance S T : WithTop ℝ) else best)
            ht (by omega)
          have hmin : (if (triangleTriangleDistance S T : WithTop ℝ) < best then (triangleTriangleDistance S T : WithTop ℝ) else best)
              ≤ best ∧ (if (triangleTriangleDistance S T : WithTop ℝ) < best then (triangleTriangleDistance S T : WithTop ℝ) else best)
              ≤ pairVal V1 V2 F1 F2 e1 e2 := by
            rw [hval]
            split
            · next h => exact ⟨h.le, le_rfl⟩
            · next h => exact ⟨le_rfl, not_lt.mp h⟩
          refine ⟨b, w1, w2.trans hmin.1, ?_, ?_⟩
          · intro x hx
            rcases List.mem_cons.mp hx with rfl | hx
            · intro e1' he1 e2' he2
              simp only [List.mem_singleton] at he1 he2
              subst he1 he2
              exact w2.trans hmin.2
            · exact w3 x hx
          · rcases w4 with w4 | w4
            · split at w4
              · right; exact ⟨e1, e2, l1 e1 (by simp), l2 e2 (by simp), by rw [w4, hval]⟩
              · left; exact w4
            · right; exact w4
        | @node _ d0 d1 n2 l r hn2 b0 b1 hl hr bb =>
          have hch : n2.ch1 ≠ -1 := by rw [b1]; omega
          simp only [hn1, hn2, Option.bind_eq_bind, Option.bind_some, a1, hch, and_false, if_true, if_false]
          split
          · have := push [((q1, [e1]), (d1, r)), ((q1, [e1]), (d0, l))] (by
              have c := Covers.leaf hn1 a1 a0 atri ab
              intro x hx
              simp only [List.mem_cons, List.not_mem_nil, or_false] at hx
              rcases hx with rfl | rfl
              · exact ⟨⟨c, l1⟩, hr, fun e he => l2 e (by simp [he])⟩
              · exact ⟨⟨c, l1⟩, hl, fun e he => l2 e (by simp [he])⟩) (by
              intro x hx y hy
              rcases List.mem_append.mp hy with hy | hy
              · exact ⟨((q1, [e1]), (d0, l)), by simp, hx, hy⟩
              · exact ⟨((q1, [e1]), (d1, r)), by simp, hx, hy⟩) (by
              rw [weight_append hl.ne_nil hr.ne_nil]
              simp only [List.map_cons, List.map_nil, List.sum_cons, List.sum_nil]
              nlinarith)
            simpa [b0, b1] using this
          · next hb => exact drop (prune n1 n2 hn1 hn2 hb)
      | @node _ d0 d1 n1 l r hn1 a0 a1 hl hr ab =>
        have hch1 : n1.ch1 ≠ -1 := by rw [a1]; omega
        cases c2 with
        | @leaf _ e2 n2 hn2 b1 b0 btri bb =>
          simp only [hn1, hn2, Option.bind_eq_bind, Option.bind_some, b1, hch1, false_and, if_true, if_false]
          split
          · have := push [((d1, r), (q2, [e2])), ((d0, l), (q2, [e2]))] (by
              have c := Covers.leaf hn2 b1 b0 btri bb
              intro x hx
              simp only [List.mem_cons, List.not_mem_nil, or_false] at hx
              rcases hx with rfl | rfl
              · exact ⟨⟨hr, fun e he => l1 e (by simp [he])⟩, c, l2⟩
              · exact ⟨⟨hl, fun e he => l1 e (by simp [he])⟩, c, l2⟩) (by
              intro y hy x hx
              rcases List.mem_append.mp hy with hy | hy
              · exact ⟨((d0, l), (q2, [e2])), by simp, hy, hx⟩
              · exact ⟨((d1, r), (q2, [e2])), by simp, hy, hx⟩) (by
              rw [weight_append hl.ne_nil hr.ne_nil]
              simp only [List.map_cons, List.map_nil, List.sum_cons, List.sum_nil]
              nlinarith)
            simpa [a0, a1] using this
          · next hb => exact drop (prune n1 n2 hn1 hn2 hb)
        | @node _ g0 g1 n2 l' r' hn2 b0 b1 hl' hr' bb =>
          have hch2 : n2.ch1 ≠ -1 := by rw [b1]; omega
          simp only [hn1, hn2, Option.bind_eq_bind, Option.bind_some, hch1, hch2, false_and, if_false]
          split
          · have := push [((d1, r), (g1, r')), ((d0, l), (g1, r')), ((d1, r), (g0, l')), ((d0, l), (g0, l'))] (by
              have cl := And.intro hl (fun e he => l1 e (List.mem_append_left r he))
              have cr := And.intro hr (fun e he => l1 e (List.mem_append_right l he))
              have dl := And.intro hl' (fun e he => l2 e (List.mem_append_left r' he))
              have dr := And.intro hr' (fun e he => l2 e (List.mem_append_right l' he))
              intro x hx
              simp only [List.mem_cons, List.not_mem_nil, or_false] at hx
              rcases hx with rfl | rfl | rfl | rfl
              · exact ⟨cr, dr⟩
              · exact ⟨cl, dr⟩
              · exact ⟨cr, dl⟩
              · exact ⟨cl, dl⟩) (by
              intro x hx y hy
              rcases List.mem_append.mp hx with hx | hx <;> rcases List.mem_append.mp hy with hy | hy
              · exact ⟨((d0, l), (g0, l')), by simp, hx, hy⟩
              · exact ⟨((d0, l), (g1, r')), by simp, hx, hy⟩
              · exact ⟨((d1, r), (g0, l')), by simp, hx, hy⟩
              · exact ⟨((d1, r), (g1, r')), by simp, hx, hy⟩) (by
              rw [weight_append hl.ne_nil hr.ne_nil, weight_append hl'.ne_nil hr'.ne_nil]
              simp only [List.map_cons, List.map_nil, List.sum_cons, List.sum_nil]
              nlinarith)
            simpa [a0, a1, b0, b1] using this
          · next hb => exact drop (prune n1 n2 hn1 hn2 hb)

/-- any two points in two boxes are at least the gap apart -/
theorem boxGap_le {n1 n2 : AabbNode 3} {x y : Pt 3} (hx : InBox n1.C n1.W x) (hy : InBox n2.C n2.W y) :
    boxGap n1 n2 ≤ Real.sqrt (psq (y - x)) := by
  have key : ∀ j, |n1.C j - n2.C j| - (n1.W j + n2.W j) / 2 ≤ Real.sqrt (psq (y - x)) := by
    intro j
    have hj : |y j - x j| ≤ Real.sqrt (psq (y - x)) := by
      rw [← Real.sqrt_sq_eq_abs]
      apply Real.sqrt_le_sqrt
      have := Finset.single_le_sum (f := fun i => (y - x) i ^ 2) (fun i _ => sq_nonneg _) (Finset.mem_univ j)
      exact this
    obtain ⟨a, b⟩ := hx j
    obtain ⟨c, e⟩ := hy j
    refine le_trans ?_ hj
    have h1 : n1.C j - n2.C j - (n1.W j + n2.W j) / 2 ≤ |y j - x j| := by
      have := neg_abs_le (y j - x j); linarith
    have h2 : n2.C j - n1.C j - (n1.W j + n2.W j) / 2 ≤ |y j - x j| := by
      have := le_abs_self (y j - x j); linarith
    rcases abs_cases (n1.C j - n2.C j) with ⟨h, -⟩ | ⟨h, -⟩ <;> rw [h] <;> linarith
  unfold boxGap
  exact max_le (max_le (key 0) (key 1)) (key 2)

end Gpy
