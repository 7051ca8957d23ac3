import Verif.Spec.MinL1Mosek
import Verif.Props.MinL1

set_option autoImplicit false
namespace Gpy
open Finset

noncomputable section

/-- the task of fitting arguments -/
def l1Task (a : L1Args) (n : ℕ) (Lt : Option Mat) : MosekTask :=
  moTask n ((a.G.getD (eyeMat n)).nrows / a.d) a.d (a.G.getD (eyeMat n)) (a.c.getD (List.replicate n 0)) (a.k.getD []) (a.y.getD []) a.A (a.b.getD []) Lt

/-- `1/2 |Lt u|²` -/
def ltQuad (Lt : Option Mat) (n : ℕ) (u : ℕ → ℝ) : ℝ :=
  match Lt with
  | none => 0
  | some L => 1 / 2 * ∑ t ∈ range L.nrows, (∑ i ∈ range n, L.get t i * u i) ^ 2

theorem ltQuad_nonneg (Lt : Option Mat) (n : ℕ) (u : ℕ → ℝ) : 0 ≤ ltQuad Lt n u := by
  unfold ltQuad
  cases Lt with
  | none => exact le_refl _
  | some L => exact mul_nonneg (by norm_num) (sum_nonneg (fun t _ => sq_nonneg _))

theorem bounds_fold (l : List (ℕ × ℝ)) (B : ℕ → MoBound) (hnd : (l.map Prod.fst).Nodup) (j : ℕ) :
    (∀ v, (j, v) ∈ l → l.foldl (fun B p => Function.update B p.1 (.fx p.2)) B j = .fx v) ∧ (j ∉ l.map Prod.fst → l.foldl (fun B p => Function.update B p.1 (.fx p.2)) B j = B j) := by
  induction l generalizing B with
  | nil => exact ⟨fun v h => absurd h (by simp), fun _ => rfl⟩
  | cons p l ih =>
    rw [List.map_cons, List.nodup_cons] at hnd
    obtain ⟨i1, i2⟩ := ih (Function.update B p.1 (.fx p.2)) hnd.2
    rw [List.foldl_cons]
    constructor
    · intro v hv
      rcases List.mem_cons.mp hv with h | h
      · subst h
        rw [i2 hnd.1, Function.update_self]
      · exact i1 v h
    · intro hj
      rw [List.map_cons, List.mem_cons, not_or] at hj
      rw [i2 hj.2, Function.update_of_ne hj.1]

theorem map_sq_sum (l : ℕ) (f : ℕ → ℝ) : (((List.range l).map f).map (fun t => t ^ 2)).sum = ∑ j ∈ range l, f j ^ 2 := by
  rw [List.map_map, Finset.sum_range, ← List.sum_ofFn, List.ofFn_eq_map]
  congr 1
  rw [← List.map_coe_finRange_eq_range, List.map_map]
  rfl

theorem mo_feasible_iff {a : L1Args} {n : ℕ} (h : a.Ok n) (hnd : ∀ k, a.k = some k → k.Nodup) (Lt : Option Mat) (x : ℕ → ℝ) :
    (l1Task a n Lt).Feasible x ↔ l1Feasible a n x ∧ (∀ i < gRows a n / a.d, 0 ≤ x (n + i)) ∧ (∀ i < gRows a n / a.d, blockNorm a n x i ≤ x (n + i)) ∧
      ((l1Task a n Lt).hasW = true → ltQuad Lt n x ≤ x (n + gRows a n / a.d)) := by
  set m := gRows a n / a.d with hm
  have hmG : (a.G.getD (eyeMat n)).nrows / a.d = m := by rw [gRows_eq]
  have hrows : gRows a n = a.d * m := (Nat.mul_div_cancel' h.mult).symm
  set T := l1Task a n Lt with hT
  have hTn : T.n = n := rfl
  have hTm : T.m = m := hmG
  have hgt : ∀ r < a.d * m, ∑ l ∈ range n, (a.G.getD (eyeMat n)).get r l * x l = gTimes a n x r := fun r hr => gTimes_eq x (by rw [hrows]; exact hr)
  have eu : ∀ (f : ℕ → ℝ), (⟨f, 0, 0, 0⟩ : MoRow).eval n m x = ∑ l ∈ range n, f l * x l := by intro f; simp [MoRow.eval]
  -- the bounds
  have hb : (∀ j < T.vars, (T.bound j).Holds (x j)) ↔ (∀ k y, a.k = some k → a.y = some y → ∀ (i j : ℕ) (v : ℝ), k[i]? = some j → y[i]? = some v → x j = v) ∧ (∀ i < m, 0 ≤ x (n + i)) ∧
      (T.hasW = true → 0 ≤ x (n + m)) := by
    have hB : T.bound = ((a.k.getD []).zip (a.y.getD [])).foldl (fun B p => Function.update B p.1 (.fx p.2)) (fun j => if j < n then .free else .lo 0) := rfl
    have hv : T.vars = n + m + (if T.hasW then 1 else 0) := by unfold MosekTask.vars; rw [hTn, hTm]
    have hkz : ((a.k.getD []).zip (a.y.getD [])).map Prod.fst = a.k.getD [] ∧ (a.k.getD []).Nodup ∧ ∀ i ∈ a.k.getD [], i < n := by
      rcases h.ky with ⟨h1, h2⟩ | ⟨k, y, h1, h2, h3, h4⟩
      · rw [h1]; simp
      · rw [h1, h2]; exact ⟨List.map_fst_zip (by simp [h3]), hnd k h1, h4⟩
    obtain ⟨hz1, hz2, hz3⟩ := hkz
    have hfix : ∀ (i j : ℕ) (v : ℝ), (a.k.getD [])[i]? = some j → (a.y.getD [])[i]? = some v → T.bound j = .fx v := by
      intro i j v hj hv
      rw [hB]
      refine (bounds_fold _ _ (by rw [hz1]; exact hz2) j).1 v (List.mem_of_getElem? (i := i) ?_)
      rw [List.getElem?_zip_eq_some]
      exact ⟨hj, hv⟩
    have hrest : ∀ j, j ∉ a.k.getD [] → T.bound j = if j < n then .free else .lo 0 := by
      intro j hj
      rw [hB]
      exact (bounds_fold _ _ (by rw [hz1]; exact hz2) j).2 (by rw [hz1]; exact hj)
    have hlow : ∀ j, n ≤ j → T.bound j = .lo 0 := by
      intro j hj
      rw [hrest j (fun hc => absurd (hz3 j hc) (by omega)), if_neg (by omega)]
    constructor
    · intro hf
      refine ⟨?_, fun i hi => ?_, fun hw => ?_⟩
      · intro k y hk hy i j v hj hv'
        have hjn : j < n := by
          have := hz3 j (by rw [hk]; exact List.mem_of_getElem? hj)
          exact this
        have := hf j (by omega)
        rw [hfix i j v (by rw [hk]; exact hj) (by rw [hy]; exact hv')] at this
        exact this
      · have := hf (n + i) (by omega)
        rw [hlow _ (by omega)] at this
        exact this
      · have := hf (n + m) (by rw [hv, if_pos hw]; omega)
        rw [hlow _ (by omega)] at this
        exact this
    · rintro ⟨h1, h2, h3⟩ j hj
      by_cases hjk : j ∈ a.k.getD []
      · obtain ⟨i, hi⟩ := List.getElem?_of_mem hjk
        rcases h.ky with ⟨e1, e2⟩ | ⟨k, y, e1, e2, e3, e4⟩
        · rw [e1] at hi; simp at hi
        · have hi' : k[i]? = some j := by rw [e1] at hi; exact hi
          have hil : i < y.length := by rw [← e3]; exact (List.getElem?_eq_some_iff.mp hi').1
          rw [hfix i j (y[i]) hi (by rw [e2]; exact List.getElem?_eq_getElem hil)]
          exact h1 k y e1 e2 i j _ hi' (List.getElem?_eq_getElem hil)
      · by_cases hjn : j < n
        · rw [hrest j hjk, if_pos hjn]; trivial
        · rw [hlow j (by omega)]
          by_cases hjm : j < n + m
          · have := h2 (j - n) (by omega)
            rw [show n + (j - n) = j by omega] at this
            exact this
          · have hw : T.hasW = true := by
              by_contra hc
              rw [hv, if_neg hc] at hj; omega
            rw [hv, if_pos hw] at hj
            rw [show j = n + m by omega]
            exact h3 hw
  -- the linear constraints
  have hc : (∀ p ∈ T.con, p.2.Holds (p.1.eval T.n T.m x)) ↔ (∀ A b, a.A = some A → a.b = some b → ∀ (r : ℕ) (v : ℝ), b[r]? = some v → ∑ l ∈ range n, A.get r l * x l = v) ∧
      (a.d = 1 → ∀ i < m, blockNorm a n x i ≤ x (n + i)) := by
    have hC : T.con = (match a.A with
        | none => []
        | some A => (List.range A.nrows).map (fun r => ((⟨A.get r, 0, 0, 0⟩ : MoRow), MoBound.fx ((a.b.getD []).getD r 0)))) ++
      (if a.d = 1 then (List.range m).map (fun r => ((⟨fun j => -(a.G.getD (eyeMat n)).get r j, unitAt r (-1), 0, 0⟩ : MoRow), MoBound.up 0)) ++
        (List.range m).map (fun r => (⟨(a.G.getD (eyeMat n)).get r, unitAt r (-1), 0, 0⟩, .up 0)) else []) := by
      rw [← hmG]; rfl
    rw [hC, hTn, hTm]
    simp only [List.mem_append, or_imp, forall_and]
    refine and_congr ?_ ?_
    · rcases h.Ab with ⟨h1, h2⟩ | ⟨A, b, h1, h2, _, h3⟩
      · rw [h1]; simp
      · rw [h1, h2]
        simp only [Option.getD_some, Option.some.injEq, List.mem_map, List.mem_range]
        constructor
        · rintro hz A' b' rfl rfl r v hv
          have hr : r < b.length := (List.getElem?_eq_some_iff.mp hv).1
          have := hz _ ⟨r, by omega, rfl⟩
          simp only [MoBound.Holds] at this
          rw [eu, List.getD_eq_getElem?_getD, hv] at this
          exact this
        · rintro hf _ ⟨r, hr, rfl⟩
          simp only [MoBound.Holds]
          rw [eu, List.getD_eq_getElem?_getD]
          have hr' : r < b.length := by omega
          rw [List.getElem?_eq_getElem hr']
          exact hf A b rfl rfl r _ (List.getElem?_eq_getElem hr')
    · by_cases hd : a.d = 1
      · rw [if_pos hd]
        simp only [hd, true_imp_iff]
        have hbn : ∀ i < m, blockNorm a n x i = |gTimes a n x i| := by
          intro i _
          unfold blockNorm
          rw [hd]
          simp [Real.sqrt_sq_eq_abs]
        have e1 : ∀ i < m, (⟨fun j => -(a.G.getD (eyeMat n)).get i j, unitAt i (-1), 0, 0⟩ : MoRow).eval n m x = -gTimes a n x i - x (n + i) := by
          intro i hi
          simp only [MoRow.eval, neg_mul, sum_neg_distrib, zero_mul, add_zero]
          rw [dot_unit x hi, hgt i (by rw [hd]; omega)]
          ring
        have e2 : ∀ i < m, (⟨(a.G.getD (eyeMat n)).get i, unitAt i (-1), 0, 0⟩ : MoRow).eval n m x = gTimes a n x i - x (n + i) := by
          intro i hi
          simp only [MoRow.eval, zero_mul, add_zero]
          rw [dot_unit x hi, hgt i (by rw [hd]; omega)]
          ring
        simp only [List.mem_append, List.mem_map, List.mem_range]
        constructor
        · intro hf i hi
          have h1 := hf _ (Or.inl ⟨i, hi, rfl⟩)
          have h2 := hf _ (Or.inr ⟨i, hi, rfl⟩)
          simp only [MoBound.Holds] at h1 h2
          rw [e1 i hi] at h1
          rw [e2 i hi] at h2
          rw [hbn i hi, abs_le]
          exact ⟨by linarith, by linarith⟩
        · rintro hf _ (⟨i, hi, rfl⟩ | ⟨i, hi, rfl⟩)
          · have := hf i hi
            rw [hbn i hi, abs_le] at this
            simp only [MoBound.Holds]
            rw [e1 i hi]; linarith
          · have := hf i hi
            rw [hbn i hi, abs_le] at this
            simp only [MoBound.Holds]
            rw [e2 i hi]; linarith
      · simp [hd]
  -- the cones of the blocks
  have hF : T.F = fun r => if r < (if a.d = 1 then 0 else a.d * m + m) then (if r < a.d * m then ⟨(a.G.getD (eyeMat n)).get r, 0, 0, 0⟩ else ⟨0, unitAt (r - a.d * m) 1, 0, 0⟩)
      else if r < (if a.d = 1 then 0 else a.d * m + m) + (Lt.map (fun (L : Mat) => L.nrows)).getD 0 then ⟨((Lt.map (fun (L : Mat) => L.get)).getD 0) (r - (if a.d = 1 then 0 else a.d * m + m)), 0, 0, 0⟩
      else if r = (if a.d = 1 then 0 else a.d * m + m) + (Lt.map (fun (L : Mat) => L.nrows)).getD 0 then ⟨0, 0, 1, 0⟩ else ⟨0, 0, 0, 1⟩ := by
    rw [← hmG]; rfl
  have hq : (∀ I ∈ T.quad, InQuad (I.map (fun i => (T.F i).eval T.n T.m x))) ↔ (a.d ≠ 1 → ∀ i < m, blockNorm a n x i ≤ x (n + i)) := by
    have hQ : T.quad = if a.d = 1 then [] else (List.range m).map (fun i => (a.d * m + i) :: (List.range a.d).map (fun j => a.d * i + j)) := by rw [← hmG]; rfl
    rw [hQ, hTn, hTm]
    by_cases hd : a.d = 1
    · simp [hd]
    · rw [if_neg hd]
      simp only [ne_eq, hd, not_false_eq_true, true_imp_iff, List.mem_map, List.mem_range, forall_exists_index, and_imp, forall_apply_eq_imp_iff₂]
      refine forall₂_congr (fun i hi => ?_)
      have hz : (T.F (a.d * m + i)).eval n m x = x (n + i) := by
        rw [hF]
        simp only [if_neg hd]
        rw [if_pos (by omega), if_neg (by omega), Nat.add_sub_cancel_left]
        simp only [MoRow.eval, Pi.zero_apply, zero_mul, sum_const_zero, zero_add, add_zero]
        rw [dot_unit x hi, one_mul]
      have hg : ∀ j < a.d, (T.F (a.d * i + j)).eval n m x = gTimes a n x (a.d * i + j) := by
        intro j hj
        have hlt : a.d * i + j < a.d * m := by
          calc a.d * i + j < a.d * i + a.d := by omega
            _ = a.d * (i + 1) := by ring
            _ ≤ a.d * m := Nat.mul_le_mul_left _ hi
        rw [hF]
        simp only [if_neg hd]
        rw [if_pos (by omega), if_pos hlt, eu, hgt _ hlt]
      rw [List.map_cons, hz, List.map_map]
      simp only [InQuad, blockNorm]
      rw [map_sq_sum]
      rw [Finset.sum_congr rfl (fun j hj => by rw [Function.comp_apply, hg j (mem_range.mp hj)])]
  -- the cone of the quadratic term
  have hr : (∀ I ∈ T.rquad, InRQuad (I.map (fun i => (T.F i).eval T.n T.m x))) ↔ (T.hasW = true → 0 ≤ x (n + m) ∧ ltQuad Lt n x ≤ x (n + m)) := by
    set off := if a.d = 1 then 0 else a.d * m + m with hoff
    have hR : T.rquad = if (Lt.map (fun (L : Mat) => L.nrows)).getD 0 ≠ 0 then [(off + (Lt.map (fun (L : Mat) => L.nrows)).getD 0 + 1) :: (off + (Lt.map (fun (L : Mat) => L.nrows)).getD 0) ::
        (List.range ((Lt.map (fun (L : Mat) => L.nrows)).getD 0)).map (fun t => off + t)] else [] := by rw [hoff, ← hmG]; rfl
    have hW : T.hasW = decide ((Lt.map (fun (L : Mat) => L.nrows)).getD 0 ≠ 0) := rfl
    rw [hR, hW, hTn, hTm]
    by_cases h0 : (Lt.map (fun (L : Mat) => L.nrows)).getD 0 = 0
    · simp [h0]
    · cases hLt : Lt with
      | none => rw [hLt] at h0; exact absurd rfl h0
      | some L =>
        rw [hLt] at h0 hF
        simp only [Option.map_some, Option.getD_some] at h0 hF ⊢
        rw [if_pos h0]
        simp only [List.mem_singleton, forall_eq, ne_eq, h0, not_false_eq_true, decide_true, true_imp_iff]
        have f1 : (T.F (off + L.nrows + 1)).eval n m x = 1 := by
          rw [hF]
          simp only [if_neg (show ¬ off + L.nrows + 1 < off by omega), if_neg (show ¬ off + L.nrows + 1 < off + L.nrows by omega), if_neg (show ¬ off + L.nrows + 1 = off + L.nrows by omega)]
          simp [MoRow.eval]
        have f2 : (T.F (off + L.nrows)).eval n m x = x (n + m) := by
          rw [hF]
          simp only [if_neg (show ¬ off + L.nrows < off by omega), if_neg (show ¬ off + L.nrows < off + L.nrows by omega), if_true]
          simp [MoRow.eval]
        have f3 : ∀ t < L.nrows, (T.F (off + t)).eval n m x = ∑ i ∈ range n, L.get t i * x i := by
          intro t ht
          rw [hF]
          simp only [if_neg (show ¬ off + t < off by omega), if_pos (show off + t < off + L.nrows by omega), Nat.add_sub_cancel_left]
          exact eu _
        rw [List.map_cons, List.map_cons, f1, f2, List.map_map]
        simp only [InRQuad, ltQuad]
        rw [map_sq_sum, Finset.sum_congr rfl (fun t ht => by rw [Function.comp_apply, f3 t (mem_range.mp ht)])]
        constructor
        · rintro ⟨-, h2, h3⟩; exact ⟨h2, by linarith⟩
        · rintro ⟨h2, h3⟩; exact ⟨by norm_num, h2, by linarith⟩
  unfold MosekTask.Feasible l1Feasible
  rw [hb, hc, hq, hr]
  constructor
  · rintro ⟨⟨k1, k2, -⟩, ⟨c1, c2⟩, q1, r1⟩
    refine ⟨⟨k1, c1⟩, k2, ?_, fun hw => (r1 hw).2⟩
    by_cases hd : a.d = 1
    · exact c2 hd
    · exact q1 hd
  · rintro ⟨⟨k1, c1⟩, k2, hbn, hw⟩
    exact ⟨⟨k1, k2, fun w => (ltQuad_nonneg Lt n x).trans (hw w)⟩, ⟨c1, fun _ => hbn⟩, fun _ => hbn, fun w => ⟨(ltQuad_nonneg Lt n x).trans (hw w), hw w⟩⟩

theorem mo_obj {a : L1Args} {n : ℕ} (Lt : Option Mat) (x : ℕ → ℝ) : (l1Task a n Lt).obj x = l1Lin a n x + ∑ i ∈ range (gRows a n / a.d), x (n + i) +
    if (l1Task a n Lt).hasW then x (n + gRows a n / a.d) else 0 := by
  set m := gRows a n / a.d with hm
  have hmG : (a.G.getD (eyeMat n)).nrows / a.d = m := by rw [gRows_eq]
  have hv : (l1Task a n Lt).vars = n + m + (if (l1Task a n Lt).hasW then 1 else 0) := by
    unfold MosekTask.vars
    rw [show (l1Task a n Lt).m = m from hmG]; rfl
  have hc : (l1Task a n Lt).c = fun j => if j < n then (a.c.getD (List.replicate n 0)).getD j 0 else 1 := rfl
  have hc1 : ∀ j < n, (l1Task a n Lt).c j = (a.c.getD (List.replicate n 0)).getD j 0 := fun j hj => by rw [hc]; exact if_pos hj
  have hc2 : ∀ j, n ≤ j → (l1Task a n Lt).c j = 1 := fun j hj => by rw [hc]; exact if_neg (by omega)
  have h1 : ∑ j ∈ range (n + m), (l1Task a n Lt).c j * x j = l1Lin a n x + ∑ i ∈ range m, x (n + i) := by
    rw [sum_range_add]
    congr 1
    · rw [Finset.sum_congr rfl (fun j hj => by rw [hc1 j (mem_range.mp hj)])]
      unfold l1Lin
      cases a.c with
      | some c => rfl
      | none =>
        refine Finset.sum_eq_zero (fun j hj => ?_)
        simp only [Option.getD_none, List.getD_eq_getElem?_getD, List.getElem?_replicate]
        split_ifs <;> simp
    · exact Finset.sum_congr rfl (fun i _ => by rw [hc2 _ (by omega), one_mul])
  unfold MosekTask.obj
  rw [hv]
  by_cases hw : (l1Task a n Lt).hasW = true
  · simp only [hw, if_true]
    rw [sum_range_succ, h1, hc2 (n + m) (Nat.le_add_right _ _), one_mul]
  · simp only [hw]
    simpa using h1

end
end Gpy
