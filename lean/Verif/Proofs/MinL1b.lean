import Verif.Proofs.MinL1

/-! Lemmas for C97: what the cone program says. -/

set_option autoImplicit false
namespace Gpy
open Finset

noncomputable section

theorem slackA (a : L1Args) {n m : ℕ} (h : a.Ok n) (x : ℕ → ℝ) :
    (∀ t ∈ List.zipWith (fun (r : ScsRow) b => b - r.dot n m x) (match a.A with | none => [] | some A => (List.range A.nrows).map (fun r => (⟨A.get r, 0⟩ : ScsRow))) (a.b.getD []), t = 0) ↔
      (∀ A b, a.A = some A → a.b = some b → ∀ (r : ℕ) (v : ℝ), b[r]? = some v → ∑ l ∈ range n, A.get r l * x l = v) := by
  rcases h.Ab with ⟨h1, h2⟩ | ⟨A, b, h1, h2, _, h3⟩
  · rw [h1, h2]; simp
  · rw [h1, h2]
    simp only [Option.getD_some, Option.some.injEq]
    constructor
    · rintro hz A' b' rfl rfl r v hv
      have hr : r < b.length := (List.getElem?_eq_some_iff.mp hv).1
      have := hz (v - ScsRow.dot ⟨A.get r, 0⟩ n m x) (List.mem_of_getElem? (i := r) (by
        rw [List.getElem?_zipWith, List.getElem?_map, List.getElem?_range (by omega), hv]; rfl))
      simp only [ScsRow.dot, Pi.zero_apply, zero_mul, sum_const_zero, add_zero] at this
      linarith
    · intro hf t ht
      obtain ⟨r, hr, rfl⟩ := List.getElem_of_mem ht
      simp only [List.length_zipWith, List.length_map, List.length_range] at hr
      simp only [List.getElem_zipWith, List.getElem_map, List.getElem_range, ScsRow.dot, Pi.zero_apply, zero_mul, sum_const_zero, add_zero]
      rw [hf A b rfl rfl r _ (List.getElem?_eq_getElem (by omega))]
      ring

theorem slackK (a : L1Args) {n m : ℕ} (h : a.Ok n) (x : ℕ → ℝ) :
    (∀ t ∈ List.zipWith (fun (r : ScsRow) b => b - r.dot n m x) ((a.k.getD []).map (fun i => (⟨unitAt i 1, 0⟩ : ScsRow))) (a.y.getD []), t = 0) ↔
      (∀ k y, a.k = some k → a.y = some y → ∀ (i j : ℕ) (v : ℝ), k[i]? = some j → y[i]? = some v → x j = v) := by
  rcases h.ky with ⟨h1, h2⟩ | ⟨k, y, h1, h2, h3, h4⟩
  · rw [h1, h2]; simp
  · rw [h1, h2]
    simp only [Option.getD_some, Option.some.injEq]
    constructor
    · rintro hz k' y' rfl rfl i j v hj hv
      have hjn : j < n := h4 j (List.mem_of_getElem? hj)
      have := hz (v - ScsRow.dot ⟨unitAt j 1, 0⟩ n m x) (List.mem_of_getElem? (i := i) (by
        rw [List.getElem?_zipWith, List.getElem?_map, hj, hv]; rfl))
      simp only [ScsRow.dot, Pi.zero_apply, zero_mul, sum_const_zero, add_zero] at this
      rw [dot_unit_u x hjn] at this
      linarith
    · intro hf t ht
      obtain ⟨i, hi, rfl⟩ := List.getElem_of_mem ht
      simp only [List.length_zipWith, List.length_map] at hi
      have hin : k[i]'(by omega) < n := h4 _ (List.getElem_mem _)
      simp only [List.getElem_zipWith, List.getElem_map, ScsRow.dot, Pi.zero_apply, zero_mul, sum_const_zero, add_zero]
      rw [dot_unit_u x hin, hf k y rfl rfl i _ _ (List.getElem?_eq_getElem (by omega)) (List.getElem?_eq_getElem (by omega))]
      ring

theorem feasible_iff {a : L1Args} {n : ℕ} (h : a.Ok n) (x : ℕ → ℝ) :
    (l1Data a n).Feasible x ↔ l1Feasible a n x ∧ (∀ i < gRows a n / a.d, 0 ≤ x (n + i)) ∧ ∀ i < gRows a n / a.d, blockNorm a n x i ≤ x (n + i) := by
  set m := gRows a n / a.d with hm
  have hmG : (a.G.getD (eyeMat n)).nrows / a.d = m := by rw [gRows_eq]
  have hrows : gRows a n = a.d * m := (Nat.mul_div_cancel' h.mult).symm
  set RA : List ScsRow := (match a.A with | none => [] | some A => (List.range A.nrows).map (fun r => (⟨A.get r, 0⟩ : ScsRow))) with hRA
  set RK : List ScsRow := (a.k.getD []).map (fun i => (⟨unitAt i 1, 0⟩ : ScsRow)) with hRK
  set RI : List ScsRow := (List.range m).map (fun i => (⟨0, unitAt i (-1)⟩ : ScsRow)) with hRI
  have lA : (a.b.getD []).length = RA.length ∧ (a.A.map (fun A => A.nrows)).getD 0 = RA.length := by
    rw [hRA]
    rcases h.Ab with ⟨h1, h2⟩ | ⟨A, b, h1, h2, _, h3⟩
    · rw [h1, h2]; simp
    · rw [h1, h2]; simp [h3]
  have lK : (a.y.getD []).length = RK.length ∧ (a.k.getD []).length = RK.length := by
    rw [hRK]
    rcases h.ky with ⟨h1, h2⟩ | ⟨k, y, h1, h2, h3, _⟩
    · rw [h1, h2]; simp
    · rw [h1, h2]; simp [h3]
  have hfeas : l1Feasible a n x ↔ (∀ t ∈ List.zipWith (fun (r : ScsRow) b => b - r.dot n m x) RA (a.b.getD []) ++ List.zipWith (fun (r : ScsRow) b => b - r.dot n m x) RK (a.y.getD []), t = 0) := by
    unfold l1Feasible
    rw [← slackA a (m := m) h x, ← slackK a (m := m) h x, List.forall_mem_append, and_comm]
  have hI : (∀ t ∈ RI.map (fun r => (0 : ℝ) - r.dot n m x), 0 ≤ t) ↔ ∀ i < m, 0 ≤ x (n + i) := by
    rw [hRI]
    simp only [List.map_map, List.mem_map, List.mem_range, forall_exists_index, and_imp, forall_apply_eq_imp_iff₂, Function.comp]
    refine forall_congr' (fun i => forall_congr' (fun hi => ?_))
    simp only [ScsRow.dot, Pi.zero_apply, zero_mul, sum_const_zero, zero_add]
    rw [dot_unit x hi]
    constructor <;> intro h <;> linarith
  have hgt : ∀ i < m, ∀ j < a.d, a.d * i + j < gRows a n := by
    intro i hi j hj
    rw [hrows]
    calc a.d * i + j < a.d * i + a.d := by omega
      _ = a.d * (i + 1) := by ring
      _ ≤ a.d * m := Nat.mul_le_mul_left _ hi
  unfold ScsData.Feasible
  have e1 : (l1Data a n).n = n := rfl
  have e2 : (l1Data a n).m = m := hmG
  have key : ∀ (RG : List ScsRow), (l1Data a n).A = RA ++ RK ++ RI ++ RG →
      List.zipWith (fun (r : ScsRow) b => b - r.dot (l1Data a n).n (l1Data a n).m x) (l1Data a n).A (l1Data a n).b =
        (List.zipWith (fun (r : ScsRow) b => b - r.dot n m x) RA (a.b.getD []) ++ List.zipWith (fun (r : ScsRow) b => b - r.dot n m x) RK (a.y.getD [])) ++
          (RI.map (fun r => (0 : ℝ) - r.dot n m x) ++ RG.map (fun r => (0 : ℝ) - r.dot n m x)) := by
    intro RG hA
    have hb : (l1Data a n).b = (a.b.getD [] ++ a.y.getD []) ++ List.replicate ((l1Data a n).A.length - (a.b.getD [] ++ a.y.getD []).length) 0 := rfl
    rw [hb, hA, e1, e2, List.append_assoc (RA ++ RK), zipWith_pad _ (RA ++ RK) (RI ++ RG) _ (by simp [lA.1, lK.1]), List.zipWith_append lA.1.symm, List.map_append]
  have hz : (l1Data a n).zlen = (List.zipWith (fun (r : ScsRow) b => b - r.dot n m x) RA (a.b.getD []) ++ List.zipWith (fun (r : ScsRow) b => b - r.dot n m x) RK (a.y.getD [])).length := by
    show (a.A.map (fun A => A.nrows)).getD 0 + (a.k.getD []).length = _
    rw [lA.2, lK.2, List.length_append, List.length_zipWith, List.length_zipWith, lA.1, lK.1]
    omega
  by_cases hd : a.d = 1
  · have hA : (l1Data a n).A = RA ++ RK ++ RI ++ ((List.range m).map (fun r => (⟨(a.G.getD (eyeMat n)).get r, unitAt r (-1)⟩ : ScsRow)) ++
        (List.range m).map (fun r => (⟨fun j => -(a.G.getD (eyeMat n)).get r j, unitAt r (-1)⟩ : ScsRow))) := by
      show scsRows ((a.G.getD (eyeMat n)).nrows / a.d) a.d (a.G.getD (eyeMat n)) (a.k.getD []) a.A = _
      rw [hmG]; unfold scsRows; rw [if_pos hd]; rfl
    have hl : (l1Data a n).llen = m + 2 * m := by
      show (a.G.getD (eyeMat n)).nrows / a.d + (if a.d = 1 then 2 * ((a.G.getD (eyeMat n)).nrows / a.d) else 0) = _
      rw [hmG, if_pos hd]
    have hq : (l1Data a n).q = [] := by
      show (if 2 ≤ a.d then _ else _) = _
      rw [if_neg (by omega)]
    rw [key _ hA, InCones, hz, List.take_left, List.drop_left, hq, hl]
    rw [List.take_of_length_le (by simp [hRI]; omega), ← hfeas, List.forall_mem_append, hI]
    simp only [InSocs, and_true]
    refine and_congr_right (fun _ => and_congr_right (fun _ => ?_))
    rw [List.map_append, List.forall_mem_append]
    simp only [List.map_map, List.mem_map, List.mem_range, forall_exists_index, and_imp, forall_apply_eq_imp_iff₂, Function.comp]
    have hbn : ∀ i < m, blockNorm a n x i = |∑ l ∈ range n, (a.G.getD (eyeMat n)).get i l * x l| := by
      intro i hi
      unfold blockNorm
      rw [hd, sum_range_one, Real.sqrt_sq_eq_abs, ← gTimes_eq x (by have := hgt i hi 0 (by omega); rw [hd] at this; exact this)]
      simp
    have d1 : ∀ i < m, ScsRow.dot ⟨(a.G.getD (eyeMat n)).get i, unitAt i (-1)⟩ n m x = ∑ l ∈ range n, (a.G.getD (eyeMat n)).get i l * x l - x (n + i) := by
      intro i hi
      simp only [ScsRow.dot]
      rw [dot_unit x hi]; ring
    have d2 : ∀ i < m, ScsRow.dot ⟨fun j => -(a.G.getD (eyeMat n)).get i j, unitAt i (-1)⟩ n m x = -∑ l ∈ range n, (a.G.getD (eyeMat n)).get i l * x l - x (n + i) := by
      intro i hi
      simp only [ScsRow.dot, neg_mul, sum_neg_distrib]
      rw [dot_unit x hi]; ring
    constructor
    · rintro ⟨h1, h2⟩ i hi
      have a1 := h1 i hi
      have a2 := h2 i hi
      rw [d1 i hi] at a1
      rw [d2 i hi] at a2
      rw [hbn i hi, abs_le]
      constructor <;> linarith
    · intro h0
      refine ⟨fun i hi => ?_, fun i hi => ?_⟩
      · have := h0 i hi
        rw [hbn i hi, abs_le] at this
        rw [d1 i hi]; linarith [this.2]
      · have := h0 i hi
        rw [hbn i hi, abs_le] at this
        rw [d2 i hi]; linarith [this.1]
  · have hd2 : 2 ≤ a.d := by have := h.d; omega
    set GIm : ℕ → ScsRow := fun r => if r < a.d * m then ⟨fun j => -(a.G.getD (eyeMat n)).get r j, 0⟩ else ⟨0, unitAt (r - a.d * m) (-1)⟩ with hGIm
    have hA : (l1Data a n).A = RA ++ RK ++ RI ++ ((List.range m).flatMap (fun i => (a.d * m + i) :: (List.range a.d).map (fun j => a.d * i + j))).map GIm := by
      show scsRows ((a.G.getD (eyeMat n)).nrows / a.d) a.d (a.G.getD (eyeMat n)) (a.k.getD []) a.A = _
      rw [hmG]; unfold scsRows; rw [if_neg hd]; rfl
    have hl : (l1Data a n).llen = (RI.map (fun r => (0 : ℝ) - r.dot n m x)).length := by
      show (a.G.getD (eyeMat n)).nrows / a.d + (if a.d = 1 then 2 * ((a.G.getD (eyeMat n)).nrows / a.d) else 0) = _
      rw [hmG, if_neg hd, hRI]; simp
    have hq : (l1Data a n).q = List.replicate (List.range m).length (a.d + 1) := by
      show (if 2 ≤ a.d then _ else _) = _
      rw [if_pos hd2, List.length_range, hmG]
    rw [key _ hA, InCones, hz, List.take_left, List.drop_left, hq, hl, List.take_left, hI, ← hfeas, ← List.length_append, ← List.append_assoc, List.drop_left]
    refine and_congr_right (fun _ => and_congr_right (fun _ => ?_))
    rw [List.map_map, List.map_flatMap, inSocs_flatMap (a.d + 1) (by omega) _ (fun i => by simp)]
    simp only [List.mem_range]
    refine forall_congr' (fun i => forall_congr' (fun hi => ?_))
    have d1 : (0 : ℝ) - (GIm (a.d * m + i)).dot n m x = x (n + i) := by
      rw [hGIm]
      simp only [if_neg (show ¬ a.d * m + i < a.d * m by omega), Nat.add_sub_cancel_left, ScsRow.dot, Pi.zero_apply, zero_mul, sum_const_zero]
      rw [dot_unit x hi]; ring
    have d2 : ∀ j < a.d, (0 : ℝ) - (GIm (a.d * i + j)).dot n m x = gTimes a n x (a.d * i + j) := by
      intro j hj
      have := hgt i hi j hj
      rw [hGIm]
      simp only [if_pos (show a.d * i + j < a.d * m by rw [← hrows]; exact this), ScsRow.dot, Pi.zero_apply, zero_mul, sum_const_zero, neg_mul, sum_neg_distrib]
      rw [gTimes_eq x this]; ring
    simp only [List.map_cons, List.tail_cons, List.headD_cons, Function.comp, List.map_map]
    rw [d1]
    have : ((List.range a.d).map ((fun t : ℝ => t ^ 2) ∘ (fun r => (0 : ℝ) - (GIm r).dot n m x) ∘ fun j => a.d * i + j)).sum = ∑ j ∈ range a.d, gTimes a n x (a.d * i + j) ^ 2 := by
      have e : ∑ j ∈ range a.d, ((0 : ℝ) - (GIm (a.d * i + j)).dot n m x) ^ 2 = ∑ j ∈ range a.d, gTimes a n x (a.d * i + j) ^ 2 :=
        sum_congr rfl (fun j hj => by rw [d2 j (Finset.mem_range.mp hj)])
      exact e
    unfold blockNorm
    rw [← this]
    rfl

end
end Gpy
