import Verif.Proofs.MinL1b

/-! C97: `min_l1_with_fixed` with the SCS solver. -/

set_option autoImplicit false
namespace Gpy
open Finset

noncomputable section

theorem obj_eq {a : L1Args} {n : ℕ} (h : a.Ok n) (x : ℕ → ℝ) :
    (l1Data a n).obj x = l1Energy a n x - ∑ i ∈ range (gRows a n / a.d), blockNorm a n x i + ∑ i ∈ range (gRows a n / a.d), x (n + i) := by
  set m := gRows a n / a.d with hm
  have hmG : (l1Data a n).m = m := by show (a.G.getD (eyeMat n)).nrows / a.d = m; rw [gRows_eq]
  have hquad : ∑ i ∈ range (n + m), ∑ j ∈ range (n + m), x i * (l1Data a n).P i j * x j = ∑ i ∈ range n, ∑ j ∈ range n, x i * ((l1Q a).map (fun Q => Q.get i j)).getD 0 * x j := by
    rw [sum_range_add]
    have z1 : ∑ i ∈ range m, ∑ j ∈ range (n + m), x (n + i) * (l1Data a n).P (n + i) j * x j = 0 := by
      refine sum_eq_zero (fun i _ => sum_eq_zero (fun j _ => ?_))
      have : (l1Data a n).P (n + i) j = 0 := if_neg (by omega)
      rw [this]; ring
    rw [z1, add_zero]
    refine sum_congr rfl (fun i hi => ?_)
    rw [sum_range_add]
    have z2 : ∑ j ∈ range m, x i * (l1Data a n).P i (n + j) * x (n + j) = 0 := by
      refine sum_eq_zero (fun j _ => ?_)
      have : (l1Data a n).P i (n + j) = 0 := if_neg (by omega)
      rw [this]; ring
    rw [z2, add_zero]
    refine sum_congr rfl (fun j hj => ?_)
    have : (l1Data a n).P i j = ((l1Q a).map (fun Q => Q.get i j)).getD 0 := if_pos ⟨mem_range.mp hi, mem_range.mp hj⟩
    rw [this]
  have hc : (a.c.getD (List.replicate n 0)).length = n := by
    cases hcc : a.c with
    | none => simp
    | some c => exact h.c c hcc
  have hlin : ∑ j ∈ range (n + m), (l1Data a n).c.getD j 0 * x j = l1Lin a n x + ∑ i ∈ range m, x (n + i) := by
    have hcd : (l1Data a n).c = a.c.getD (List.replicate n 0) ++ List.replicate m 1 := by
      show _ ++ List.replicate ((a.G.getD (eyeMat n)).nrows / a.d) 1 = _
      rw [gRows_eq]
    rw [sum_range_add, hcd]
    unfold l1Lin
    congr 1
    · cases hcc : a.c with
      | none =>
        refine sum_eq_zero (fun j hj => ?_)
        simp only [Option.getD_none]
        rw [List.getD_eq_getElem?_getD, List.getElem?_append_left (by simpa using mem_range.mp hj), List.getElem?_replicate]
        split_ifs <;> simp
      | some c =>
        refine sum_congr rfl (fun j hj => ?_)
        simp only [Option.getD_some]
        rw [List.getD_eq_getElem?_getD, List.getD_eq_getElem?_getD, List.getElem?_append_left (by rw [h.c c hcc]; exact mem_range.mp hj)]
    · refine sum_congr rfl (fun i hi => ?_)
      rw [List.getD_eq_getElem?_getD, List.getElem?_append_right (by omega), hc, Nat.add_sub_cancel_left, List.getElem?_replicate, if_pos (mem_range.mp hi), Option.getD_some, one_mul]
  have hq : 1 / 2 * ∑ i ∈ range n, ∑ j ∈ range n, x i * ((l1Q a).map (fun Q => Q.get i j)).getD 0 * x j =
      l1Quad a n x := by
    unfold l1Q l1Quad
    cases hQ : a.Q with
    | some Q =>
      rw [(h.Q Q hQ).1]
      rfl
    | none =>
      cases hL : a.L with
      | none => simp [quadTerm]
      | some L =>
        show 1 / 2 * ∑ i ∈ range n, ∑ j ∈ range n, x i * (∑ t ∈ range L.ncols, L.get i t * L.get j t) * x j = 1 / 2 * ∑ t ∈ range L.ncols, (∑ i ∈ range n, L.get i t * x i) ^ 2
        congr 1
        simp only [sq, sum_mul_sum, mul_sum, sum_mul]
        rw [sum_congr rfl (fun i _ => sum_comm), sum_comm]
        exact sum_congr rfl (fun t _ => sum_congr rfl (fun i _ => sum_congr rfl (fun j _ => by ring)))
  unfold ScsData.obj
  have e1 : (l1Data a n).n = n := rfl
  rw [e1, hmG, hquad, hlin, hq]
  unfold l1Energy blockNorm
  ring

theorem l1Energy_eq (a : L1Args) (n : ℕ) (u : ℕ → ℝ) : l1Energy a n u = ∑ i ∈ range (gRows a n / a.d), blockNorm a n u i + l1Quad a n u + l1Lin a n u := rfl

/-- nothing depends on entries from `n` on -/
theorem l1_congr {a : L1Args} {n : ℕ} (h : a.Ok n) {u v : ℕ → ℝ} (huv : ∀ i < n, u i = v i) :
    (∀ i < gRows a n / a.d, blockNorm a n u i = blockNorm a n v i) ∧ l1Quad a n u = l1Quad a n v ∧ l1Lin a n u = l1Lin a n v ∧ (l1Feasible a n u ↔ l1Feasible a n v) := by
  have hgt : ∀ i < gRows a n / a.d, ∀ j < a.d, gTimes a n u (a.d * i + j) = gTimes a n v (a.d * i + j) := by
    intro i hi j hj
    have hlt : a.d * i + j < gRows a n := by
      calc a.d * i + j < a.d * i + a.d := by omega
        _ = a.d * (i + 1) := by ring
        _ ≤ a.d * (gRows a n / a.d) := Nat.mul_le_mul_left _ hi
        _ = gRows a n := Nat.mul_div_cancel' h.mult
    unfold gTimes gRows at *
    cases hG : a.G with
    | some G => exact sum_congr rfl (fun l hl => by rw [huv l (mem_range.mp hl)])
    | none => rw [hG] at hlt; exact huv _ hlt
  refine ⟨fun i hi => ?_, ?_, ?_, ?_⟩
  · unfold blockNorm
    rw [sum_congr rfl (fun j hj => by rw [hgt i hi j (mem_range.mp hj)])]
  · unfold l1Quad
    split
    · rw [sum_congr rfl (fun i hi => sum_congr rfl (fun j hj => by rw [huv i (mem_range.mp hi), huv j (mem_range.mp hj)]))]
    · rw [sum_congr rfl (fun t _ => by rw [sum_congr rfl (fun i hi => by rw [huv i (mem_range.mp hi)])])]
    · rfl
  · unfold l1Lin
    split
    · exact sum_congr rfl (fun i hi => by rw [huv i (mem_range.mp hi)])
    · rfl
  · unfold l1Feasible
    refine and_congr ?_ ?_
    · rcases h.ky with ⟨h1, _⟩ | ⟨k, y, h1, h2, _, h4⟩
      · simp [h1]
      · rw [h1, h2]
        simp only [Option.some.injEq]
        constructor
        · rintro hf k' y' rfl rfl i j w hj hw
          rw [← huv j (h4 j (List.mem_of_getElem? hj))]
          exact hf k y rfl rfl i j w hj hw
        · rintro hf k' y' rfl rfl i j w hj hw
          rw [huv j (h4 j (List.mem_of_getElem? hj))]
          exact hf k y rfl rfl i j w hj hw
    · have : ∀ (A : Mat) (r : ℕ), ∑ l ∈ range n, A.get r l * u l = ∑ l ∈ range n, A.get r l * v l := fun A r => sum_congr rfl (fun l hl => by rw [huv l (mem_range.mp hl)])
      simp only [this]

/-- a candidate of the cone program made from a vector: the norms as extra unknowns -/
def lift (a : L1Args) (n : ℕ) (u : ℕ → ℝ) : ℕ → ℝ := fun i => if i < n then u i else blockNorm a n u (i - n)

theorem lift_feasible {a : L1Args} {n : ℕ} (h : a.Ok n) {u : ℕ → ℝ} (hu : l1Feasible a n u) : (l1Data a n).Feasible (lift a n u) ∧ (l1Data a n).obj (lift a n u) = l1Energy a n u := by
  have huv : ∀ i < n, lift a n u i = u i := fun i hi => if_pos hi
  obtain ⟨hb, hq, hl, hf⟩ := l1_congr h huv
  have hz : ∀ i, lift a n u (n + i) = blockNorm a n u i := fun i => by
    unfold lift; rw [if_neg (by omega), Nat.add_sub_cancel_left]
  constructor
  · refine (feasible_iff h _).mpr ⟨hf.mpr hu, fun i _ => ?_, fun i hi => ?_⟩
    · rw [hz]; exact Real.sqrt_nonneg _
    · rw [hz, hb i hi]
  · rw [obj_eq h, l1Energy_eq, l1Energy_eq, hq, hl, sum_congr rfl (fun i hi => hb i (mem_range.mp hi)), sum_congr rfl (fun i _ => hz i)]
    ring

theorem obj_ge {a : L1Args} {n : ℕ} (h : a.Ok n) {x : ℕ → ℝ} (hx : (l1Data a n).Feasible x) : l1Energy a n x ≤ (l1Data a n).obj x := by
  rw [obj_eq h]
  have := sum_le_sum (fun i (hi : i ∈ range (gRows a n / a.d)) => ((feasible_iff h x).mp hx).2.2 i (mem_range.mp hi))
  linarith

/-- **C97** what `min_l1_with_fixed` returns with SCS has the documented number of entries, meets the constraints `u[k] = y`, `A u = b`, and no
vector that meets them has a smaller `|Gu|_{d,1} + 1/2 uᵀQu + cᵀu`. -/
theorem C97_optimal {scs : ScsData → Option (ℕ → ℝ)} (hs : IsScs scs) {a : L1Args} {u : List ℝ} (h : minL1Scs scs a = some u) :
    ∃ n, a.Ok n ∧ u.length = n ∧ l1Feasible a n (fun i => u.getD i 0) ∧ ∀ v, l1Feasible a n v → l1Energy a n (fun i => u.getD i 0) ≤ l1Energy a n v := by
  unfold minL1Scs at h
  obtain ⟨D, hD, h⟩ := Option.bind_eq_some_iff.mp h
  obtain ⟨x, hx, h⟩ := Option.bind_eq_some_iff.mp h
  obtain ⟨n, hok, rfl⟩ := scsData_some hD
  obtain ⟨hfe, hopt⟩ := hs.sound _ _ hx
  simp only [Option.some.injEq] at h
  have hn : (l1Data a n).n = n := rfl
  rw [hn] at h
  have huv : ∀ i < n, u.getD i 0 = x i := by
    intro i hi
    rw [← h, List.getD_eq_getElem?_getD, List.getElem?_map, List.getElem?_range hi]; rfl
  obtain ⟨hb, hq, hl, hf⟩ := l1_congr hok huv
  have he : l1Energy a n (fun i => u.getD i 0) = l1Energy a n x := by
    rw [l1Energy_eq, l1Energy_eq, hq, hl, sum_congr rfl (fun i hi => hb i (mem_range.mp hi))]
  refine ⟨n, hok, by rw [← h]; simp, hf.mpr ((feasible_iff hok x).mp hfe).1, fun v hv => ?_⟩
  obtain ⟨h1, h2⟩ := lift_feasible hok hv
  rw [he, ← h2]
  exact (obj_ge hok hfe).trans (hopt _ h1)

/-- **C97** if the arguments fit and the documented problem has a solution, a result is returned. -/
theorem C97_returns {scs : ScsData → Option (ℕ → ℝ)} (hs : IsScs scs) {a : L1Args} {n : ℕ} (hok : a.Ok n) {v : ℕ → ℝ} (hv : l1Feasible a n v)
    (hmin : ∀ w, l1Feasible a n w → l1Energy a n v ≤ l1Energy a n w) : ∃ u, minL1Scs scs a = some u := by
  obtain ⟨h1, h2⟩ := lift_feasible hok hv
  obtain ⟨x, hx⟩ := hs.complete (l1Data a n) (lift a n v) ⟨h1, fun x hx => by
    rw [h2]
    exact (hmin x ((feasible_iff hok x).mp hx).1).trans (obj_ge hok hx)⟩
  exact ⟨_, by unfold minL1Scs; rw [scsData_ok hok, Option.bind_eq_bind, Option.bind_some, hx]; rfl⟩

/-- **C97** conversely a result is only returned if the problem has a solution and the arguments fit: contradictory constraints, or arguments
of the wrong size, raise an error. -/
theorem C97_error {scs : ScsData → Option (ℕ → ℝ)} (hs : IsScs scs) {a : L1Args} (h : ∀ n, a.Ok n → (∀ v, ¬ l1Feasible a n v) ∨ ∀ v, ∃ w, l1Feasible a n w ∧ l1Energy a n w < l1Energy a n v) : minL1Scs scs a = none := by
  by_contra hne
  obtain ⟨u, hu⟩ := Option.ne_none_iff_exists'.mp hne
  obtain ⟨n, hok, _, hf, hmin⟩ := C97_optimal hs hu
  rcases h n hok with h1 | h1
  · exact h1 _ hf
  · obtain ⟨w, hw, hlt⟩ := h1 (fun i => u.getD i 0)
    exact absurd (hmin w hw) (not_le.mpr hlt)

/-- **C97** the documentation says that the factor `L` has shape `(?, n)`.  A factor of this shape that is not square is refused when `n` is
known from `G`, and also when it is known from `L` alone. -/
theorem C97_factor_violated (scs : ScsData → Option (ℕ → ℝ)) {a : L1Args} {L : Mat} (hL : a.L = some L) (hne : L.nrows ≠ L.ncols)
    (hG : a.G = none ∨ ∃ G, a.G = some G ∧ G.ncols = L.ncols) : minL1Scs scs a = none := by
  by_contra hc
  obtain ⟨u, hu⟩ := Option.ne_none_iff_exists'.mp hc
  unfold minL1Scs at hu
  obtain ⟨D, hD, _⟩ := Option.bind_eq_some_iff.mp hu
  obtain ⟨n, hok, _⟩ := scsData_some hD
  have h1 := hok.L L hL
  have hQ : a.Q = none := by
    cases hQ : a.Q with
    | none => rfl
    | some Q => have := (hok.Q Q hQ).1; rw [hL] at this; cases this
  have h2 : L.ncols = n := by
    have := hok.infer
    rcases hG with h | ⟨G, h, hGc⟩
    · unfold inferN at this
      rw [h, hQ, hL] at this
      exact Option.some.inj this
    · rw [← hGc]; exact hok.G G h
  omega

/-- the contract of the solver can be met -/
example : ∃ scs, IsScs scs := by
  classical
  refine ⟨fun D => if h : ∃ x, D.Optimal x then some h.choose else none, ⟨fun D x hx => ?_, fun D x hx => ⟨_, dif_pos ⟨x, hx⟩⟩⟩⟩
  by_cases h : ∃ x, D.Optimal x
  · rw [dif_pos h, Option.some.injEq] at hx
    rw [← hx]; exact h.choose_spec
  · rw [dif_neg h] at hx; cases hx

/-- the hypotheses are met by the example of the documentation: `A = [1 2]`, `b = [1]`, no other argument -/
example : (L1Args.mk none none none none none none (some ⟨1, 2, fun _ j => (j : ℝ) + 1⟩) (some [1]) 1).Ok 2 ∧
    l1Feasible (L1Args.mk none none none none none none (some ⟨1, 2, fun _ j => (j : ℝ) + 1⟩) (some [1]) 1) 2 (fun i => if i = 1 then 1 / 2 else 0) := by
  constructor
  · refine ⟨rfl, le_refl _, ?_, one_dvd _, ?_, ?_, ?_, Or.inl ⟨rfl, rfl⟩, Or.inr ⟨_, _, rfl, rfl, rfl, rfl⟩⟩ <;> intro _ h <;> cases h
  · refine ⟨fun k y h => by (intro h2; cases h2), ?_⟩
    rintro A b hA hb r v hv
    cases hA
    cases hb
    have hr : r = 0 := by
      have := (List.getElem?_eq_some_iff.mp hv).1
      simpa using this
    subst hr
    cases hv
    norm_num [sum_range_succ]

end
end Gpy
