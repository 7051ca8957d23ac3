import Verif.Proofs.MinL1Mosek

/-! C97: `min_l1_with_fixed` with MOSEK, and the choice of the solver. -/

set_option autoImplicit false
namespace Gpy
open Finset

noncomputable section

theorem mo_hasW (a : L1Args) (n : ℕ) (Lt : Option Mat) : (l1Task a n Lt).hasW = decide ((Lt.map (fun (L : Mat) => L.nrows)).getD 0 ≠ 0) := rfl

theorem ltQuad_zero {a : L1Args} {n : ℕ} {Lt : Option Mat} (h : (l1Task a n Lt).hasW ≠ true) (x : ℕ → ℝ) : ltQuad Lt n x = 0 := by
  rw [mo_hasW] at h
  cases Lt with
  | none => rfl
  | some L =>
    have h0 : L.nrows = 0 := by simpa using h
    simp [ltQuad, h0]

theorem ltQuad_congr (Lt : Option Mat) {n : ℕ} {u v : ℕ → ℝ} (huv : ∀ i < n, u i = v i) : ltQuad Lt n u = ltQuad Lt n v := by
  cases Lt with
  | none => rfl
  | some L =>
    simp only [ltQuad]
    rw [sum_congr rfl (fun t _ => by rw [sum_congr rfl (fun i hi => by rw [huv i (mem_range.mp hi)])])]

theorem moData_ok {chol : Mat → Option Mat} {a : L1Args} {n : ℕ} (h : a.Ok n) {Lt : Option Mat} (hf : moFactor chol a.Q a.L = some Lt) (hLt : ∀ L ∈ Lt, L.ncols = n) :
    moData chol a = some (l1Task a n Lt) := by
  have hG : (a.G.getD (eyeMat n)).ncols = n := by
    cases hg : a.G with
    | none => rfl
    | some G => exact h.G G hg
  have hc : (a.c.getD (List.replicate n 0)).length = n := by
    cases hcc : a.c with
    | none => simp
    | some c => exact h.c c hcc
  have hm : (a.G.getD (eyeMat n)).nrows = a.d * ((a.G.getD (eyeMat n)).nrows / a.d) := by
    rw [gRows_eq]; exact (Nat.mul_div_cancel' h.mult).symm
  have hsh : shapesOk n ((a.G.getD (eyeMat n)).nrows / a.d) a.d (a.G.getD (eyeMat n)) (a.c.getD (List.replicate n 0)) a.k a.y a.A a.b a.Q := by
    refine ⟨hc, by rw [gRows_eq]; exact Nat.mod_eq_zero_of_dvd h.mult, hm, hG, ?_, ?_, ?_, ?_, ?_, fun Q' hQ' => (h.Q Q' hQ').2⟩
    · rcases h.ky with ⟨h1, h2⟩ | ⟨k, y, h1, h2, _⟩ <;> rw [h1, h2] <;> rfl
    · rcases h.ky with ⟨h1, h2⟩ | ⟨k, y, h1, h2, h3, _⟩ <;> rw [h1, h2] <;> simp [*]
    · rcases h.Ab with ⟨h1, h2⟩ | ⟨A, b, h1, h2, _⟩ <;> rw [h1, h2] <;> rfl
    · rcases h.Ab with ⟨h1, h2⟩ | ⟨A, b, h1, h2, h3, _⟩ <;> rw [h1] <;> simp [*]
    · rcases h.Ab with ⟨h1, h2⟩ | ⟨A, b, h1, h2, _, h3⟩ <;> rw [h1, h2] <;> simp [*]
  have hk : ∀ i ∈ a.k.getD [], i < (l1Task a n Lt).vars := by
    intro i hi
    have : i < n := by
      rcases h.ky with ⟨h1, h2⟩ | ⟨k, y, h1, h2, _, h3⟩
      · rw [h1] at hi; simp at hi
      · rw [h1] at hi; exact h3 i hi
    have hv : n ≤ (l1Task a n Lt).vars := by
      show n ≤ n + _ + _
      omega
    omega
  unfold moData
  rw [h.infer, hf]
  simp only [Option.bind_eq_bind, Option.bind_some]
  rw [if_pos ⟨h.d, hsh, hLt, hk⟩]
  rfl

/-- the factor passed on, and what is known of it -/
theorem moFactor_spec {lib : MosekLib} (hl : IsMosek lib) {a : L1Args} {n : ℕ} (h : a.Ok n) (hsym : ∀ Q, a.Q = some Q → ∀ i j, Q.get i j = Q.get j i) {Lt : Option Mat}
    (hf : moFactor lib.chol a.Q a.L = some Lt) : (∀ L ∈ Lt, L.ncols = n) ∧ ∀ u, ltQuad Lt n u = l1Quad a n u := by
  cases hQ : a.Q with
  | none =>
    cases hL : a.L with
    | none =>
      rw [hQ, hL] at hf
      cases hf
      exact ⟨by simp, fun u => by unfold l1Quad; rw [hQ, hL]; rfl⟩
    | some L =>
      rw [hQ, hL] at hf
      cases hf
      refine ⟨fun L' hL' => ?_, fun u => ?_⟩
      · cases hL'
        exact h.L L hL
      · unfold l1Quad; rw [hQ, hL]; rfl
  | some Q =>
    obtain ⟨h1, h2, h3⟩ := h.Q Q hQ
    rw [hQ, h1] at hf
    obtain ⟨L, hc, rfl⟩ := Option.map_eq_some_iff.mp hf
    obtain ⟨c1, c2⟩ := hl.chol Q L hc (hsym Q hQ)
    rw [h3] at c1 c2
    refine ⟨fun L' hL' => ?_, fun u => ?_⟩
    · cases hL'; exact c1
    · unfold l1Quad; rw [hQ]
      simp only [ltQuad, c2]

theorem moData_factor {chol : Mat → Option Mat} {a : L1Args} {T : MosekTask} (h : moData chol a = some T) : ∃ Lt, moFactor chol a.Q a.L = some Lt := by
  unfold moData at h
  obtain ⟨n, hn, h⟩ := Option.bind_eq_some_iff.mp h
  obtain ⟨Lt, hLt, h⟩ := Option.bind_eq_some_iff.mp h
  exact ⟨Lt, hLt⟩

/-- a candidate of the cone program made from a vector: the norms and the quadratic term as extra unknowns -/
def liftMo (a : L1Args) (n : ℕ) (Lt : Option Mat) (u : ℕ → ℝ) : ℕ → ℝ := fun i =>
  if i < n then u i else if i < n + gRows a n / a.d then blockNorm a n u (i - n) else ltQuad Lt n u

theorem liftMo_ok {a : L1Args} {n : ℕ} (h : a.Ok n) (hnd : ∀ k, a.k = some k → k.Nodup) (Lt : Option Mat) (hq : ∀ u, ltQuad Lt n u = l1Quad a n u) {u : ℕ → ℝ} (hu : l1Feasible a n u) :
    (l1Task a n Lt).Feasible (liftMo a n Lt u) ∧ (l1Task a n Lt).obj (liftMo a n Lt u) = l1Energy a n u := by
  have huv : ∀ i < n, liftMo a n Lt u i = u i := fun i hi => if_pos hi
  obtain ⟨hb, hqq, hl, hf⟩ := l1_congr h huv
  have hz : ∀ i < gRows a n / a.d, liftMo a n Lt u (n + i) = blockNorm a n u i := fun i hi => by
    unfold liftMo; rw [if_neg (by omega), if_pos (by omega), Nat.add_sub_cancel_left]
  have hw : liftMo a n Lt u (n + gRows a n / a.d) = ltQuad Lt n u := by
    unfold liftMo; rw [if_neg (not_lt.mpr (Nat.le_add_right _ _)), if_neg (lt_irrefl _)]
  constructor
  · refine (mo_feasible_iff h hnd Lt _).mpr ⟨hf.mpr hu, fun i hi => ?_, fun i hi => ?_, fun _ => ?_⟩
    · rw [hz i hi]; exact Real.sqrt_nonneg _
    · rw [hz i hi, hb i hi]
    · rw [hw, ltQuad_congr Lt huv]
  · rw [mo_obj, l1Energy_eq, hl, sum_congr rfl (fun i hi => hz i (mem_range.mp hi)), hw, ← hq]
    split_ifs with hW
    · ring
    · rw [ltQuad_zero hW]; ring

theorem mo_obj_ge {a : L1Args} {n : ℕ} (h : a.Ok n) (hnd : ∀ k, a.k = some k → k.Nodup) (Lt : Option Mat) (hq : ∀ u, ltQuad Lt n u = l1Quad a n u) {x : ℕ → ℝ}
    (hx : (l1Task a n Lt).Feasible x) : l1Energy a n x ≤ (l1Task a n Lt).obj x := by
  obtain ⟨_, _, h3, h4⟩ := (mo_feasible_iff h hnd Lt x).mp hx
  rw [mo_obj, l1Energy_eq, ← hq]
  have := sum_le_sum (fun i (hi : i ∈ range (gRows a n / a.d)) => h3 i (mem_range.mp hi))
  split_ifs with hW
  · have := h4 hW; linarith
  · rw [ltQuad_zero hW]; linarith

/-- **C97** with MOSEK: if the arguments fit, no index occurs twice in `k`, and `Q` is symmetric, then what is returned has `n` entries, meets the constraints `u[k] = y`, `A u = b`, and no
vector that meets them has a smaller `|Gu|_{d,1} + 1/2 uᵀQu + cᵀu`. -/
theorem C97_mosek_optimal {lib : MosekLib} (hl : IsMosek lib) {a : L1Args} {n : ℕ} (hok : a.Ok n) (hnd : ∀ k, a.k = some k → k.Nodup)
    (hsym : ∀ Q, a.Q = some Q → ∀ i j, Q.get i j = Q.get j i) {u : List ℝ} (h : minL1Mosek lib a = .value u) :
    u.length = n ∧ l1Feasible a n (fun i => u.getD i 0) ∧ ∀ v, l1Feasible a n v → l1Energy a n (fun i => u.getD i 0) ≤ l1Energy a n v := by
  unfold minL1Mosek at h
  split at h
  · cases h
  · rename_i T hT
    obtain ⟨Lt, hfac⟩ := moData_factor hT
    obtain ⟨hc, hq⟩ := moFactor_spec hl hok hsym hfac
    rw [moData_ok hok hfac hc, Option.some.injEq] at hT
    subst hT
    split at h
    · split at h
      · rename_i x hx
        obtain ⟨hfe, hopt⟩ := hl.sound _ _ hx
        have hn : (l1Task a n Lt).n = n := rfl
        rw [hn, MoOut.value.injEq] at h
        have huv : ∀ i < n, u.getD i 0 = x i := by
          intro i hi
          rw [← h, List.getD_eq_getElem?_getD, List.getElem?_map, List.getElem?_range hi]; rfl
        obtain ⟨hb, hq', hl', hf⟩ := l1_congr hok huv
        have he : l1Energy a n (fun i => u.getD i 0) = l1Energy a n x := by
          rw [l1Energy_eq, l1Energy_eq, hq', hl', sum_congr rfl (fun i hi => hb i (mem_range.mp hi))]
        refine ⟨by rw [← h]; simp, hf.mpr ((mo_feasible_iff hok hnd Lt x).mp hfe).1, fun v hv => ?_⟩
        obtain ⟨h1, h2⟩ := liftMo_ok hok hnd Lt hq hv
        rw [he, ← h2]
        exact (mo_obj_ge hok hnd Lt hq hfe).trans (hopt _ h1)
      · cases h
    · cases h

/-- **C97** with MOSEK and a license: if moreover `Q`, if it is given, can be factorised, and the documented problem has a solution, then a result is returned. -/
theorem C97_mosek_returns {lib : MosekLib} (hl : IsMosek lib) (hlic : lib.licensed = true) {a : L1Args} {n : ℕ} (hok : a.Ok n) (hnd : ∀ k, a.k = some k → k.Nodup)
    (hsym : ∀ Q, a.Q = some Q → ∀ i j, Q.get i j = Q.get j i) (hch : ∀ Q, a.Q = some Q → ∃ Lt, lib.chol Q = some Lt) {v : ℕ → ℝ} (hv : l1Feasible a n v)
    (hmin : ∀ w, l1Feasible a n w → l1Energy a n v ≤ l1Energy a n w) : ∃ u, minL1Mosek lib a = .value u := by
  obtain ⟨Lt, hfac⟩ : ∃ Lt, moFactor lib.chol a.Q a.L = some Lt := by
    cases hQ : a.Q with
    | none => cases a.L <;> exact ⟨_, rfl⟩
    | some Q =>
      obtain ⟨Lt, hLt⟩ := hch Q hQ
      rw [(hok.Q Q hQ).1]
      exact ⟨some Lt, by simp [moFactor, hLt]⟩
  obtain ⟨hc, hq⟩ := moFactor_spec hl hok hsym hfac
  obtain ⟨h1, h2⟩ := liftMo_ok hok hnd Lt hq hv
  obtain ⟨x, hx⟩ := hl.complete (l1Task a n Lt) (liftMo a n Lt v) ⟨h1, fun x hx => by
    rw [h2]
    exact (hmin x ((mo_feasible_iff hok hnd Lt x).mp hx).1).trans (mo_obj_ge hok hnd Lt hq hx)⟩
  refine ⟨(List.range n).map x, ?_⟩
  unfold minL1Mosek
  rw [moData_ok hok hfac hc]
  simp only [hlic, if_true, hx]
  rfl

/-- **C97** whichever solver is asked for, installed and licensed: what is returned is an optimum of the documented problem. -/
theorem C97_any_solver {lib : Option MosekLib} (hl : ∀ l ∈ lib, IsMosek l) {scs : ScsData → Option (ℕ → ℝ)} (hs : IsScs scs) (solver : L1Solver) {a : L1Args} {n : ℕ} (hok : a.Ok n)
    (hnd : ∀ k, a.k = some k → k.Nodup) (hsym : ∀ Q, a.Q = some Q → ∀ i j, Q.get i j = Q.get j i) {u : List ℝ} (h : minL1 lib scs solver a = some u) :
    u.length = n ∧ l1Feasible a n (fun i => u.getD i 0) ∧ ∀ v, l1Feasible a n v → l1Energy a n (fun i => u.getD i 0) ≤ l1Energy a n v := by
  have hscs : minL1Scs scs a = some u → u.length = n ∧ l1Feasible a n (fun i => u.getD i 0) ∧ ∀ v, l1Feasible a n v → l1Energy a n (fun i => u.getD i 0) ≤ l1Energy a n v := by
    intro h
    obtain ⟨n', hok', r⟩ := C97_optimal hs h
    have : n' = n := Option.some.inj (hok'.infer.symm.trans hok.infer)
    rw [← this]; exact r
  unfold minL1 at h
  split at h
  · split at h
    · exact hscs h
    · rename_i l
      split at h
      · rename_i u' hu
        cases h
        exact C97_mosek_optimal (hl _ rfl) hok hnd hsym hu
      · exact hscs h
      · cases h
  · split at h
    · cases h
    · rename_i l
      split at h
      · rename_i u' hu
        cases h
        exact C97_mosek_optimal (hl _ rfl) hok hnd hsym hu
      · cases h
  · exact hscs h
  · cases h

/-- **C97** without a solver name: the problem is solved whether or not MOSEK is installed and licensed. -/
theorem C97_default_returns {lib : Option MosekLib} (hl : ∀ l ∈ lib, IsMosek l) {scs : ScsData → Option (ℕ → ℝ)} (hs : IsScs scs) {a : L1Args} {n : ℕ} (hok : a.Ok n)
    (hnd : ∀ k, a.k = some k → k.Nodup) (hsym : ∀ Q, a.Q = some Q → ∀ i j, Q.get i j = Q.get j i) (hch : ∀ l ∈ lib, ∀ Q, a.Q = some Q → ∃ Lt, l.chol Q = some Lt)
    {v : ℕ → ℝ} (hv : l1Feasible a n v) (hmin : ∀ w, l1Feasible a n w → l1Energy a n v ≤ l1Energy a n w) : ∃ u, minL1 lib scs .default a = some u := by
  obtain ⟨us, hus⟩ := C97_returns hs hok hv hmin
  cases hlib : lib with
  | none => exact ⟨us, hus⟩
  | some l =>
    have hm : l ∈ lib := hlib
    by_cases hlic : l.licensed = true
    · obtain ⟨u, hu⟩ := C97_mosek_returns (hl l hm) hlic hok hnd hsym (hch l hm) hv hmin
      exact ⟨u, by simp only [minL1, hu]⟩
    · have : minL1Mosek l a = .license := by
        obtain ⟨Lt, hfac⟩ : ∃ Lt, moFactor l.chol a.Q a.L = some Lt := by
          cases hQ : a.Q with
          | none => cases a.L <;> exact ⟨_, rfl⟩
          | some Q =>
            obtain ⟨Lt, hLt⟩ := hch l hm Q hQ
            rw [(hok.Q Q hQ).1]
            exact ⟨some Lt, by simp [moFactor, hLt]⟩
        unfold minL1Mosek
        rw [moData_ok hok hfac (moFactor_spec (hl l hm) hok hsym hfac).1]
        simp only [if_neg hlic]
      exact ⟨us, by simp only [minL1, this]; exact hus⟩

/-- **C97** `solver='mosek'` without MOSEK, or without a license, and any other name raise an error; so does MOSEK if no vector meets the constraints. -/
theorem C97_solver_errors (scs : ScsData → Option (ℕ → ℝ)) (a : L1Args) : minL1 none scs .mosek a = none ∧ (∀ lib, lib.licensed = false → minL1 (some lib) scs .mosek a = none) ∧
    (∀ lib, minL1 lib scs .other a = none) := by
  refine ⟨rfl, fun lib hlic => ?_, fun lib => rfl⟩
  simp only [minL1, minL1Mosek, hlic]
  cases moData lib.chol a <;> rfl

/-- **C97** contradictory constraints: MOSEK does not return anything either. -/
theorem C97_mosek_error {lib : MosekLib} (hl : IsMosek lib) {a : L1Args} {n : ℕ} (hok : a.Ok n) (hnd : ∀ k, a.k = some k → k.Nodup) (hsym : ∀ Q, a.Q = some Q → ∀ i j, Q.get i j = Q.get j i)
    (h : ∀ v, ¬ l1Feasible a n v) (u : List ℝ) : minL1Mosek lib a ≠ .value u := fun hu => h _ (C97_mosek_optimal hl hok hnd hsym hu).2.1

/-- **C97** a factor of the documented shape `(?, n)` that is not square is refused by MOSEK's branch as well. -/
theorem C97_mosek_factor_violated (lib : MosekLib) {a : L1Args} {L : Mat} (hL : a.L = some L) (hne : L.nrows ≠ L.ncols)
    (hG : a.G = none ∨ ∃ G, a.G = some G ∧ G.ncols = L.ncols) : minL1Mosek lib a = .error := by
  have hT : moData lib.chol a = none := by
    by_contra hc
    obtain ⟨T, hT⟩ := Option.ne_none_iff_exists'.mp hc
    unfold moData at hT
    obtain ⟨n, hn, hT⟩ := Option.bind_eq_some_iff.mp hT
    obtain ⟨Lt, hLt, hT⟩ := Option.bind_eq_some_iff.mp hT
    have hQ : a.Q = none := by
      cases hQ : a.Q with
      | none => rfl
      | some Q => rw [hQ, hL] at hLt; cases hLt
    rw [hQ, hL] at hLt
    cases hLt
    have hncol : n = L.ncols := by
      rcases hG with h | ⟨G, h, hGc⟩
      · unfold inferN at hn
        rw [h, hQ, hL] at hn
        exact (Option.some.inj hn).symm
      · unfold inferN at hn
        rw [h] at hn
        rw [← hGc]; exact (Option.some.inj hn).symm
    dsimp only at hT
    split at hT
    · rename_i hcond
      have := hcond.2.2.1 (transMat L) rfl
      exact hne (this.trans hncol)
    · cases hT
  unfold minL1Mosek
  rw [hT]

/-- **C97** the same index twice in `k` with different values: no vector meets the constraints, yet MOSEK's branch returns one instead of an error (the last value wins); SCS raises an error. -/
theorem C97_mosek_repeated_violated : ∃ a : L1Args, a.Ok 1 ∧ (∀ v, ¬ l1Feasible a 1 v) ∧ (∀ lib, IsMosek lib → lib.licensed = true → ∃ u, minL1Mosek lib a = .value u) ∧
    ∀ scs, IsScs scs → minL1Scs scs a = none := by
  have ok1 : (L1Args.mk none none none none (some [0, 0]) (some [0, 1]) none none 1).Ok 1 := by
    refine ⟨rfl, le_refl _, ?_, one_dvd _, ?_, ?_, ?_, Or.inr ⟨_, _, rfl, rfl, rfl, ?_⟩, Or.inl ⟨rfl, rfl⟩⟩
    all_goals first | (intro _ h; cases h; done) | simp
  have ok2 : (L1Args.mk none none none none (some [0]) (some [1]) none none 1).Ok 1 := by
    refine ⟨rfl, le_refl _, ?_, one_dvd _, ?_, ?_, ?_, Or.inr ⟨_, _, rfl, rfl, rfl, ?_⟩, Or.inl ⟨rfl, rfl⟩⟩
    all_goals first | (intro _ h; cases h; done) | simp
  have infeas : ∀ v, ¬ l1Feasible (L1Args.mk none none none none (some [0, 0]) (some [0, 1]) none none 1) 1 v := by
    intro v hv
    have h1 := hv.1 _ _ rfl rfl 0 0 0 rfl rfl
    have h2 := hv.1 _ _ rfl rfl 1 0 1 rfl rfl
    rw [h1] at h2
    exact zero_ne_one h2
  refine ⟨_, ok1, infeas, fun lib hl hlic => ?_, fun scs hs => ?_⟩
  · have hval : ∀ w, l1Feasible (L1Args.mk none none none none (some [0]) (some [1]) none none 1) 1 w ↔ w 0 = 1 := by
      intro w
      constructor
      · intro h; exact h.1 _ _ rfl rfl 0 0 1 rfl rfl
      · intro h
        refine ⟨?_, fun A b hA => by cases hA⟩
        rintro k y hk hy i j v hj hv
        cases hk; cases hy
        have hi : i = 0 := by
          have := (List.getElem?_eq_some_iff.mp hj).1
          simpa using this
        subst hi
        cases hj; cases hv
        exact h
    have e : ∀ v : ℕ → ℝ, l1Energy (L1Args.mk none none none none (some [0]) (some [1]) none none 1) 1 v = |v 0| := by
      intro v
      simp [l1Energy, gRows, gTimes, l1Quad, l1Lin, Real.sqrt_sq_eq_abs]
    obtain ⟨u, hu⟩ := C97_mosek_returns hl hlic ok2 (fun k h => by cases h; simp) (fun Q h => by cases h) (fun Q h => by cases h) (v := fun _ => 1) ((hval _).mpr rfl)
      (fun w hw => by rw [e, e, (hval w).mp hw])
    refine ⟨u, ?_⟩
    have ht : l1Task (L1Args.mk none none none none (some [0, 0]) (some [0, 1]) none none 1) 1 none = l1Task (L1Args.mk none none none none (some [0]) (some [1]) none none 1) 1 none := by
      simp [l1Task, moTask]
    unfold minL1Mosek at hu ⊢
    rw [moData_ok ok2 (Lt := none) rfl (by simp)] at hu
    rw [moData_ok ok1 (Lt := none) rfl (by simp), ht]
    exact hu
  · by_contra hc
    obtain ⟨u, hu⟩ := Option.ne_none_iff_exists'.mp hc
    obtain ⟨n, hok, _, hf, _⟩ := C97_optimal hs hu
    have : n = 1 := Option.some.inj (hok.infer.symm.trans ok1.infer)
    subst this
    exact infeas _ hf

/-- the contract can be met, with a factorisation of the matrices that have one -/
example : ∃ lib, IsMosek lib ∧ lib.licensed = true := by
  classical
  refine ⟨⟨true, fun Q => if h : ∃ Lt : Mat, Lt.ncols = Q.ncols ∧ ∀ u : ℕ → ℝ, ∑ t ∈ range Lt.nrows, (∑ i ∈ range Q.ncols, Lt.get t i * u i) ^ 2 = ∑ i ∈ range Q.ncols, ∑ j ∈ range Q.ncols, u i * Q.get i j * u j
      then some h.choose else none, fun D => if h : ∃ x, D.Optimal x then some h.choose else none⟩, ⟨fun D x hx => ?_, fun D x hx => ⟨_, dif_pos ⟨x, hx⟩⟩, fun Q Lt hQ _ => ?_⟩, rfl⟩
  · by_cases h : ∃ x, D.Optimal x
    · simp only [dif_pos h, Option.some.injEq] at hx
      rw [← hx]; exact h.choose_spec
    · simp only [dif_neg h] at hx; cases hx
  · by_cases h : ∃ Lt : Mat, Lt.ncols = Q.ncols ∧ ∀ u : ℕ → ℝ, ∑ t ∈ range Lt.nrows, (∑ i ∈ range Q.ncols, Lt.get t i * u i) ^ 2 = ∑ i ∈ range Q.ncols, ∑ j ∈ range Q.ncols, u i * Q.get i j * u j
    · simp only [dif_pos h, Option.some.injEq] at hQ
      rw [← hQ]; exact h.choose_spec
    · simp only [dif_neg h] at hQ; cases hQ

/-- the hypotheses are met by the example of the documentation: `A = [1 2]`, `b = [1]`, solved by `[0, 1/2]` -/
example : ∃ a : L1Args, a.Ok 2 ∧ (∀ k, a.k = some k → k.Nodup) ∧ (∀ Q, a.Q = some Q → ∀ i j, Q.get i j = Q.get j i) ∧
    ∃ v, l1Feasible a 2 v ∧ ∀ w, l1Feasible a 2 w → l1Energy a 2 v ≤ l1Energy a 2 w := by
  refine ⟨L1Args.mk none none none none none none (some ⟨1, 2, fun _ j => (j : ℝ) + 1⟩) (some [1]) 1, ?_, fun k h => (by cases h), fun Q h => (by cases h), fun i => if i = 1 then 1 / 2 else 0, ?_, ?_⟩
  · refine ⟨rfl, le_refl _, ?_, one_dvd _, ?_, ?_, ?_, Or.inl ⟨rfl, rfl⟩, Or.inr ⟨_, _, rfl, rfl, rfl, rfl⟩⟩ <;> intro _ h <;> cases h
  · refine ⟨fun k y h => by (intro h2; cases h2), ?_⟩
    rintro A b hA hb r v hv
    cases hA
    cases hb
    have hr : r = 0 := by
      have := (List.getElem?_eq_some_iff.mp hv).1
      simpa using this
    subst hr
    cases hv
    norm_num [sum_range_succ]
  · intro w hw
    have h1 := hw.2 _ _ rfl rfl 0 1 rfl
    norm_num [sum_range_succ] at h1
    have e : ∀ v : ℕ → ℝ, l1Energy (L1Args.mk none none none none none none (some ⟨1, 2, fun _ j => (j : ℝ) + 1⟩) (some [1]) 1) 2 v = |v 0| + |v 1| := by
      intro v
      simp [l1Energy, gRows, gTimes, l1Quad, l1Lin, sum_range_succ, Real.sqrt_sq_eq_abs]
    rw [e, e]
    norm_num
    rcases abs_cases (w 0) with ⟨p, _⟩ | ⟨p, _⟩ <;> rcases abs_cases (w 1) with ⟨q, _⟩ | ⟨q, _⟩ <;> rw [p, q] <;> linarith

end
end Gpy
