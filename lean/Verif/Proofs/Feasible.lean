import Verif.Model.Feasible
import Verif.Proofs.SphereTree
import Verif.Proofs.Resolve
import Mathlib.Data.List.Sort

/-!
# Locally feasible points: proofs
-/

set_option autoImplicit false
namespace Gpy.Arcs
open Classical

variable {d : ℕ}

section
variable (U : ℕ → Pt d) (S : ℕ → ℝ) (near : Pt d → Pt d) (sort : List ℕ → List ℕ) (t : Tree d) (nS iters : Int) (tol clamp : ℝ)

theorem spheres_prims (x : Pt d) (k : Int) (hk : 1 ≤ k) (q : ℝ) (i : ℕ) (a b : List ℕ) : spheresContaining t x k q i a = spheresContaining t x k q i b := by
  unfold spheresContaining
  rw [if_neg (by omega), if_neg (by omega)]

theorem search_prims (i m : ℕ) (a b : List ℕ) (x : Pt d) :
    (search U S sort t nS tol i m a x).1 = (search U S sort t nS tol i m b x).1 ∧ (search U S sort t nS tol i m a x).2.1 = (search U S sort t nS tol i m b x).2.1 := by
  cases m with
  | zero => simp [search]
  | succ m => rw [search, search, spheres_prims t x 1 le_rfl (-tol) i a b]; exact ⟨rfl, rfl⟩

/-- where the search starts -/
noncomputable def startPt [NeZero d] (i : ℕ) : Pt d := fun j => U i j + |S i| * direction (near (U i) - U i) j

/-- what one iteration computes -/
noncomputable def one [NeZero d] (i : ℕ) : Option (Pt d) :=
  if clamp ≤ |S i| then none
  else
    let r := search U S sort t nS tol i (iters + 1).toNat [] (startPt U S near i)
    if r.1 then some r.2.1 else none

theorem fold_spec [NeZero d] (sh : List ℕ) (hsh : sh.Nodup) (l : List (ℕ × ℕ)) (hl : (l.map Prod.fst).Nodup) (st : LState d)
    (h0 : ∀ p ∈ l.map Prod.fst, ∀ i, sh[p]? = some i → st.feas i = false) :
    let st' := l.foldl (fun st x => match sh[x.1]? with
      | some i => loopF U S near sort t nS iters tol clamp st i x.2
      | none => st) st
    ∀ i, (∀ p ∈ l.map Prod.fst, sh[p]? = some i → (st'.feas i = (one U S near sort t nS iters tol clamp i).isSome ∧ ∀ y, one U S near sort t nS iters tol clamp i = some y → st'.points i = y)) ∧
      ((¬ ∃ p ∈ l.map Prod.fst, sh[p]? = some i) → st'.feas i = st.feas i ∧ st'.points i = st.points i) := by
  induction l generalizing st with
  | nil => intro st' i; refine ⟨by simp, fun _ => ⟨rfl, rfl⟩⟩
  | cons x l ih =>
    intro st' i
    rw [List.map_cons, List.nodup_cons] at hl
    cases hx : sh[x.1]? with
    | none =>
      have e : st' = l.foldl (fun st x => match sh[x.1]? with
          | some i => loopF U S near sort t nS iters tol clamp st i x.2
          | none => st) st := by
        show List.foldl _ _ _ = _
        rw [List.foldl_cons, hx]
      have := ih hl.2 st (fun p hp i h => h0 p (by simp [hp]) i h) i
      rw [e]
      refine ⟨fun p hp h => ?_, fun h => this.2 (fun ⟨p, hp, h'⟩ => h ⟨p, by simp [hp], h'⟩)⟩
      rw [List.map_cons, List.mem_cons] at hp
      rcases hp with rfl | hp
      · rw [hx] at h; cases h
      · exact this.1 p hp h
    | some k =>
      have hk0 : st.feas k = false := h0 x.1 (by simp) k hx
      set st1 := loopF U S near sort t nS iters tol clamp st k x.2 with hst1
      have e : st' = l.foldl (fun st x => match sh[x.1]? with
          | some i => loopF U S near sort t nS iters tol clamp st i x.2
          | none => st) st1 := by
        show List.foldl _ _ _ = _
        rw [List.foldl_cons, hx]
      have hinj : ∀ p, sh[p]? = some k → p = x.1 := by
        intro p hp
        have hlt := (List.getElem?_eq_some_iff.mp hp).1
        exact (List.getElem?_inj hlt hsh).mp (by rw [hp, hx])
      have hk1 : st1.feas k = (one U S near sort t nS iters tol clamp k).isSome ∧ ∀ y, one U S near sort t nS iters tol clamp k = some y → st1.points k = y := by
        rw [hst1]
        unfold loopF one
        split
        · simp
        · dsimp only
          rw [hk0]
          obtain ⟨s1, s2⟩ := search_prims U S sort t nS tol k (iters + 1).toNat (st.prims x.2) [] (startPt U S near k)
          unfold startPt at s1 s2 ⊢
          simp only [Bool.false_eq_true, if_false, Function.update_self]
          rw [s1, s2]
          split
          · rename_i h; exact ⟨by rw [h]; rfl, fun y hy => Option.some.inj hy⟩
          · rename_i h; exact ⟨by rw [Bool.not_eq_true] at h; rw [h]; rfl, fun y hy => (by cases hy)⟩
      have hother : ∀ i, i ≠ k → st1.feas i = st.feas i ∧ st1.points i = st.points i := by
        intro i hi
        rw [hst1]
        unfold loopF
        split
        · simp [Function.update_of_ne hi]
        · simp [Function.update_of_ne hi]
      have := ih hl.2 st1 (by
        intro p hp i hpi
        have : i ≠ k := by
          rintro rfl
          exact hl.1 (hinj p hpi ▸ hp)
        rw [(hother i this).1]
        exact h0 p (by simp [hp]) i hpi) i
      rw [e]
      refine ⟨fun p hp h => ?_, fun h => ?_⟩
      · rw [List.map_cons, List.mem_cons] at hp
        rcases hp with rfl | hp
        · rw [hx] at h
          obtain rfl := Option.some.inj h
          have h2 := this.2 (fun ⟨p, hp, h'⟩ => hl.1 (hinj p h' ▸ hp))
          rw [h2.1, h2.2]
          exact hk1
        · exact this.1 p hp h
      · have hik : i ≠ k := fun hik => h ⟨x.1, by simp, by rw [hx, hik]⟩
        have h2 := this.2 (fun ⟨p, hp, h'⟩ => h ⟨p, by simp [hp], h'⟩)
        rw [h2.1, h2.2]
        exact hother i hik

/-- the output row of a point -/
noncomputable def rowOf [NeZero d] (i : ℕ) (x : Pt d) : Row d := ⟨x, if S i < 0 then direction (x - U i) else -direction (x - U i), i⟩

theorem rows_spec [NeZero d] (n : ℕ) (sh : List ℕ) (hsh : sh.Perm (List.range n)) (l : List (ℕ × ℕ)) (hl : (l.map Prod.fst).Perm (List.range n)) :
    rows U S n (l.foldl (fun st x => match sh[x.1]? with
      | some i => loopF U S near sort t nS iters tol clamp st i x.2
      | none => st) ⟨fun _ => 0, fun _ => false, fun _ => []⟩) = (List.range n).filterMap (fun i => (one U S near sort t nS iters tol clamp i).map (rowOf U S i)) := by
  have h := fold_spec U S near sort t nS iters tol clamp sh (hsh.nodup_iff.mpr List.nodup_range) l (hl.nodup_iff.mpr List.nodup_range) ⟨fun _ => 0, fun _ => false, fun _ => []⟩ (fun _ _ _ _ => rfl)
  dsimp only at h
  unfold rows
  rw [← List.filterMap_eq_map, List.filterMap_filter]
  refine List.filterMap_congr (fun i hi => ?_)
  have hi' : i ∈ sh := hsh.mem_iff.mpr hi
  obtain ⟨p, hp⟩ := List.getElem?_of_mem hi'
  have hlt := (List.getElem?_eq_some_iff.mp hp).1
  have hpm : p ∈ l.map Prod.fst := hl.mem_iff.mpr (List.mem_range.mpr (by rw [hsh.length_eq, List.length_range] at hlt; exact hlt))
  obtain ⟨h1, h2⟩ := (h i).1 p hpm hp
  rw [h1]
  cases ho : one U S near sort t nS iters tol clamp i with
  | none => rfl
  | some y =>
    show some (_ : Row d) = some (rowOf U S i y)
    unfold rowOf
    dsimp only
    rw [h2 y ho]

end

section
variable (U : ℕ → Pt d) (S : ℕ → ℝ) (sort : List ℕ → List ℕ) (nS : Int) (tol : ℝ)

/-- a successful search ends at a point that is in no other sphere of the batch; it has every property that the start and the points of the sphere have -/
theorem search_ok [NeZero d] (Q : Pt d → Prop) (hsort : ∀ l, (sort l).Perm l) (htol : 0 ≤ tol) (batch : List ℕ) (hb0 : batch ≠ []) (t : Tree d) (ht : build tol batch.length (batch.map (sphereOf U S)) = some t)
    (i : ℕ) (hQ : ∀ x, On x (U i) |S i| → Q x) (hcons : ∀ j ∈ batch, U j = U i → |S j| = |S i|) (m : ℕ) (prims : List ℕ) (x : Pt d) (hx : Q x) (h : (search U S sort t nS tol i m prims x).1 = true) :
    Q (search U S sort t nS tol i m prims x).2.1 ∧ ∀ j ∈ batch, j ≠ i → |S j| - tol ≤ pnorm ((search U S sort t nS tol i m prims x).2.1 - U j) := by
  induction m generalizing prims x with
  | zero => simp [search] at h
  | succ m ih =>
    rw [search] at h ⊢
    dsimp only at h ⊢
    have hB0 : batch.map (sphereOf U S) ≠ [] := by simpa using hb0
    obtain ⟨H, e1, e2⟩ := search_spec tol (-tol) (by linarith) (batch.map (sphereOf U S)) t batch.length hB0 (by simp) ht x 1 le_rfl i prims
    split at h
    · rename_i hempty
      rw [if_pos hempty]
      refine ⟨hx, fun j hj hji => ?_⟩
      rw [e2] at hempty
      have hH : H = [] := by
        cases H with
        | nil => rfl
        | cons a H => simp at hempty
      rw [hH] at e1
      have hh := e1.symm.eq_nil
      unfold hits at hh
      rw [List.map_eq_nil_iff, List.filter_eq_nil_iff] at hh
      have := hh (sphereOf U S j) (List.mem_map.mpr ⟨j, hj, rfl⟩)
      rw [decide_eq_true_eq] at this
      push Not at this
      have := this hji
      unfold sphereDist sphereOf at this
      dsimp only at this
      linarith
    · rename_i hne
      rw [if_neg hne]
      split at h
      · simp at h
      · rename_i hm
        rw [if_neg hm]
        refine ih _ _ ?_ h
        refine resolve_pred d Q hQ (abs_nonneg _) hx _ ?_
        intro e he
        obtain ⟨j, hj, rfl⟩ := List.mem_map.mp he
        refine ⟨abs_nonneg _, fun hc => ?_⟩
        rw [(hsort _).mem_iff] at hj
        have hjb : j ∈ batch := by
          by_cases hk : 1 ≤ nS
          · obtain ⟨H', f1, f2⟩ := search_spec tol tol le_rfl (batch.map (sphereOf U S)) t batch.length hB0 (by simp) ht x nS hk i (spheresContaining t x 1 (-tol) i prims)
            rw [f2] at hj
            have := f1.mem_iff.mp (List.mem_of_mem_take hj)
            unfold hits at this
            obtain ⟨s, hs, rfl⟩ := List.mem_map.mp this
            obtain ⟨hs, -⟩ := List.mem_filter.mp hs
            obtain ⟨j', hj', rfl⟩ := List.mem_map.mp hs
            exact hj'
          · unfold spheresContaining at hj
            rw [if_pos (by omega : nS < 1)] at hj
            change j ∈ spheresContaining t x 1 (-tol) i prims at hj
            rw [e2] at hj
            have := e1.mem_iff.mp (List.mem_of_mem_take hj)
            unfold hits at this
            obtain ⟨s, hs, rfl⟩ := List.mem_map.mp this
            obtain ⟨hs, -⟩ := List.mem_filter.mp hs
            obtain ⟨j', hj', rfl⟩ := List.mem_map.mp hs
            exact hj'
        exact hcons j hjb hc

/-- a point that is in no sphere of the batch is accepted at once -/
theorem search_start [NeZero d] (htol : 0 ≤ tol) (batch : List ℕ) (hb0 : batch ≠ []) (t : Tree d) (ht : build tol batch.length (batch.map (sphereOf U S)) = some t)
    (i : ℕ) (m : ℕ) (prims : List ℕ) (x : Pt d) (h : ∀ j ∈ batch, j ≠ i → |S j| - tol ≤ pnorm (x - U j)) :
    (search U S sort t nS tol i (m + 1) prims x).1 = true ∧ (search U S sort t nS tol i (m + 1) prims x).2.1 = x := by
  obtain ⟨H, e1, e2⟩ := search_spec tol (-tol) (by linarith) (batch.map (sphereOf U S)) t batch.length (by simpa using hb0) (by simp) ht x 1 le_rfl i prims
  have hh : hits (-tol) i x (batch.map (sphereOf U S)) = [] := by
    unfold hits
    rw [List.map_eq_nil_iff, List.filter_eq_nil_iff]
    intro s hs
    obtain ⟨j, hj, rfl⟩ := List.mem_map.mp hs
    rw [decide_eq_true_eq]
    rintro ⟨h1, h2⟩
    have := h j hj h1
    unfold sphereDist sphereOf at h2
    dsimp only at h2
    linarith
  rw [hh] at e1
  have : H = [] := e1.eq_nil
  rw [this] at e2
  rw [search, e2]
  simp

end

theorem psq_direction [NeZero d] (v : Pt d) : psq (direction v) = 1 := by
  unfold direction
  split
  · rename_i h
    have h0 : 0 < pnorm v := lt_trans (by unfold eps; norm_num) h
    rw [psq_div, pnorm_sq, div_self]
    rw [← pnorm_sq]; positivity
  · simp [psq]

theorem pnorm_neg (x : Pt d) : pnorm (-x) = pnorm x := by unfold pnorm psq; simp

theorem pnorm_direction [NeZero d] (v : Pt d) : pnorm (direction v) = 1 := by unfold pnorm; rw [psq_direction]; exact Real.sqrt_one

theorem on_start [NeZero d] (U : ℕ → Pt d) (S : ℕ → ℝ) (near : Pt d → Pt d) (i : ℕ) : On (startPt U S near i) (U i) |S i| := on_add (abs_nonneg _) (psq_direction _)

end Gpy.Arcs
