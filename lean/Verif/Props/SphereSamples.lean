import Verif.Model.SphereSamples
import Verif.Props.SampleSdf
import Mathlib.Data.List.Basic
import Mathlib.Data.List.Range
import Mathlib.Analysis.SpecialFunctions.Pow.NNReal
import Mathlib.Tactic.Linarith

/-!
# C142: the samples an iteration of `reach_for_the_spheres` looks at
-/

set_option autoImplicit false
namespace Gpy.SphereSamples
open Gpy.SampleSdf

noncomputable section
open Classical

variable {d : ℕ}

/-! ## Specification -/

/-- contract of `rng.choice(n,bs,replace=False)`: `bs` different numbers below `n` -/
def ChoiceOk (n : ℕ) (bs : ℤ) (inds : List ℕ) : Prop := inds.Nodup ∧ (inds.length : ℤ) = bs ∧ ∀ i ∈ inds, i < n

/-- the iteration works with the samples number `L` and their values -/
def Uses (s : Samples d) (L : List ℕ) : Prop := (∀ i ∈ L, i < s.U.length) ∧ s.Ub = L.map (fun i => s.U.getD i 0) ∧ s.Sb = L.map (fun i => s.S.getD i 0)

/-- the events in which new samples are added -/
def added (es : List (Event d)) : List (List (Pt d) × List ℕ × ℕ) := es.filterMap (fun e => e.new)

/-- every trial point has a face -/
def TrialsOk (es : List (Event d)) : Prop := ∀ t ∈ added es, t.2.1.length = t.1.length

/-! ## Proofs -/

theorem batch_U (bs : ℤ) (inds : List ℕ) (s : Samples d) : (batch bs inds s).U = s.U ∧ (batch bs inds s).S = s.S := by
  unfold batch; split <;> simp

theorem resample_spec {order : List ℝ → List ℕ} {sdf : Pt d → ℝ} {P : List (Pt d)} {I : List ℕ} {newN : ℕ} {s r : Samples d} (h : resample order sdf P I newN s = some r) :
    sampleSdf order sdf s.U P I newN (2 * s.U.length) true (some (List.range s.U.length)) = some r.U ∧ r.S = r.U.map sdf ∧ r.Ub = r.U ∧ r.Sb = r.S := by
  unfold resample at h
  simp only [Option.map_eq_some_iff] at h
  obtain ⟨U, h1, rfl⟩ := h
  exact ⟨h1, rfl, rfl, rfl⟩

/-- the number of samples does not decrease -/
theorem resample_length {order : List ℝ → List ℕ} (ho : Sorts order) {sdf : Pt d → ℝ} {P : List (Pt d)} {I : List ℕ} {newN : ℕ} {U0 U : List (Pt d)} (hI : I.length = P.length)
    (h : sampleSdf order sdf U0 P I newN (2 * U0.length) true (some (List.range U0.length)) = some U) :
    U0.length ≤ U.length ∧ U.length ≤ 2 * U0.length ∧ U.length ≤ U0.length + newN ∧ (newN ≤ U0.length → U0 <+: U) := by
  obtain ⟨c, hc1, -, hc3, -⟩ := C113_new order ho (fun i => (vdf sdf U0 (P.getD i 0)).getD 0) U0 P I hI newN
  have hlen : (extend order (fun i => (vdf sdf U0 (P.getD i 0)).getD 0) U0 P I newN).length = U0.length + min newN I.dedup.length := by
    rw [hc1, List.length_append, List.length_map, hc3]
  obtain ⟨l1, l2⟩ := C113_limit order sdf U0 P I newN (2 * U0.length) true _ U h
  by_cases hlong : (extend order (fun i => (vdf sdf U0 (P.getD i 0)).getD 0) U0 P I newN).length ≤ 2 * U0.length
  · have hp := l2 (Or.inr hlong)
    have hU : U = extend order (fun i => (vdf sdf U0 (P.getD i 0)).getD 0) U0 P I newN := by
      unfold sampleSdf at h
      split at h
      · simp at h
      split at h
      · simp at h
      dsimp only at h
      rw [if_pos hlong] at h
      exact (Option.some.inj h).symm
    have := hp.length_le
    refine ⟨this, l1, ?_, fun _ => hp⟩
    rw [hU, hlen]; omega
  · obtain ⟨stay, e, -, e3, -⟩ := C113_removal order sdf U0 P I newN (2 * U0.length) ho _ U h _ rfl (not_le.mp hlong)
    have hUl : U.length = 2 * U0.length := by rw [e, List.length_map, e3]
    refine ⟨by omega, l1, by omega, fun hn => absurd hlong ?_⟩
    simp only [not_not]
    omega

/-- what holds after every iteration -/
structure Inv (bs : ℤ) (s : Samples d) : Prop where
  len : s.S.length = s.U.length
  full : (0 < bs ∧ bs < s.U.length) ∨ (s.Ub = s.U ∧ s.Sb = s.S)

theorem round_inv {order : List ℝ → List ℕ} {sdf : Pt d → ℝ} {bs : ℤ} {s b r : Samples d} {e : Event d} (hs : Inv bs s) (h : round order sdf bs s e = some (b, r)) :
    Inv bs r ∧ b = batch bs e.inds s := by
  have hb : Inv bs (batch bs e.inds s) := by
    obtain ⟨h1, h2⟩ := batch_U bs e.inds s
    refine ⟨by rw [h1, h2]; exact hs.len, ?_⟩
    rw [h1, h2]
    by_cases hc : 0 < bs ∧ bs < s.U.length
    · exact Or.inl hc
    · right
      unfold batch; rw [if_neg hc]
      exact hs.full.resolve_left hc
  unfold round at h
  rcases he : e.new with _ | ⟨P, I, newN⟩
  · simp only [he, Option.some.injEq, Prod.mk.injEq] at h
    obtain ⟨rfl, rfl⟩ := h
    exact ⟨hb, rfl⟩
  · simp only [he, Option.map_eq_some_iff, Prod.mk.injEq] at h
    obtain ⟨q, h1, rfl, rfl⟩ := h
    obtain ⟨-, h3, h4, h5⟩ := resample_spec h1
    exact ⟨⟨by rw [h3]; simp, Or.inr ⟨h4, h5⟩⟩, rfl⟩

theorem history_inv {order : List ℝ → List ℕ} {sdf : Pt d → ℝ} {bs : ℤ} (es : List (Event d)) : ∀ {s t : Samples d}, Inv bs s → history order sdf bs s es = some t → Inv bs t := by
  induction es with
  | nil => intro s t hs h; simp only [history, Option.some.injEq] at h; exact h ▸ hs
  | cons e l ih =>
    intro s t hs h
    simp only [history, Option.bind_eq_some_iff] at h
    obtain ⟨⟨b, r⟩, h1, h2⟩ := h
    exact ih (round_inv hs h1).1 h2

theorem start_inv (sdf : Pt d → ℝ) (U : List (Pt d)) (S : Option (List ℝ)) (hS : ∀ T, S = some T → T.length = U.length) (bs : ℤ) : Inv bs (start sdf U S) := by
  refine ⟨?_, Or.inr ⟨rfl, rfl⟩⟩
  unfold start
  cases S with
  | none => simp
  | some T => simpa using hS T rfl

theorem filter_zip (U : List (Pt d)) : ∀ (S : List ℝ), S.length = U.length →
    ((U.zip S).filter (fun p => p.2 ≤ 0)).map (·.1) = ((List.range U.length).filter (fun i => S.getD i 0 ≤ 0)).map (fun i => U.getD i 0) ∧
    S.filter (fun x => x ≤ 0) = ((List.range U.length).filter (fun i => S.getD i 0 ≤ 0)).map (fun i => S.getD i 0) := by
  induction U with
  | nil => intro S h; have : S = [] := List.length_eq_zero_iff.mp (by simpa using h); subst this; simp
  | cons u U ih =>
    intro S h
    cases S with
    | nil => simp at h
    | cons x S =>
      obtain ⟨h1, h2⟩ := ih S (by simpa using h)
      have e : (List.range (u :: U).length) = 0 :: (List.range U.length).map Nat.succ := by rw [List.length_cons, List.range_succ_eq_map]
      rw [e]
      have key : ((List.range U.length).map Nat.succ).filter (fun i => decide ((x :: S).getD i 0 ≤ 0)) = ((List.range U.length).filter (fun i => decide (S.getD i 0 ≤ 0))).map Nat.succ := by
        rw [List.filter_map]; rfl
      rw [List.filter_cons, key]
      simp only [List.zip_cons_cons, List.filter_cons, List.getD_cons_zero]
      by_cases hx : x ≤ 0
      · simp only [hx, decide_true, if_true, List.map_cons, List.map_map]
        refine ⟨?_, ?_⟩
        · rw [h1]; simp [Function.comp_def]
        · rw [h2]; simp [Function.comp_def]
      · simp only [hx, decide_false, Bool.false_eq_true, if_false, List.map_map]
        refine ⟨?_, ?_⟩
        · rw [h1]; simp [Function.comp_def]
        · rw [h2]; simp [Function.comp_def]

theorem range_getD {α : Type} (l : List α) (x : α) : (List.range l.length).map (fun i => l.getD i x) = l := by
  apply List.ext_getElem
  · simp
  · intro i h1 h2
    simp [List.getD_eq_getElem?_getD, List.getElem?_eq_getElem h2]

/-! ## Theorems -/

/-- **C142**, batch: in every iteration, after any history, the flow works with samples and their values: all of them if `batch_size` is not positive or not below the number of samples;
otherwise `batch_size` different ones, followed by all samples that are not outside.  So no sample with a value of zero or less is ever left out (and one of them may count twice). -/
theorem C142_batch (order : List ℝ → List ℕ) (sdf : Pt d → ℝ) (bs : ℤ) (U : List (Pt d)) (S : Option (List ℝ)) (hS : ∀ T, S = some T → T.length = U.length) (es : List (Event d)) (s b r : Samples d) (e : Event d)
    (h : history order sdf bs (start sdf U S) es = some s) (hr : round order sdf bs s e = some (b, r)) (hc : 0 < bs → bs < s.U.length → ChoiceOk s.U.length bs e.inds) :
    b.U = s.U ∧ b.S = s.S ∧ b.S.length = b.U.length ∧ ∃ L, Uses b L ∧ (∀ i < b.U.length, b.S.getD i 0 ≤ 0 → i ∈ L) ∧ ((bs ≤ 0 ∨ b.U.length ≤ bs) → L = List.range b.U.length) ∧
      (0 < bs → bs < b.U.length → ∃ C, ChoiceOk b.U.length bs C ∧ L = C ++ (List.range b.U.length).filter (fun i => b.S.getD i 0 ≤ 0)) := by
  have hs := history_inv es (start_inv sdf U S hS bs) h
  obtain ⟨-, hb⟩ := round_inv hs hr
  obtain ⟨hU, hSb⟩ := batch_U bs e.inds s
  subst hb
  refine ⟨hU, hSb, by rw [hU, hSb]; exact hs.len, ?_⟩
  by_cases hcase : 0 < bs ∧ bs < s.U.length
  · have hch := hc hcase.1 hcase.2
    obtain ⟨f1, f2⟩ := filter_zip s.U s.S hs.len
    refine ⟨e.inds ++ (List.range s.U.length).filter (fun i => s.S.getD i 0 ≤ 0), ⟨?_, ?_, ?_⟩, ?_, ?_, ?_⟩
    · intro i hi
      rw [hU]
      rcases List.mem_append.mp hi with hi | hi
      · exact hch.2.2 i hi
      · exact List.mem_range.mp (List.mem_filter.mp hi).1
    · rw [hU]; unfold batch; rw [if_pos hcase, List.map_append]; simp only; rw [f1]
    · rw [hSb]; unfold batch; rw [if_pos hcase, List.map_append]; simp only; rw [f2]
    · intro i hi hv
      rw [hU] at hi; rw [hSb] at hv
      apply List.mem_append_right
      rw [List.mem_filter]
      exact ⟨List.mem_range.mpr hi, by simpa using hv⟩
    · intro hne
      rw [hU] at hne
      omega
    · intro _ _
      rw [hU, hSb]
      exact ⟨e.inds, hch, rfl⟩
  · obtain ⟨g1, g2⟩ := hs.full.resolve_left hcase
    have e0 : batch bs e.inds s = s := by unfold batch; rw [if_neg hcase]
    rw [e0]
    refine ⟨List.range s.U.length, ⟨fun i hi => List.mem_range.mp hi, ?_, ?_⟩, fun i hi _ => List.mem_range.mpr hi, fun _ => rfl, fun a c => absurd ⟨a, c⟩ hcase⟩
    · rw [g1, range_getD]
    · rw [g2, ← hs.len, range_getD]

/-- **C142**, values: without given values every sample has the value of the function, after any history; given values are replaced by those of the function once there was resampling -/
theorem C142_values (order : List ℝ → List ℕ) (sdf : Pt d → ℝ) (bs : ℤ) (U : List (Pt d)) (S : Option (List ℝ)) (es : List (Event d)) (s : Samples d)
    (h : history order sdf bs (start sdf U S) es = some s) : (S = none ∨ added es ≠ [] → s.S = s.U.map sdf) ∧ (added es = [] → s.U = U ∧ ∀ T, S = some T → s.S = T) := by
  have key : ∀ (es : List (Event d)) (a s : Samples d), history order sdf bs a es = some s → (a.S = a.U.map sdf ∨ added es ≠ [] → s.S = s.U.map sdf) ∧ (added es = [] → s.U = a.U ∧ s.S = a.S) := by
    intro es
    induction es with
    | nil =>
      intro a s h
      simp only [history, Option.some.injEq] at h
      subst h
      exact ⟨fun h => h.resolve_right (by simp [added]), fun _ => ⟨rfl, rfl⟩⟩
    | cons e l ih =>
      intro a s h
      simp only [history, Option.bind_eq_some_iff] at h
      obtain ⟨⟨b, r⟩, h1, h2⟩ := h
      obtain ⟨i1, i2⟩ := ih r s h2
      unfold round at h1
      obtain ⟨hU, hS⟩ := batch_U bs e.inds a
      rcases he : e.new with _ | ⟨P, I, newN⟩
      · simp only [he, Option.some.injEq, Prod.mk.injEq] at h1
        obtain ⟨rfl, rfl⟩ := h1
        have ea : added (e :: l) = added l := by simp [added, he]
        rw [ea]
        rw [hU, hS] at i1 i2
        exact ⟨i1, i2⟩
      · simp only [he, Option.map_eq_some_iff, Prod.mk.injEq] at h1
        obtain ⟨q, h1, rfl, rfl⟩ := h1
        obtain ⟨-, h3, -, -⟩ := resample_spec h1
        have ea : added (e :: l) ≠ [] := by simp [added, he]
        exact ⟨fun _ => i1 (Or.inl h3), fun h => absurd h ea⟩
  obtain ⟨k1, k2⟩ := key es _ s h
  refine ⟨fun hh => k1 ?_, fun hh => ?_⟩
  · rcases hh with rfl | hh
    · exact Or.inl rfl
    · exact Or.inr hh
  · obtain ⟨a, b⟩ := k2 hh
    refine ⟨a, ?_⟩
    rintro T rfl
    exact b

/-- **C142**, the given samples stay: over any history the samples grow by at most the number asked for each time, and at most double each time; if no more are asked for than there were at the start, the given samples stay in front;
and in any case they stay if the function is not zero at a trial point -/
theorem C142_kept (order : List ℝ → List ℕ) (ho : Sorts order) (sdf : Pt d → ℝ) (bs : ℤ) (U : List (Pt d)) (S : Option (List ℝ)) (es : List (Event d)) (s : Samples d) (ht : TrialsOk es)
    (h : history order sdf bs (start sdf U S) es = some s) :
    U.length ≤ s.U.length ∧ s.U.length ≤ U.length * 2 ^ (added es).length ∧ s.U.length ≤ U.length + ((added es).map (fun t => t.2.2)).sum ∧
      ((∀ t ∈ added es, t.2.2 ≤ U.length) → U <+: s.U) ∧ ((∀ t ∈ added es, ∀ p ∈ t.1, sdf p ≠ 0) → ∀ u ∈ U, u ∈ s.U) := by
  have key : ∀ (es : List (Event d)) (a s : Samples d), TrialsOk es → history order sdf bs a es = some s →
      a.U.length ≤ s.U.length ∧ s.U.length ≤ a.U.length * 2 ^ (added es).length ∧ s.U.length ≤ a.U.length + ((added es).map (fun t => t.2.2)).sum ∧
      ((∀ t ∈ added es, t.2.2 ≤ a.U.length) → a.U <+: s.U) ∧ ((∀ t ∈ added es, ∀ p ∈ t.1, sdf p ≠ 0) → ∀ u ∈ a.U, u ∈ s.U) := by
    intro es
    induction es with
    | nil =>
      intro a s _ h
      simp only [history, Option.some.injEq] at h
      subst h
      simp [added]
    | cons e l ih =>
      intro a s ht h
      simp only [history, Option.bind_eq_some_iff] at h
      obtain ⟨⟨b, r⟩, h1, h2⟩ := h
      unfold round at h1
      obtain ⟨hU, hS⟩ := batch_U bs e.inds a
      rcases he : e.new with _ | ⟨P, I, newN⟩
      · simp only [he, Option.some.injEq, Prod.mk.injEq] at h1
        obtain ⟨rfl, rfl⟩ := h1
        have ea : added (e :: l) = added l := by simp [added, he]
        have := ih _ s (by unfold TrialsOk at ht ⊢; rwa [ea] at ht) h2
        rw [ea]
        rwa [hU] at this
      · simp only [he, Option.map_eq_some_iff, Prod.mk.injEq] at h1
        obtain ⟨q, h1, rfl, rfl⟩ := h1
        obtain ⟨h3, -, -, -⟩ := resample_spec h1
        rw [hU] at h3
        have ea : added (e :: l) = (P, I, newN) :: added l := by simp [added, he]
        unfold TrialsOk at ht
        rw [ea] at ht ⊢
        have hI : I.length = P.length := ht _ (List.mem_cons_self ..)
        obtain ⟨g1, g2, g3, g4⟩ := resample_length ho hI h3
        obtain ⟨j1, j2, j3, j4, j5⟩ := ih q s (fun t h => ht t (List.mem_cons_of_mem _ h)) h2
        refine ⟨le_trans g1 j1, ?_, ?_, ?_, ?_⟩
        · rw [List.length_cons, pow_succ]
          calc s.U.length ≤ q.U.length * 2 ^ (added l).length := j2
            _ ≤ 2 * a.U.length * 2 ^ (added l).length := Nat.mul_le_mul_right _ g2
            _ = _ := by ring
        · have e : (((P, I, newN) :: added l).map (fun t => t.2.2)).sum = newN + ((added l).map (fun t => t.2.2)).sum := by rw [List.map_cons, List.sum_cons]
          rw [e]; omega
        · intro hroom
          exact (g4 (hroom _ (List.mem_cons_self ..))).trans (j4 (fun t h => le_trans (hroom t (List.mem_cons_of_mem _ h)) g1))
        · intro hz u hu
          exact j5 (fun t h => hz t (List.mem_cons_of_mem _ h)) u (C113_old_stay order sdf a.U P I newN (2 * a.U.length) ho q.U h3 (by omega) (hz _ (List.mem_cons_self ..)) hI u hu)
  exact key es _ s ht h

/-- **C142**, room: with the default number of new samples and at least six samples there is always room for the old ones (in the plane and in space) -/
theorem C142_default (n dim : ℕ) (hn : 6 ≤ n) (hd : dim = 2 ∨ dim = 3) : defaultNew n dim ≤ n := by
  obtain ⟨k, hk⟩ : ∃ k, n = 2 * k ∨ n = 2 * k + 1 := ⟨n / 2, by omega⟩
  have h3 : 3 ≤ k := by omega
  have h2 : n ≤ k ^ 2 := by
    have : n ≤ 2 * k + 1 := by omega
    nlinarith
  rcases hd with rfl | rfl
  · have : ⌈Real.sqrt n⌉₊ ≤ k := by
      rw [Nat.ceil_le]
      apply Real.sqrt_le_iff.mpr
      exact ⟨by positivity, by exact_mod_cast h2⟩
    show 2 * ⌈Real.sqrt n⌉₊ ≤ n
    omega
  · have : ⌈(n : ℝ) ^ (1 / 3 : ℝ)⌉₊ ≤ k := by
      rw [Nat.ceil_le]
      have hk0 : (0 : ℝ) ≤ k := by positivity
      have e : ((k : ℝ) ^ (3 : ℝ)) ^ (1 / 3 : ℝ) = k := by
        rw [← Real.rpow_mul hk0]; norm_num
      rw [← e]
      apply Real.rpow_le_rpow (by positivity) _ (by norm_num)
      have h4 : n ≤ k ^ 3 := le_trans h2 (Nat.pow_le_pow_right (by omega) (by norm_num))
      have : ((k : ℝ) ^ (3 : ℝ)) = (k : ℝ) ^ 3 := by
        rw [← Real.rpow_natCast]; norm_num
      rw [this]
      exact_mod_cast h4
    show 2 * ⌈(n : ℝ) ^ (1 / 3 : ℝ)⌉₊ ≤ n
    omega

/-- **C142**, smallest resolution: the default lies between 0.001 and 0.1, and is twice the mean distance of samples next to each other if that is in this range -/
theorem C142_min_h (nn : List ℝ) : 1 / 1000 ≤ defaultMinH nn ∧ defaultMinH nn ≤ 1 / 10 ∧
    (∀ m, m = nn.sum / nn.length → 1 / 1000 ≤ 2 * m → 2 * m ≤ 1 / 10 → defaultMinH nn = 2 * m) := by
  refine ⟨?_, ?_, ?_⟩
  · exact le_min (le_max_right _ _) (by norm_num)
  · exact min_le_right _ _
  · rintro m rfl h1 h2
    unfold defaultMinH
    rw [max_eq_left h1, min_eq_left h2]

/-- **C142**, invalid faces: in increasing order, without repetition, the faces that are closest to a sample whose distance to the mesh is off by the tolerance or more -/
theorem C142_invalid (tol : ℝ) (g : List ℝ) (I : List ℕ) (f : ℕ) :
    (invalidFaces tol g I).Pairwise (· < ·) ∧ (f ∈ invalidFaces tol g I ↔ ∃ (k : ℕ) (x : ℝ), g[k]? = some x ∧ I[k]? = some f ∧ tol ≤ |x|) := by
  unfold invalidFaces
  set l := ((g.zip I).filter (fun p => decide (¬ |p.1| < tol))).map (·.2) with hl
  refine ⟨?_, ?_⟩
  · have h1 : (l.dedup.mergeSort (· ≤ ·)).Pairwise (fun a b => decide (a ≤ b) = true) := List.pairwise_mergeSort (by intro a b c; simp; omega) (by intro a b; simp; omega) _
    have h2 : (l.dedup.mergeSort (· ≤ ·)).Nodup := (List.mergeSort_perm _ _).nodup_iff.mpr l.nodup_dedup
    exact (h1.and h2).imp (fun h => by simp at h; omega)
  · rw [List.mem_mergeSort, List.mem_dedup, hl, List.mem_map]
    constructor
    · rintro ⟨⟨x, y⟩, h, rfl⟩
      rw [List.mem_filter, List.mem_iff_getElem?] at h
      obtain ⟨⟨k, hk⟩, h2⟩ := h
      rw [List.getElem?_zip_eq_some] at hk
      exact ⟨k, x, hk.1, hk.2, by simpa using h2⟩
    · rintro ⟨k, x, h1, h2, h3⟩
      refine ⟨(x, f), ?_, rfl⟩
      rw [List.mem_filter]
      refine ⟨List.mem_iff_getElem?.mpr ⟨k, List.getElem?_zip_eq_some.mpr ⟨h1, h2⟩⟩, by simpa using h3⟩

/-- **C142**, feature vertices, which remeshing leaves alone: with `feature_detection='aggressive'` the vertices that are corners of no invalid face, otherwise those that are corners of a valid face; so the first choice has no
vertex that the second has not, provided every vertex is a corner of a face.  In increasing order, without repetition. -/
theorem C142_features (n : ℕ) (F : List (List ℕ)) (Finv : List ℕ) (hI : ∀ f ∈ Finv, f < F.length) :
    (∀ v, v ∈ features true n F Finv ↔ v < n ∧ ∀ f ∈ Finv, ∀ t, F[f]? = some t → v ∉ t) ∧
    (∀ v, v ∈ features false n F Finv ↔ ∃ (f : ℕ) (t : List ℕ), F[f]? = some t ∧ f ∉ Finv ∧ v ∈ t) ∧
    (∀ b, (features b n F Finv).Pairwise (· < ·)) ∧
    ((∀ v < n, ∃ t ∈ F, v ∈ t) → ∀ v ∈ features true n F Finv, v ∈ features false n F Finv) := by
  have h1 : ∀ v, v ∈ features true n F Finv ↔ v < n ∧ ∀ f ∈ Finv, ∀ t, F[f]? = some t → v ∉ t := by
    intro v
    simp only [features, if_true, List.mem_filter, List.mem_range, List.mem_flatMap, decide_eq_true_eq, not_exists, not_and]
    refine and_congr_right (fun _ => forall₂_congr (fun f hf => ?_))
    have hlt := hI f hf
    rw [List.getD_eq_getElem?_getD, List.getElem?_eq_getElem hlt]
    simp
  have h2 : ∀ v, v ∈ features false n F Finv ↔ ∃ (f : ℕ) (t : List ℕ), F[f]? = some t ∧ f ∉ Finv ∧ v ∈ t := by
    intro v
    simp only [features, Bool.false_eq_true, if_false, List.mem_mergeSort, List.mem_dedup, List.mem_flatMap, List.mem_filter, List.mem_range, decide_eq_true_eq]
    constructor
    · rintro ⟨f, ⟨hf, hn⟩, hv⟩
      rw [List.getD_eq_getElem?_getD, List.getElem?_eq_getElem hf] at hv
      exact ⟨f, F[f], List.getElem?_eq_getElem hf, hn, by simpa using hv⟩
    · rintro ⟨f, t, hf, hn, hv⟩
      obtain ⟨hlt, -⟩ := List.getElem?_eq_some_iff.mp hf
      exact ⟨f, ⟨hlt, hn⟩, by rw [List.getD_eq_getElem?_getD, hf]; simpa using hv⟩
  refine ⟨h1, h2, ?_, ?_⟩
  · intro b
    cases b with
    | true =>
      simp only [features, if_true]
      exact List.Pairwise.filter _ List.pairwise_lt_range
    | false =>
      simp only [features, Bool.false_eq_true, if_false]
      generalize ((List.range F.length).filter (fun f => decide (f ∉ Finv))).flatMap (fun f => F.getD f []) = l
      have h1 : (l.dedup.mergeSort (· ≤ ·)).Pairwise (fun a b => decide (a ≤ b) = true) := List.pairwise_mergeSort (by intro a b c; simp; omega) (by intro a b; simp; omega) _
      have h2 : (l.dedup.mergeSort (· ≤ ·)).Nodup := (List.mergeSort_perm _ _).nodup_iff.mpr l.nodup_dedup
      exact (h1.and h2).imp (fun h => by simp at h; omega)
  · intro hall v hv
    obtain ⟨hn, ho⟩ := (h1 v).1 hv
    obtain ⟨t, ht, hvt⟩ := hall v hn
    obtain ⟨f, hf⟩ := List.mem_iff_getElem?.mp ht
    exact (h2 v).2 ⟨f, t, hf, fun hfi => ho f hfi t hf hvt, hvt⟩

/-- the hypotheses can be met: three samples on the line, batches of size one; the inside sample number 2 is always used, and sample 0 is drawn -/
example : history (fun _ => []) (fun x : Pt 1 => x 0) 1 (start (fun x : Pt 1 => x 0) [![1], ![2], ![-1]] none) [⟨[1], none⟩] ≠ none ∧ ChoiceOk 3 1 [0] ∧
    (batch 1 [0] (start (fun x : Pt 1 => x 0) [![1], ![2], ![-1]] none)).Sb = [1, -1] := by
  refine ⟨by simp [history, round], by simp [ChoiceOk], ?_⟩
  simp [batch, start]

end

end Gpy.SphereSamples
