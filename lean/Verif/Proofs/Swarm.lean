import Verif.Model.Swarm

set_option autoImplicit false
namespace Gpy

variable {q : Prop} {n : ℕ} {f : Pt n → WithTop ℝ} {lb ub : Pt n}

/-- `q`: the current best may be unassigned -/
structure SwarmInv (q : Prop) (f : Pt n → WithTop ℝ) (lb ub : Pt n) (nP : ℕ) (s : Swarm n) : Prop where
  le_evals : ∀ y ∈ s.evals, s.curF ≤ f y
  le_best : ∀ i < nP, s.curF ≤ s.bestF i
  cur : (q ∧ s.curX = none ∧ s.curF = ⊤) ∨ ∃ x, s.curX = some x ∧ f x = s.curF ∧ x ∈ s.evals
  box : ∀ y ∈ s.evals, ∀ j, lb j ≤ y j ∧ y j ≤ ub j

/-- after the first `k` initial particles; `c` is the initial value of `curX` -/
structure InitInv (f : Pt n → WithTop ℝ) (x0 : ℕ → Pt n) (c : Option (Pt n)) (k : ℕ) (s : Swarm n) : Prop where
  x : s.x = x0
  evals : ∀ y, y ∈ s.evals ↔ ∃ i < k, y = x0 i
  len : s.evals.length = k
  best : ∀ i < k, s.bestF i = f (x0 i)
  le : ∀ i < k, s.curF ≤ f (x0 i)
  cur : (s.curX = c ∧ s.curF = ⊤) ∨ ∃ i < k, s.curX = some (x0 i) ∧ s.curF = f (x0 i)

theorem swarmInit_inv (x0 : ℕ → Pt n) (c : Option (Pt n)) (s0 : Swarm n) (h0 : InitInv f x0 c 0 s0) :
    ∀ k, InitInv f x0 c k ((List.range k).foldl (swarmInit f) s0) := by
  intro k
  induction k with
  | zero => exact h0
  | succ k ih =>
    rw [List.range_succ, List.foldl_append, List.foldl_cons, List.foldl_nil]
    generalize (List.range k).foldl (swarmInit f) s0 = s at ih
    unfold swarmInit
    simp only [ih.x]
    have ev : ∀ y, y ∈ x0 k :: s.evals ↔ ∃ i < k + 1, y = x0 i := by
      intro y
      rw [List.mem_cons, ih.evals]
      constructor
      · rintro (rfl | ⟨i, hi, rfl⟩)
        · exact ⟨k, by omega, rfl⟩
        · exact ⟨i, by omega, rfl⟩
      · rintro ⟨i, hi, rfl⟩
        by_cases h : i = k
        · left; rw [h]
        · right; exact ⟨i, by omega, rfl⟩
    have bs : ∀ i < k + 1, Function.update s.bestF k (f (x0 k)) i = f (x0 i) := by
      intro i hi
      by_cases h : i = k
      · subst h; simp
      · rw [Function.update_of_ne h]; exact ih.best i (by omega)
    split
    · rename_i hlt
      refine ⟨rfl, ev, by simp [ih.len], bs, ?_, Or.inr ⟨k, by omega, rfl, rfl⟩⟩
      intro i hi
      by_cases h : i = k
      · rw [h]
      · exact le_trans hlt.le (ih.le i (by omega))
    · rename_i hlt
      rw [not_lt] at hlt
      refine ⟨rfl, ev, by simp [ih.len], bs, ?_, ?_⟩
      · intro i hi
        by_cases h : i = k
        · rw [h]; exact hlt
        · exact ih.le i (by omega)
      · rcases ih.cur with h | ⟨i, hi, h⟩
        · exact Or.inl h
        · exact Or.inr ⟨i, by omega, h⟩

theorem clamp_box (h : ∀ j, lb j ≤ ub j) (x : Pt n) (j : Fin n) : lb j ≤ clampTo lb ub x j ∧ clampTo lb ub x j ≤ ub j := by
  unfold clampTo
  exact ⟨le_min (le_max_right _ _) (h j), min_le_right _ _⟩

theorem swarmStep_inv (hb : ∀ j, lb j ≤ ub j) {nP : ℕ} {momentum phi rp rg : ℝ} {nbr : Swarm n → ℕ → Option (Pt n)} {s : Swarm n} {i : ℕ}
    (hi : i < nP) (h : SwarmInv q f lb ub nP s) {best : Pt n} (hn : nbr s i = some best) :
    ∃ s', swarmStep f lb ub momentum phi nbr rp rg s i = some s' ∧ SwarmInv q f lb ub nP s' ∧ s'.evals.length = s.evals.length + 1 ∧
      s'.curF ≤ s.curF := by
  unfold swarmStep
  rw [hn]
  simp only [Option.bind_eq_bind, Option.bind_some]
  set x := clampTo lb ub (fun j => s.x i j + (momentum * s.v i j + phi * rp * (s.bestX i j - s.x i j) + phi * rg * (best j - s.x i j))) with hx
  have hbox : ∀ y ∈ x :: s.evals, ∀ j, lb j ≤ y j ∧ y j ≤ ub j := by
    intro y hy j
    rw [List.mem_cons] at hy
    rcases hy with rfl | hy
    · exact clamp_box hb _ j
    · exact h.box y hy j
  have curmem : ∀ {c : Option (Pt n)} {v : WithTop ℝ}, ((q ∧ c = none ∧ v = ⊤) ∨ ∃ y, c = some y ∧ f y = v ∧ y ∈ s.evals) →
      ((q ∧ c = none ∧ v = ⊤) ∨ ∃ y, c = some y ∧ f y = v ∧ y ∈ x :: s.evals) := by
    intro c v hc
    rcases hc with hc | ⟨y, a, b, c⟩
    · exact Or.inl hc
    · exact Or.inr ⟨y, a, b, List.mem_cons_of_mem _ c⟩
  split
  · rename_i hlt
    split
    · rename_i hlt2
      refine ⟨_, rfl, ⟨?_, ?_, Or.inr ⟨x, rfl, rfl, by simp⟩, hbox⟩, by simp, hlt2.le⟩
      · intro y hy
        rw [List.mem_cons] at hy
        rcases hy with rfl | hy
        · exact le_refl _
        · exact le_trans hlt2.le (h.le_evals y hy)
      · intro k hk
        simp only
        by_cases hki : k = i
        · subst hki; simp
        · rw [Function.update_of_ne hki]; exact le_trans hlt2.le (h.le_best k hk)
    · rename_i hlt2
      simp only [not_lt] at hlt2
      refine ⟨_, rfl, ⟨?_, ?_, curmem h.cur, hbox⟩, by simp, le_refl _⟩
      · intro y hy
        rw [List.mem_cons] at hy
        rcases hy with rfl | hy
        · exact hlt2
        · exact h.le_evals y hy
      · intro k hk
        simp only
        by_cases hki : k = i
        · subst hki; simpa using hlt2
        · rw [Function.update_of_ne hki]; exact h.le_best k hk
  · rename_i hlt
    rw [not_lt] at hlt
    refine ⟨_, rfl, ⟨?_, h.le_best, curmem h.cur, hbox⟩, by simp, le_refl _⟩
    intro y hy
    rw [List.mem_cons] at hy
    rcases hy with rfl | hy
    · exact le_trans (h.le_best i hi) hlt
    · exact h.le_evals y hy

theorem foldlM_inv {σ τ : Type} (step : σ → τ → Option σ) (R : ℕ → σ → Prop) (P : τ → Prop)
    (hs : ∀ k s t, P t → R k s → ∃ s', step s t = some s' ∧ R (k + 1) s') :
    ∀ (l : List τ) (k : ℕ) (s : σ), R k s → (∀ t ∈ l, P t) → ∃ s', l.foldlM step s = some s' ∧ R (k + l.length) s' := by
  intro l
  induction l with
  | nil => intro k s h _; exact ⟨s, rfl, h⟩
  | cons t l ih =>
    intro k s h hP
    obtain ⟨s1, e1, h1⟩ := hs k s t (hP t (by simp)) h
    obtain ⟨s2, e2, h2⟩ := ih (k + 1) s1 h1 (fun t ht => hP t (by simp [ht]))
    refine ⟨s2, ?_, ?_⟩
    · rw [List.foldlM_cons, e1]; exact e2
    · rw [List.length_cons, show k + (l.length + 1) = k + 1 + l.length from by omega]; exact h2

theorem swarmLoop_inv (hb : ∀ j, lb j ≤ ub j) {nP : ℕ} {momentum phi : ℝ} {nbr : Swarm n → ℕ → Option (Pt n)} {rp rg : ℕ → ℕ → ℝ} {maxIter : ℕ}
    {s : Swarm n} (h : SwarmInv q f lb ub nP s) {c : WithTop ℝ} (hc : s.curF ≤ c)
    (hn : 0 < maxIter → ∀ s' : Swarm n, s'.curF ≤ c → SwarmInv q f lb ub nP s' → s'.evals ≠ [] → ∀ i < nP, ∃ p, nbr s' i = some p) (he : s.evals ≠ []) :
    ∃ s', swarmLoop f lb ub momentum phi nbr rp rg nP maxIter s = some s' ∧ SwarmInv q f lb ub nP s' ∧
      s'.evals.length = s.evals.length + maxIter * nP ∧ s'.curF ≤ c := by
  unfold swarmLoop
  have inner : ∀ k' m s, maxIter ≠ 0 → (SwarmInv q f lb ub nP s ∧ s.evals.length = m ∧ s.curF ≤ c ∧ s.evals ≠ []) →
      ∃ s', (List.range nP).foldlM (fun s i => swarmStep f lb ub momentum phi nbr (rp k' i) (rg k' i) s i) s = some s' ∧
        (SwarmInv q f lb ub nP s' ∧ s'.evals.length = m + nP ∧ s'.curF ≤ c ∧ s'.evals ≠ []) := by
    intro k' m s hm hs
    obtain ⟨s', e, r⟩ := foldlM_inv (fun s i => swarmStep f lb ub momentum phi nbr (rp k' i) (rg k' i) s i)
      (fun k s => SwarmInv q f lb ub nP s ∧ s.evals.length = k ∧ s.curF ≤ c ∧ s.evals ≠ []) (fun i => i < nP)
      (fun k s i hi hs => by
        obtain ⟨p, hp⟩ := hn (Nat.pos_of_ne_zero hm) s hs.2.2.1 hs.1 hs.2.2.2 i hi
        obtain ⟨s', e, a, b, d⟩ := swarmStep_inv (f := f) (momentum := momentum) (phi := phi) (rp := rp k' i) (rg := rg k' i) hb hi hs.1 hp
        exact ⟨s', e, a, by rw [b, hs.2.1], le_trans d hs.2.2.1, fun h => by rw [h] at b; simp at b⟩)
      (List.range nP) m s hs (fun t ht => List.mem_range.mp ht)
    rw [List.length_range] at r
    exact ⟨s', e, r⟩
  obtain ⟨s', e, r⟩ := foldlM_inv (fun s k => (List.range nP).foldlM (fun s i => swarmStep f lb ub momentum phi nbr (rp k i) (rg k i) s i) s)
    (fun k s' => SwarmInv q f lb ub nP s' ∧ s'.evals.length = s.evals.length + k * nP ∧ s'.curF ≤ c ∧ s'.evals ≠ []) (fun k => k < maxIter)
    (fun k s' k' hk' hs => by
      obtain ⟨s'', e, a, b, d⟩ := inner k' (s.evals.length + k * nP) s' (by omega) hs
      exact ⟨s'', e, a, by rw [b]; ring, d⟩)
    (List.range maxIter) 0 s ⟨h, by simp, hc, he⟩ (fun t ht => List.mem_range.mp ht)
  rw [List.length_range, Nat.zero_add] at r
  exact ⟨s', e, r.1, r.2.1, r.2.2.1⟩

end Gpy
