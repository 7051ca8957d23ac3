import Verif.Model.SweptDescent
import Mathlib.Analysis.Calculus.Deriv.Pow
import Mathlib.Analysis.Calculus.Deriv.Mul
import Mathlib.Analysis.Calculus.Deriv.Add
import Mathlib.Tactic.Linarith
import Mathlib.Tactic.NormNum
import Mathlib.Tactic.Ring
import Mathlib.Tactic.Positivity
import Mathlib.Tactic.FieldSimp

/-! # C116: descending in time, and the seeds of the continuation -/

set_option autoImplicit false
set_option linter.unusedSimpArgs false
namespace Gpy.Descent

noncomputable section
open Classical

/-! ## Specification -/

/-- the records tell the truth: the time is in `[0,1]`, and the value is the one of `f` there -/
def Truthful (f : ℝ → ℝ) (cache : List Rec) : Prop :=
  ∀ r ∈ cache, 0 ≤ r.arg ∧ r.arg ≤ 1 ∧ r.val = f r.arg ∧ 0 ≤ r.lo ∧ r.lo ≤ r.hi ∧ r.hi ≤ 1

/-- `new` has all records of `old` in the same places, with the same values and times, and with intervals that are at least as large -/
def Grown (old new : List Rec) : Prop :=
  old.length ≤ new.length ∧ ∀ (i : ℕ) (r : Rec), old[i]? = some r →
    ∃ r', new[i]? = some r' ∧ r'.val = r.val ∧ r'.arg = r.arg ∧ r'.lo ≤ r.lo ∧ r.hi ≤ r'.hi

/-- some interval (with the tolerance) has `x` inside -/
def Seen (cache : List Rec) (x : ℝ) : Prop := ∃ r ∈ cache, r.lo - 1 / 10 ^ 6 ≤ x ∧ x ≤ r.hi + 1 / 10 ^ 6

/-! ## Steps -/

theorem candidate_mem (x g tau : ℝ) : 0 ≤ candidate x g tau ∧ candidate x g tau ≤ 1 := by
  unfold candidate
  exact ⟨le_max_right _ _, max_le (min_le_right _ _) (by norm_num)⟩

theorem candidate_downhill (x g tau : ℝ) (h0 : 0 ≤ x) (h1 : x ≤ 1) (ht : 0 ≤ tau) :
    (candidate x g tau - x) * g ≤ 0 := by
  unfold candidate
  rcases lt_trichotomy g 0 with h | h | h
  · rw [if_neg (by linarith), if_pos h]
    have : x ≤ max (min (x - tau * (0 - 1)) 1) 0 := le_max_of_le_left (le_min (by linarith) h1)
    nlinarith
  · subst h; simp
  · rw [if_pos h, if_neg (by linarith)]
    have : max (min (x - tau * (1 - 0)) 1) 0 ≤ x := max_le ((min_le_left _ _).trans (by linarith)) h0
    nlinarith

theorem search_some (f : ℝ → ℝ) (x fx g : ℝ) (h0 : 0 ≤ x) (h1 : x ≤ 1) (k : ℕ) (tau : ℝ) (ht : 0 ≤ tau) (c : ℝ) (h : (search f x fx g k tau).1 = some c) :
    0 ≤ c ∧ c ≤ 1 ∧ f c < fx := by
  induction k generalizing tau with
  | zero => simp [search] at h
  | succ k ih =>
    simp only [search] at h
    split_ifs at h with hc
    · simp only [Option.some.injEq] at h
      subst h
      refine ⟨(candidate_mem x g tau).1, (candidate_mem x g tau).2, ?_⟩
      have := candidate_downhill x g tau h0 h1 ht
      linarith
    · exact ih _ (by positivity) h

theorem search_count (f : ℝ → ℝ) (x fx g : ℝ) (k : ℕ) (tau : ℝ) : 1 ≤ (search f x fx g (k + 1) tau).2 ∧ (search f x fx g k tau).2 ≤ k := by
  constructor
  · simp only [search]
    split_ifs
    · exact le_rfl
    · simp
  · induction k generalizing tau with
    | zero => simp [search]
    | succ k ih =>
      simp only [search]
      split_ifs
      · simp
      · simp only
        have := ih (1 / 2 * tau)
        omega

/-- invariant of the loop -/
structure Inv (f : ℝ → ℝ) (x0 : ℝ) (s : State) : Prop where
  x_mem : 0 ≤ s.x ∧ s.x ≤ 1
  start : s.iter = 0 → s.x = x0
  value : s.iter ≠ 0 → s.fx = f s.x ∧ s.fx ≤ f x0
  lo : 0 ≤ s.xmin ∧ s.xmin ≤ x0
  hi : x0 ≤ s.xmax ∧ s.xmax ≤ 1

theorem find_some (cache : List Rec) (x : ℝ) (mm : ℕ) (h : find cache x = some mm) :
    ∃ r, cache[mm]? = some r ∧ r.lo - 1 / 10 ^ 6 ≤ x ∧ x ≤ r.hi + 1 / 10 ^ 6 := by
  unfold find at h
  rw [List.findIdx?_eq_some_iff_getElem] at h
  obtain ⟨hl, hp, -⟩ := h
  refine ⟨cache[mm], by simp [hl], ?_⟩
  simpa using hp

theorem find_none (cache : List Rec) (x : ℝ) : find cache x = none ↔ ¬ Seen cache x := by
  unfold find Seen
  rw [List.findIdx?_eq_none_iff]
  constructor
  · intro h ⟨r, hr, h1, h2⟩
    have := h r hr
    simp only [decide_eq_false_iff_not] at this
    exact this ⟨h1, h2⟩
  · intro h r hr
    simp only [decide_eq_false_iff_not]
    intro h'
    exact h ⟨r, hr, h'⟩

/-- what the loop returns -/
theorem loop_spec (f gf : ℝ → ℝ) (moved : ℝ → ℝ → Prop) (cache : List Rec) (x0 : ℝ) (hcache : Truthful f cache) :
    ∀ (fuel : ℕ) (s : State), Inv f x0 s → 1 ≤ fuel → 101 ≤ s.iter + fuel → (s.iter = 0 → moved s.x s.prev ∧ s.stop = false) →
    ∃ s' o, loop f gf moved cache fuel s = some (s', o) ∧ 0 ≤ s'.x ∧ s'.x ≤ 1 ∧ s'.fx = f s'.x ∧
      0 ≤ s'.xmin ∧ s'.xmin ≤ x0 ∧ x0 ≤ s'.xmax ∧ s'.xmax ≤ 1 ∧
      (o = none → s'.fx ≤ f x0) ∧
      (∀ mm, o = some mm → ∃ r, cache[mm]? = some r ∧ s'.fx = r.val ∧ s'.x = r.arg ∧ (r.lo - 1 / 10 ^ 6 ≤ s'.xmax ∧ s'.xmin ≤ r.hi + 1 / 10 ^ 6)) ∧
      (s.iter = 0 → Seen cache x0 → o ≠ none) := by
  intro fuel
  induction fuel with
  | zero => intro s _ h1; omega
  | succ fuel ih =>
    intro s hs _ hf hm
    rw [loop]
    by_cases hc : s.iter < 100 ∧ s.stop = false ∧ moved s.x s.prev
    · rw [if_pos hc]
      simp only
      cases hfind : find cache s.x with
      | some mm =>
        obtain ⟨r, hr, hlo, hhi⟩ := find_some cache s.x mm hfind
        have hrm : r ∈ cache := List.mem_of_getElem? hr
        obtain ⟨a1, a2, a3, a4, a5, a6⟩ := hcache r hrm
        have hg : cache.getD mm ⟨0, 0, 0, 0⟩ = r := by simp [List.getD, hr]
        refine ⟨_, _, rfl, ?_⟩
        simp only [hg]
        refine ⟨a1, a2, a3, le_min hs.lo.1 hs.x_mem.1, (min_le_left _ _).trans hs.lo.2, hs.hi.1.trans (le_max_left _ _), max_le hs.hi.2 hs.x_mem.2, by simp, ?_, by simp⟩
        intro mm' hmm
        simp only [Option.some.injEq] at hmm
        subst hmm
        exact ⟨r, hr, rfl, rfl, hlo.trans (le_max_right _ _), (min_le_right _ _).trans hhi⟩
      | none =>
        simp only
        set fx := (if s.iter = 0 then f s.x else s.fx) with hfx
        have hfx1 : fx = f s.x ∧ fx ≤ f x0 := by
          by_cases h0 : s.iter = 0
          · rw [hfx, if_pos h0]
            exact ⟨rfl, by rw [hs.start h0]⟩
          · rw [hfx, if_neg h0]
            exact hs.value h0
        clear_value fx
        have hcount : 1 ≤ (search f s.x fx (gf s.x) 9 (1 / 50)).2 := (search_count f s.x fx (gf s.x) 8 (1 / 50)).1
        have hxm : 0 ≤ min s.xmin s.x ∧ min s.xmin s.x ≤ x0 := ⟨le_min hs.lo.1 hs.x_mem.1, (min_le_left _ _).trans hs.lo.2⟩
        have hxM : x0 ≤ max s.xmax s.x ∧ max s.xmax s.x ≤ 1 := ⟨hs.hi.1.trans (le_max_left _ _), max_le hs.hi.2 hs.x_mem.2⟩
        have hseen : s.iter = 0 → ¬ Seen cache x0 := by
          intro h0
          rw [← hs.start h0]
          exact (find_none cache s.x).mp hfind
        cases hsr : (search f s.x fx (gf s.x) 9 (1 / 50)).1 with
        | some c =>
          simp only
          have hcs := search_some f s.x fx (gf s.x) hs.x_mem.1 hs.x_mem.2 9 (1 / 50) (by norm_num) c hsr
          obtain ⟨s', o, h1, h2, h3, h4, h5, h6, h7, h8, h9, h10, -⟩ := ih ⟨c, f c, s.x, s.iter + (search f s.x fx (gf s.x) 9 (1 / 50)).2, false, min s.xmin s.x, max s.xmax s.x⟩
            ⟨⟨hcs.1, hcs.2.1⟩, by simp only; omega, fun _ => ⟨rfl, hcs.2.2.le.trans hfx1.2⟩, hxm, hxM⟩ (by omega) (by simp only; omega) (by simp only; omega)
          exact ⟨s', o, h1, h2, h3, h4, h5, h6, h7, h8, h9, h10, fun h0 h => absurd h (hseen h0)⟩
        | none =>
          simp only
          obtain ⟨s', o, h1, h2, h3, h4, h5, h6, h7, h8, h9, h10, -⟩ := ih ⟨s.x, fx, s.x, s.iter + (search f s.x fx (gf s.x) 9 (1 / 50)).2, true, min s.xmin s.x, max s.xmax s.x⟩
            ⟨hs.x_mem, by simp only; omega, fun _ => hfx1, hxm, hxM⟩ (by omega) (by simp only; omega) (by simp only; omega)
          exact ⟨s', o, h1, h2, h3, h4, h5, h6, h7, h8, h9, h10, fun h0 h => absurd h (hseen h0)⟩
    · rw [if_neg hc]
      have h0 : s.iter ≠ 0 := by
        intro h0
        have := hm h0
        exact hc ⟨by omega, this.2, this.1⟩
      refine ⟨s, none, rfl, hs.x_mem.1, hs.x_mem.2, (hs.value h0).1, hs.lo.1, hs.lo.2, hs.hi.1, hs.hi.2, fun _ => (hs.value h0).2, by simp, fun h => absurd h h0⟩

theorem record_spec (f : ℝ → ℝ) (cache : List Rec) (hcache : Truthful f cache) (x0 : ℝ) (s : State) (o : Option ℕ)
    (hx0 : 0 ≤ s.x) (hx1 : s.x ≤ 1) (hfx : s.fx = f s.x) (h5 : 0 ≤ s.xmin) (h6 : s.xmin ≤ x0) (h7 : x0 ≤ s.xmax) (h8 : s.xmax ≤ 1)
    (ho : ∀ mm, o = some mm → ∃ r, cache[mm]? = some r) :
    Truthful f (record cache s o) ∧ Grown cache (record cache s o) ∧ (∃ r ∈ record cache s o, r.lo ≤ x0 ∧ x0 ≤ r.hi) := by
  cases o with
  | none =>
    simp only [record]
    refine ⟨?_, ⟨by simp, ?_⟩, ⟨⟨s.xmin, s.xmax, s.fx, s.x⟩, by simp, h6, h7⟩⟩
    · intro r hr
      rw [List.mem_append, List.mem_singleton] at hr
      rcases hr with hr | rfl
      · exact hcache r hr
      · exact ⟨hx0, hx1, hfx, h5, h6.trans h7, h8⟩
    · intro i r hr
      refine ⟨r, ?_, rfl, rfl, le_rfl, le_rfl⟩
      have hi : i < cache.length := by
        by_contra hi
        rw [List.getElem?_eq_none (by omega)] at hr
        simp at hr
      rw [List.getElem?_append_left hi, hr]
  | some mm =>
    obtain ⟨r0, hr0⟩ := ho mm rfl
    simp only [record]
    have hget : ∀ i, (cache.modify mm (fun r => { r with lo := min r.lo s.xmin, hi := max r.hi s.xmax }))[i]? =
        (cache[i]?).map (fun r => if mm = i then { r with lo := min r.lo s.xmin, hi := max r.hi s.xmax } else r) := by
      intro i
      rw [List.getElem?_modify]
      by_cases h : mm = i
      · simp [h]
      · simp [h]
    refine ⟨?_, ⟨by simp, ?_⟩, ?_⟩
    · intro r hr
      obtain ⟨i, hi⟩ := List.mem_iff_getElem?.mp hr
      rw [hget i] at hi
      rw [Option.map_eq_some_iff] at hi
      obtain ⟨r', hr', rfl⟩ := hi
      obtain ⟨a1, a2, a3, a4, a5, a6⟩ := hcache r' (List.mem_of_getElem? hr')
      by_cases h : mm = i
      · rw [if_pos h]
        exact ⟨a1, a2, a3, le_min a4 h5, (min_le_left _ _).trans (a5.trans (le_max_left _ _)), max_le a6 h8⟩
      · rw [if_neg h]
        exact ⟨a1, a2, a3, a4, a5, a6⟩
    · intro i r hr
      refine ⟨_, by rw [hget i, hr]; rfl, ?_⟩
      beta_reduce
      by_cases h : mm = i
      · rw [if_pos h]
        exact ⟨rfl, rfl, min_le_left _ _, le_max_left _ _⟩
      · rw [if_neg h]
        exact ⟨rfl, rfl, le_rfl, le_rfl⟩
    · refine ⟨{ r0 with lo := min r0.lo s.xmin, hi := max r0.hi s.xmax }, ?_, (min_le_right _ _).trans h6, h7.trans (le_max_right _ _)⟩
      apply List.mem_of_getElem? (i := mm)
      rw [hget mm, hr0]
      simp

/-! ## C116 -/

/-- C116 (the descent).  For every function and every "derivative" (which need not be one), every records that tell the truth, and every start in `[0,1]` at which the loop is entered (which the assertion of the code requires), the search comes to an end, with a time in `[0,1]` and the value of the function at exactly that time; the records still tell the truth, nothing in them is lost, and the start is now inside one of their intervals.  If the start was in no interval, the result is either at least as good as the start, or is one of the earlier results; if it was in one, the result is one of the earlier ones. -/
theorem C116_descent (f gf : ℝ → ℝ) (moved : ℝ → ℝ → Prop) (junk : ℝ) (cache : List Rec) (x0 : ℝ)
    (hcache : Truthful f cache) (h0 : 0 ≤ x0) (h1 : x0 ≤ 1) (hm : moved x0 10000000) :
    ∃ fx x new, descend f gf moved junk cache x0 = some (fx, x, new) ∧
      0 ≤ x ∧ x ≤ 1 ∧ fx = f x ∧ Truthful f new ∧ Grown cache new ∧
      (∃ r ∈ new, r.lo ≤ x0 ∧ x0 ≤ r.hi) ∧
      (fx ≤ f x0 ∨ ∃ r ∈ cache, fx = r.val ∧ x = r.arg) ∧
      (Seen cache x0 → ∃ r ∈ cache, fx = r.val ∧ x = r.arg) := by
  obtain ⟨s', o, e1, e2, e3, e4, e5, e6, e7, e8, e9, e10, e11⟩ := loop_spec f gf moved cache x0 hcache 101 ⟨x0, junk, 10000000, 0, false, x0, x0⟩
    ⟨⟨h0, h1⟩, fun _ => rfl, fun h => absurd rfl h, ⟨h0, le_rfl⟩, ⟨le_rfl, h1⟩⟩ (by norm_num) (by norm_num) (fun _ => ⟨hm, rfl⟩)
  have hold : ∀ mm, o = some mm → ∃ r ∈ cache, s'.fx = r.val ∧ s'.x = r.arg := by
    intro mm h
    obtain ⟨r, hr, ha, hb, -⟩ := e10 mm h
    exact ⟨r, List.mem_of_getElem? hr, ha, hb⟩
  obtain ⟨r1, r2, r3⟩ := record_spec f cache hcache x0 s' o e2 e3 e4 e5 e6 e7 e8 (fun mm h => by obtain ⟨r, hr, -⟩ := e10 mm h; exact ⟨r, hr⟩)
  refine ⟨s'.fx, s'.x, record cache s' o, by simp [descend, e1], e2, e3, e4, r1, r2, r3, ?_, ?_⟩
  · cases o with
    | none => exact Or.inl (e9 rfl)
    | some mm => exact Or.inr (hold mm rfl)
  · intro hs
    cases o with
    | none => exact absurd rfl (e11 rfl hs)
    | some mm => exact hold mm rfl

/-- calls one after the other with the same function, at the starts `xs`: the results and the final records -/
def run (f gf : ℝ → ℝ) (moved : ℝ → ℝ → Prop) (junk : ℝ) : List Rec → List ℝ → Option (List (ℝ × ℝ) × List Rec)
  | cache, [] => some ([], cache)
  | cache, x0 :: xs => (descend f gf moved junk cache x0).bind (fun p => (run f gf moved junk p.2.2 xs).map (fun q => ((p.1, p.2.1) :: q.1, q.2)))

/-- C116 (history).  Whatever the sequence of starts, beginning with no records: every call returns, each with a time in `[0,1]` and the value of the function there; in the end every start is inside a recorded interval. -/
theorem C116_history (f gf : ℝ → ℝ) (moved : ℝ → ℝ → Prop) (junk : ℝ) (xs : List ℝ) (hxs : ∀ x ∈ xs, 0 ≤ x ∧ x ≤ 1 ∧ moved x 10000000) :
    ∃ out cache, run f gf moved junk [] xs = some (out, cache) ∧ out.length = xs.length ∧
      (∀ p ∈ out, 0 ≤ p.2 ∧ p.2 ≤ 1 ∧ p.1 = f p.2) ∧
      Truthful f cache ∧ (∀ x ∈ xs, ∃ r ∈ cache, r.lo ≤ x ∧ x ≤ r.hi) := by
  have key : ∀ (xs : List ℝ) (c0 : List Rec), Truthful f c0 → (∀ x ∈ xs, 0 ≤ x ∧ x ≤ 1 ∧ moved x 10000000) →
      ∃ out cache, run f gf moved junk c0 xs = some (out, cache) ∧ out.length = xs.length ∧
      (∀ p ∈ out, 0 ≤ p.2 ∧ p.2 ≤ 1 ∧ p.1 = f p.2) ∧ Truthful f cache ∧ Grown c0 cache ∧ (∀ x ∈ xs, ∃ r ∈ cache, r.lo ≤ x ∧ x ≤ r.hi) := by
    intro xs
    induction xs with
    | nil => intro c0 hc _; exact ⟨[], c0, rfl, rfl, by simp, hc, ⟨le_rfl, fun i r h => ⟨r, h, rfl, rfl, le_rfl, le_rfl⟩⟩, by simp⟩
    | cons x xs ih =>
      intro c0 hc hx
      obtain ⟨a0, a1, am⟩ := hx x (by simp)
      obtain ⟨fx, y, new, d1, d2, d3, d4, d5, d6, d7, -, -⟩ := C116_descent f gf moved junk c0 x hc a0 a1 am
      obtain ⟨out, cache, e1, e2, e3, e4, e5, e6⟩ := ih new d5 (fun z hz => hx z (by simp [hz]))
      have hsub : ∀ r ∈ new, ∃ r' ∈ cache, r'.lo ≤ r.lo ∧ r.hi ≤ r'.hi := by
        intro r hr
        obtain ⟨i, hi⟩ := List.mem_iff_getElem?.mp hr
        obtain ⟨r', h1, -, -, h4, h5⟩ := e5.2 i r hi
        exact ⟨r', List.mem_of_getElem? h1, h4, h5⟩
      refine ⟨(fx, y) :: out, cache, by simp [run, d1, e1], by simp [e2], ?_, e4, ⟨d6.1.trans e5.1, ?_⟩, ?_⟩
      · intro p hp
        rw [List.mem_cons] at hp
        rcases hp with rfl | hp
        · exact ⟨d2, d3, d4⟩
        · exact e3 p hp
      · intro i r hr
        obtain ⟨r', h1, h2, h3, h4, h5⟩ := d6.2 i r hr
        obtain ⟨r'', k1, k2, k3, k4, k5⟩ := e5.2 i r' h1
        exact ⟨r'', k1, k2.trans h2, k3.trans h3, k4.trans h4, h5.trans k5⟩
      · intro z hz
        rw [List.mem_cons] at hz
        rcases hz with rfl | hz
        · obtain ⟨r, hr, ha, hb⟩ := d7
          obtain ⟨r', hr', h1, h2⟩ := hsub r hr
          exact ⟨r', hr', h1.trans ha, hb.trans h2⟩
        · exact e6 z hz
  obtain ⟨out, cache, h1, h2, h3, h4, -, h6⟩ := key xs [] (by intro r hr; simp at hr) hxs
  exact ⟨out, cache, h1, h2, h3, h4, h6⟩

/-- C116 (seeds).  `init_times` has one zero too many in front: voxel number `i + 1` (seed `i`) is put into the queue with the time of seed `i - 1`, and the first seed with time 0, for every list of seeds. -/
theorem C116_seed_times_violated (eps : ℝ) (p0 : Fin 3 → ℝ) (seeds : List ((Fin 3 → ℝ) × ℝ)) :
    (initTimes seeds).length = (initVoxels eps p0 seeds).length + 1 ∧
    (∀ (s : (Fin 3 → ℝ) × ℝ), seeds[0]? = some s → (initQueue (initVoxels eps p0 seeds) (initTimes seeds))[1]? = some (voxelOf eps p0 s.1, 0)) ∧
    ∀ (i : ℕ) (s t : (Fin 3 → ℝ) × ℝ), seeds[i]? = some t → seeds[i + 1]? = some s →
      (initQueue (initVoxels eps p0 seeds) (initTimes seeds))[i + 2]? = some (voxelOf eps p0 s.1, t.2) := by
  have hlen : ∀ (i : ℕ) (s : (Fin 3 → ℝ) × ℝ), seeds[i]? = some s → i < seeds.length := by
    intro i s h
    by_contra hi
    rw [List.getElem?_eq_none (by omega)] at h
    simp at h
  refine ⟨by simp [initTimes, initVoxels], ?_, ?_⟩
  · intro s h
    have := hlen 0 s h
    unfold initQueue
    rw [List.getElem?_map, List.getElem?_range (by simp [initVoxels]; omega)]
    simp [initVoxels, initTimes, List.getD, h]
  · intro i s t ht hs
    have := hlen (i + 1) s hs
    unfold initQueue
    rw [List.getElem?_map, List.getElem?_range (by simp [initVoxels]; omega)]
    simp [initVoxels, initTimes, List.getD, ht, hs]

/-- C116 (voxels of the seeds).  For every cell size and every seed the lower corner of the voxel `v` is within one cell of the seed, with no negative index where the corner `p0` is below the seed.  But the continuation takes `p0 + eps * v` as the *centre* of a cube: the seed is inside the cube exactly when it is in the lower half of the cell in every direction. -/
theorem C116_seed_voxel (eps : ℝ) (heps : 0 < eps) (p0 p : Fin 3 → ℝ) (k : Fin 3) :
    (p0 k + eps * (voxelOf eps p0 p k : ℝ) ≤ p k ∧ p k < p0 k + eps * (voxelOf eps p0 p k : ℝ) + eps) ∧
    (p0 k ≤ p k → 0 ≤ voxelOf eps p0 p k) ∧
    (|p k - (p0 k + eps * (voxelOf eps p0 p k : ℝ))| ≤ eps / 2 ↔ Int.fract ((p k - p0 k) / eps) ≤ 1 / 2) := by
  unfold voxelOf
  have h1 := Int.floor_le ((p k - p0 k) / eps)
  have h2 := Int.lt_floor_add_one ((p k - p0 k) / eps)
  have h3 : (p k - p0 k) / eps * eps = p k - p0 k := div_mul_cancel₀ _ heps.ne'
  have a1 : p0 k + eps * (⌊(p k - p0 k) / eps⌋ : ℝ) ≤ p k := by nlinarith
  refine ⟨⟨a1, by nlinarith⟩, ?_, ?_⟩
  · intro h
    exact Int.floor_nonneg.mpr (div_nonneg (by linarith) heps.le)
  · have h4 : p k - (p0 k + eps * (⌊(p k - p0 k) / eps⌋ : ℝ)) = eps * Int.fract ((p k - p0 k) / eps) := by
      unfold Int.fract
      rw [mul_sub, mul_comm eps ((p k - p0 k) / eps), h3]; ring
    rw [h4, abs_of_nonneg (mul_nonneg heps.le (Int.fract_nonneg _))]
    constructor
    · intro h; nlinarith
    · intro h; nlinarith

/-! ## Concrete cases -/

/-- a function with a dip between two steps of the descent -/
def dip (x : ℝ) : ℝ := x - 2000000 * x ^ 2 * (x - 1 / 50) ^ 2

/-- its derivative -/
def ddip (x : ℝ) : ℝ := 1 - 2000000 * (2 * x * (x - 1 / 50) ^ 2 + 2 * x ^ 2 * (x - 1 / 50))

theorem hasDerivAt_dip (x : ℝ) : HasDerivAt dip (ddip x) x := by
  have h1 : HasDerivAt (fun y : ℝ => y) 1 x := hasDerivAt_id x
  have h2 : HasDerivAt (fun y : ℝ => y ^ 2) (2 * x) x := by
    have := HasDerivAt.fun_pow h1 2
    simpa using this
  have h3 : HasDerivAt (fun y : ℝ => (y - 1 / 50) ^ 2) (2 * (x - 1 / 50)) x := by
    have h : HasDerivAt (fun y : ℝ => y - 1 / 50) 1 x := HasDerivAt.sub_const (1 / 50) h1
    have := HasDerivAt.fun_pow h 2
    simpa using this
  have h4 := HasDerivAt.sub h1 (HasDerivAt.mul (HasDerivAt.const_mul 2000000 h2) h3)
  have he : ddip x = 1 - (2000000 * (2 * x) * (x - 1 / 50) ^ 2 + 2000000 * x ^ 2 * (2 * (x - 1 / 50))) := by unfold ddip; ring
  rw [he]
  exact h4

/-- the test of the code with the absolute value of reals -/
def farther (x y : ℝ) : Prop := 1 / 10 ^ 6 < |x - y|

theorem cand_zero (tau : ℝ) (h : 0 ≤ tau) : candidate 0 1 tau = 0 := by
  unfold candidate
  norm_num
  exact h

theorem search_zero (k : ℕ) (tau : ℝ) (h : 0 ≤ tau) : (search dip 0 0 1 k tau) = (none, k) := by
  induction k generalizing tau with
  | zero => rfl
  | succ k ih =>
    simp only [search, cand_zero tau h]
    rw [if_neg (by norm_num [dip]), ih _ (by positivity)]

/-- the first call: from `1/50` to `0` -/
theorem dip_first (junk : ℝ) : descend dip ddip farther junk [] (1 / 50) = some (0, 0, [⟨0, 1 / 50, 0, 0⟩]) := by
  have hc : candidate (1 / 50) 1 (1 / 50) = 0 := by unfold candidate; norm_num
  have hg : ddip (1 / 50) = 1 := by unfold ddip; norm_num
  have hg0 : ddip 0 = 1 := by unfold ddip; norm_num
  have hf : dip (1 / 50) = 1 / 50 := by unfold dip; norm_num
  have hf0 : dip 0 = 0 := by unfold dip; norm_num
  have hs : search dip (1 / 50) (1 / 50) 1 9 (1 / 50) = (some 0, 1) := by
    simp only [search, hc]
    rw [if_pos (by rw [hf0]; norm_num)]
  have hs0 : search dip 0 0 1 9 (1 / 50) = (none, 9) := search_zero 9 _ (by norm_num)
  unfold descend
  rw [loop, if_pos ⟨by norm_num, rfl, by unfold farther; rw [abs_of_neg (by norm_num)]; norm_num⟩]
  simp only [find, List.findIdx?_nil, if_true, hf, hg, hs]
  rw [loop, if_pos ⟨by norm_num, rfl, by unfold farther; rw [abs_of_neg (by norm_num)]; norm_num⟩]
  simp only [find, List.findIdx?_nil, hf0, hg0]
  rw [if_neg (by norm_num)]
  simp only [hs0]
  rw [loop, if_neg (by simp)]
  simp [record]

/-- C116 (violated: never worse than the start).  A start inside a recorded interval gets the recorded minimum although the function is smaller at the start itself: after descending from `1/50`, the answer for `1/100` is `0`, but the function is `-1/100` there (with its true derivative, `hasDerivAt_dip`, and with the records made by the code itself). -/
theorem C116_revisit_violated (junk : ℝ) :
    ∃ fx x new new', descend dip ddip farther junk [] (1 / 50) = some (0, 0, new) ∧
      descend dip ddip farther junk new (1 / 100) = some (fx, x, new') ∧ dip (1 / 100) < fx := by
  refine ⟨0, 0, _, [⟨0, 1 / 50, 0, 0⟩], dip_first junk, ?_, by unfold dip; norm_num⟩
  unfold descend
  rw [loop, if_pos ⟨by norm_num, rfl, by unfold farther; rw [abs_of_neg (by norm_num)]; norm_num⟩]
  have hfi : find [⟨0, 1 / 50, 0, 0⟩] (1 / 100) = some 0 := by
    unfold find
    rw [List.findIdx?_cons]
    norm_num
  simp only [hfi]
  simp [record]
  norm_num

/-- the hypotheses of the theorems hold for the records `dip_first` makes -/
example : Truthful dip [⟨0, 1 / 50, 0, 0⟩] ∧ farther (1 / 100) 10000000 ∧ Seen [⟨0, 1 / 50, 0, 0⟩] (1 / 100) ∧ ¬ Seen [⟨0, 1 / 50, 0, 0⟩] 1 := by
  refine ⟨?_, ?_, ⟨⟨0, 1 / 50, 0, 0⟩, by simp, by norm_num, by norm_num⟩, ?_⟩
  · intro r hr
    simp only [List.mem_singleton] at hr
    subst hr
    unfold dip
    norm_num
  · unfold farther
    rw [abs_of_neg (by norm_num)]; norm_num
  · rintro ⟨r, hr, h1, h2⟩
    simp only [List.mem_singleton] at hr
    subst hr
    norm_num at h2

end

end Gpy.Descent
