import Verif.Spec.ReachSpheres
import Mathlib.Data.Prod.Lex
import Mathlib.Order.WithBot
import Mathlib.Algebra.Order.Floor.Semiring
import Mathlib.Algebra.Order.Archimedean.Basic
import Mathlib.Data.Real.Archimedean
import Mathlib.Order.Nat
import Mathlib.Data.Nat.Lattice
import Mathlib.Tactic.Linarith
import Mathlib.Tactic.FieldSimp

/-!
# Lemmas for the loop of `reach_for_the_spheres`
-/

set_option autoImplicit false
namespace Gpy.Spheres

variable {M B : Type}

/-- how often `h` can be halved before it is at most `m` -/
noncomputable def lvl (m h : ℝ) : ℕ := sInf {n | h ≤ m * 2 ^ n}

theorem lvl_spec (m h : ℝ) (hm : 0 < m) : h ≤ m * 2 ^ lvl m h := by
  have : {n : ℕ | h ≤ m * 2 ^ n}.Nonempty := by
    obtain ⟨n, hn⟩ := pow_unbounded_of_one_lt (h / m) (one_lt_two)
    refine ⟨n, ?_⟩
    show h ≤ m * 2 ^ n
    have := (div_lt_iff₀ hm).mp hn
    linarith
  exact Nat.sInf_mem this

theorem lvl_le (m h : ℝ) (n : ℕ) (hn : h ≤ m * 2 ^ n) : lvl m h ≤ n := Nat.sInf_le hn

theorem lvl_half (m h : ℝ) (hm : 0 < m) (hh : m < h) : lvl m (max (h / 2) m) < lvl m h := by
  have h1 := lvl_spec m h hm
  obtain ⟨n, hn⟩ : ∃ n, lvl m h = n + 1 := by
    refine Nat.exists_eq_succ_of_ne_zero (fun h0 => ?_)
    rw [h0] at h1
    simp at h1
    linarith
  rw [hn] at h1 ⊢
  refine Nat.lt_succ_of_le (lvl_le m _ n (max_le ?_ ?_))
  · rw [pow_succ] at h1; linarith
  · have : (1 : ℝ) ≤ 2 ^ n := one_le_pow₀ one_le_two
    nlinarith

theorem lvl_low (m h : ℝ) (hh : h ≤ m) : lvl m h = 0 := Nat.le_zero.mp (lvl_le m h 0 (by simpa using hh))

/-- the measure -/
noncomputable def mBest (tol : ℝ) : Option ℝ → WithTop ℕ
  | none => ⊤
  | some b => (⌊b / (1 / 1000 * tol)⌋₊ : ℕ)

noncomputable def mu (p : Params) (s : State M B) : ℕ ×ₗ ℕ ×ₗ WithTop ℕ ×ₗ ℕ :=
  toLex (p.resample - s.rc, toLex (lvl s.minH s.h, toLex (mBest p.tol s.best, 101 - s.counter)))

/-- error tracking: either the best error improves, or the counter goes up -/
theorem track_spec (tol e : ℝ) (s : State M B) :
    (track tol e s = { s with counter := s.counter + 1 } ∧ s.best ≠ none) ∨ (track tol e s = { s with counter := 0, best := some e } ∧ ∀ b, s.best = some b → e + 1 / 1000 * tol < b) := by
  unfold track
  split
  · rename_i h; exact Or.inr ⟨rfl, fun b hb => by simp [h] at hb⟩
  · rename_i b h
    split
    · exact Or.inl ⟨rfl, by simp [h]⟩
    · rename_i hb
      refine Or.inr ⟨rfl, fun b' hb' => ?_⟩
      rw [h] at hb'
      obtain rfl := Option.some.inj hb'
      exact not_le.mp hb

theorem mBest_lt (tol e : ℝ) (htol : 0 < tol) (he : 0 ≤ e) (o : Option ℝ) (h : ∀ b, o = some b → e + 1 / 1000 * tol < b) : mBest tol (some e) < mBest tol o := by
  cases o with
  | none => exact WithTop.coe_lt_top _
  | some b =>
    have h := h b rfl
    show ((⌊e / (1 / 1000 * tol)⌋₊ : ℕ) : WithTop ℕ) < ((⌊b / (1 / 1000 * tol)⌋₊ : ℕ) : WithTop ℕ)
    rw [Nat.cast_lt]
    have hδ : 0 < 1 / 1000 * tol := by linarith
    have h1 : e / (1 / 1000 * tol) + 1 ≤ b / (1 / 1000 * tol) := by
      rw [div_add_one hδ.ne']
      exact div_le_div_of_nonneg_right h.le hδ.le
    have h2 := Nat.floor_le_floor h1
    rw [Nat.floor_add_one (by positivity)] at h2
    omega

/-- the fields that tracking and refining leave alone -/
theorem track_fields (tol e : ℝ) (s : State M B) : (track tol e s).mesh = s.mesh ∧ (track tol e s).smp = s.smp ∧ (track tol e s).h = s.h ∧ (track tol e s).minH = s.minH ∧
    (track tol e s).its = s.its ∧ (track tol e s).rc = s.rc ∧ (track tol e s).last = s.last := by
  rcases track_spec tol e s with ⟨h, -⟩ | ⟨h, -⟩ <;> rw [h] <;> exact ⟨rfl, rfl, rfl, rfl, rfl, rfl, rfl⟩

theorem refine_spec (V : M) (s : State M B) :
    (s.counter ≤ 10 ∧ refine V s = s) ∨
    (10 < s.counter ∧ s.minH < s.h ∧ refine V s = { s with last := V, best := none, counter := 0, h := max (s.h / 2) s.minH }) ∨
    (10 < s.counter ∧ s.h ≤ s.minH ∧ refine V s = { s with h := max (s.h / 2) s.minH }) := by
  unfold refine
  split
  · rename_i hc
    dsimp only
    split
    · rename_i hh; exact Or.inr (Or.inl ⟨hc, hh, rfl⟩)
    · rename_i hh; exact Or.inr (Or.inr ⟨hc, not_lt.mp hh, rfl⟩)
  · rename_i hc; exact Or.inl ⟨not_lt.mp hc, rfl⟩

theorem refine_fields (V : M) (s : State M B) : (refine V s).mesh = s.mesh ∧ (refine V s).smp = s.smp ∧ (refine V s).minH = s.minH ∧ (refine V s).its = s.its ∧ (refine V s).rc = s.rc := by
  rcases refine_spec V s with ⟨-, h⟩ | ⟨-, -, h⟩ | ⟨-, -, h⟩ <;> rw [h] <;> exact ⟨rfl, rfl, rfl, rfl, rfl⟩

/-- the ways in which a call ends -/
theorem iteration_cases (x : Ext M B) (p : Params) (k : ℕ) (s : State M B) (c : Bool) (s' : State M B) (h : iteration x p k s = some (c, s')) :
    (atLimit p s.its = true ∧ c = true ∧ s' = s) ∨
    (atLimit p s.its = false ∧ ((x.singular (x.flow k s.mesh s.smp) = true ∧ c = true ∧ s' = { s with mesh := s.last }) ∨
      (x.singular (x.flow k s.mesh s.smp) = false ∧ ∃ s1, s1 = refine (x.flow k s.mesh s.smp) (track p.tol (x.err k s.mesh s.smp (x.flow k s.mesh s.smp)) { s with mesh := x.flow k s.mesh s.smp }) ∧
        ((c = true ∧ s' = s1 ∧ p.resample ≤ s1.rc ∧ (100 < s1.counter ∨ x.invalid k s.mesh s.smp = false)) ∨
        (∃ s2 W, ((∃ U, s1.rc < p.resample ∧ s2 = { s1 with smp := U, rc := s1.rc + 1, counter := 0, best := none }) ∨ (s2 = s1 ∧ s1.counter ≤ 100 ∧ x.invalid k s.mesh s.smp = true)) ∧
          x.remesh k s.mesh s.smp s2.mesh s2.h = some W ∧ c = atLimit p (s2.its + 1) ∧ s' = { s2 with mesh := W, its := s2.its + 1 }))))) := by
  unfold iteration at h
  split at h
  · rename_i hl
    simp only [Option.some.injEq, Prod.mk.injEq] at h
    exact Or.inl ⟨hl, h.1.symm, h.2.symm⟩
  rename_i hl
  refine Or.inr ⟨Bool.eq_false_iff.mpr hl, ?_⟩
  dsimp only at h
  split at h
  · rename_i hs
    simp only [Option.some.injEq, Prod.mk.injEq] at h
    exact Or.inl ⟨hs, h.1.symm, h.2.symm⟩
  rename_i hs
  refine Or.inr ⟨Bool.eq_false_iff.mpr hs, _, rfl, ?_⟩
  generalize refine (x.flow k s.mesh s.smp) (track p.tol (x.err k s.mesh s.smp (x.flow k s.mesh s.smp)) { s with mesh := x.flow k s.mesh s.smp }) = s1 at h ⊢
  split at h
  · rename_i hst
    simp only [Option.some.injEq, Prod.mk.injEq] at h
    simp only [Bool.and_eq_true, Bool.or_eq_true, decide_eq_true_eq, Bool.not_eq_true', decide_eq_false_iff_not, not_lt] at hst
    exact Or.inl ⟨h.1.symm, h.2.symm, hst.2, hst.1⟩
  · rename_i hst
    obtain ⟨s2, h2, h3⟩ := Option.bind_eq_some_iff.mp h
    obtain ⟨W, hW, h4⟩ := Option.map_eq_some_iff.mp h3
    simp only [Prod.mk.injEq] at h4
    refine Or.inr ⟨s2, W, ?_, hW, h4.1.symm, h4.2.symm⟩
    split at h2
    · rename_i hst'
      obtain ⟨U, -, hU⟩ := Option.map_eq_some_iff.mp h2
      rw [hst'] at hst
      simp at hst
      exact Or.inl ⟨U, hst, hU.symm⟩
    · rename_i hst'
      simp only [Bool.or_eq_true, decide_eq_true_eq, Bool.not_eq_true', not_or, not_lt, Bool.not_eq_false] at hst'
      exact Or.inr ⟨(Option.some.inj h2).symm, hst'.1, hst'.2⟩

/-- a call that does not end the loop makes the measure smaller -/
theorem mu_lt (x : Ext M B) (p : Params) (htol : 0 < p.tol) (herr : ∀ k V U V', 0 ≤ x.err k V U V') (k : ℕ) (s s' : State M B) (hm : 0 < s.minH) (hc : s.counter ≤ 100)
    (h : iteration x p k s = some (false, s')) : mu p s' < mu p s ∧ s'.minH = s.minH ∧ s'.counter ≤ 100 := by
  rcases iteration_cases x p k s false s' h with ⟨-, h, -⟩ | ⟨-, ⟨-, h, -⟩ | ⟨-, s1, hs1, ⟨h, -⟩ | ⟨s2, W, h2, -, -, rfl⟩⟩⟩
  · simp at h
  · simp at h
  · simp at h
  set V := x.flow k s.mesh s.smp
  set e := x.err k s.mesh s.smp V
  obtain ⟨-, -, t3, t4, -, t6, -⟩ := track_fields p.tol e { s with mesh := V }
  obtain ⟨-, -, r3, -, r5⟩ := refine_fields V (track p.tol e { s with mesh := V })
  rw [← hs1] at r3 r5
  rw [t4] at r3
  rw [t6] at r5
  dsimp only at t3 r3 r5
  rcases h2 with ⟨U, hr, rfl⟩ | ⟨rfl, hc1, -⟩
  · refine ⟨?_, r3, by simp⟩
    rw [mu, mu, Prod.Lex.toLex_lt_toLex]
    left
    dsimp only
    omega
  · refine ⟨?_, r3, hc1⟩
    have hmu : ∀ (W : M) (i : ℕ), mu p { s2 with mesh := W, its := i } = mu p s2 := fun _ _ => rfl
    rw [hmu, mu, mu, Prod.Lex.toLex_lt_toLex, r5]
    right
    refine ⟨rfl, ?_⟩
    dsimp only
    rw [Prod.Lex.toLex_lt_toLex, r3]
    rcases refine_spec V (track p.tol e { s with mesh := V }) with ⟨-, hr⟩ | ⟨-, hh, hr⟩ | ⟨-, hh, hr⟩
    · rw [← hs1] at hr
      rw [hr, t3]
      right
      refine ⟨rfl, ?_⟩
      dsimp only
      rw [Prod.Lex.toLex_lt_toLex]
      rcases track_spec p.tol e { s with mesh := V } with ⟨ht, -⟩ | ⟨ht, hb⟩
      · rw [ht]; right; dsimp only; refine ⟨rfl, by omega⟩
      · rw [ht]; left; exact mBest_lt p.tol e htol (herr _ _ _ _) _ hb
    · rw [← hs1] at hr
      left
      rw [hr]
      dsimp only
      rw [t3, t4] at *
      exact lvl_half _ _ hm hh
    · rw [← hs1] at hr
      right
      rw [hr]
      dsimp only
      rw [t3, t4] at *
      dsimp only at hh ⊢
      rw [lvl_low _ _ hh, lvl_low _ _ (max_le (by linarith) le_rfl)]
      refine ⟨rfl, ?_⟩
      rw [Prod.Lex.toLex_lt_toLex]
      rcases track_spec p.tol e { s with mesh := V } with ⟨ht, -⟩ | ⟨ht, hb⟩
      · rw [ht]; right; dsimp only; refine ⟨rfl, by omega⟩
      · rw [ht]; left; exact mBest_lt p.tol e htol (herr _ _ _ _) _ hb

end Gpy.Spheres
