import Verif.Proofs.ReachSpheres

/-!
# C109: the loop of `reach_for_the_spheres`
-/

set_option autoImplicit false
namespace Gpy.Spheres

variable {M B : Type}

theorem loop_finishes (x : Ext M B) (p : Params) (htol : 0 < p.tol) (herr : ∀ k V U V', 0 ≤ x.err k V U V') (s : State M B) (k : ℕ) (hm : 0 < s.minH) (hc : s.counter ≤ 100) :
    ∃ n, Finished (loop x p n k s) := by
  induction hmu : mu p s using WellFoundedLT.induction generalizing s k with
  | ind m ih =>
    subst hmu
    cases h : iteration x p k s with
    | none => exact ⟨1, by rw [loop, h]; trivial⟩
    | some r =>
      obtain ⟨c, s'⟩ := r
      cases c with
      | true => exact ⟨1, by rw [loop, h]; trivial⟩
      | false =>
        obtain ⟨h1, h2, h3⟩ := mu_lt x p htol herr k s s' hm hc h
        obtain ⟨n, hn⟩ := ih _ h1 s' (k + 1) (by rw [h2]; exact hm) h3 rfl
        exact ⟨n + 1, by rw [loop, h]; exact hn⟩

/-- The loop ends (returns or raises an exception) for every behaviour of the flow, the remesher and the random numbers, also without a limit on the number of iterations: the average error
cannot improve by `tol/1000` for ever, and the edge length is halved finitely often. -/
theorem C109_terminates (x : Ext M B) (p : Params) (V : M) (U : B) (h minH : ℝ) (htol : 0 < p.tol) (hm : 0 < minH) (herr : ∀ k V U V', 0 ≤ x.err k V U V') :
    ∃ n, Finished (reachSpheres x p V U h minH n) := loop_finishes x p htol herr _ 0 hm (by simp [initial])

/-- What the loop returns does not depend on where it is cut off. -/
theorem C109_cut (x : Ext M B) (p : Params) (V : M) (U : B) (h minH : ℝ) (n m : ℕ) (hnm : n ≤ m) (hn : Finished (reachSpheres x p V U h minH n)) :
    reachSpheres x p V U h minH m = reachSpheres x p V U h minH n := by
  unfold reachSpheres at *
  generalize initial V U h minH = s at *
  generalize (0 : ℕ) = k at *
  induction n generalizing m k s with
  | zero => exact absurd hn id
  | succ n ih =>
    obtain ⟨m, rfl⟩ : ∃ m', m = m' + 1 := ⟨m - 1, by omega⟩
    rw [loop] at hn ⊢
    rw [loop]
    split
    · rfl
    · rfl
    · rename_i s' hs
      rw [hs] at hn
      exact ih m (by omega) s' (k + 1) hn

/-- With `max_iter = m` there are at most `max(1, m)` calls of the iteration. -/
theorem C109_max_iter (x : Ext M B) (p : Params) (V : M) (U : B) (h minH : ℝ) (m : ℕ) (hp : p.maxIter = some m) : Finished (reachSpheres x p V U h minH (max 1 m)) := by
  have key : ∀ (n k : ℕ) (s : State M B), m ≤ s.its + n → 0 < n → Finished (loop x p n k s) := by
    intro n
    induction n with
    | zero => intro _ _ _ h; omega
    | succ n ih =>
      intro k s hs _
      rw [loop]
      cases h : iteration x p k s with
      | none => trivial
      | some r =>
        obtain ⟨c, s'⟩ := r
        cases c with
        | true => trivial
        | false =>
          have hits : s'.its = s.its + 1 ∧ atLimit p s'.its = false := by
            rcases iteration_cases x p k s false s' h with ⟨-, h, -⟩ | ⟨-, ⟨-, h, -⟩ | ⟨-, s1, hs1, ⟨h, -⟩ | ⟨s2, W, h2, -, hc, rfl⟩⟩⟩
            · simp at h
            · simp at h
            · simp at h
            · refine ⟨?_, hc.symm⟩
              have e1 : s1.its = s.its := by
                rw [hs1, (refine_fields _ _).2.2.2.1, (track_fields _ _ _).2.2.2.2.1]
              rcases h2 with ⟨U, -, rfl⟩ | ⟨rfl, -⟩ <;> simp [e1]
          have hlt : s'.its < m := by
            have := hits.2
            unfold atLimit at this
            rw [hp] at this
            simpa using this
          have := hits.1
          exact ih (k + 1) s' (by omega) (by omega)
  exact key _ 0 _ (by simp [initial]) (by omega)

/-- the edge length after some halvings: `h` at first, then `max(h/2^k, min_h)` -/
def Halved (h minH y : ℝ) : Prop := y = h ∨ ∃ k : ℕ, 0 < k ∧ y = max (h / 2 ^ k) minH

theorem Halved.half {h minH y : ℝ} (hm : 0 < minH) (hy : Halved h minH y) : Halved h minH (max (y / 2) minH) := by
  rcases hy with rfl | ⟨k, hk, rfl⟩
  · exact Or.inr ⟨1, one_pos, by rw [pow_one]⟩
  · refine Or.inr ⟨k + 1, Nat.succ_pos k, ?_⟩
    rw [← max_div_div_right (by norm_num : (0 : ℝ) ≤ 2), div_div, ← pow_succ, max_assoc, max_eq_right (by linarith : minH / 2 ≤ minH)]

/-- what holds of every state of the loop -/
structure Inv (x : Ext M B) (p : Params) (V : M) (h minH : ℝ) (s : State M B) : Prop where
  imin : s.minH = minH
  ih : Halved h minH s.h
  irc : s.rc ≤ p.resample
  iits : ∀ m, p.maxIter = some m → s.its ≤ m
  ilast : s.last = V ∨ x.singular s.last = false
  icounter : 10 < s.counter → s.h ≤ minH
  imesh : s.its = 0 ∧ s.mesh = V ∨ ∃ k A C D, x.remesh k A C D s.h = some s.mesh

theorem refine_track (x : Ext M B) (p : Params) (V : M) (h minH : ℝ) (hm : 0 < minH) (s : State M B) (hi : Inv x p V h minH s) (W : M) (hW : x.singular W = false) (e : ℝ) (s1 : State M B)
    (h1 : s1 = refine W (track p.tol e { s with mesh := W })) :
    s1.minH = minH ∧ Halved h minH s1.h ∧ s1.rc = s.rc ∧ s1.its = s.its ∧ s1.mesh = W ∧ (s1.last = V ∨ x.singular s1.last = false) ∧ (10 < s1.counter → s1.h ≤ minH) := by
  obtain ⟨t1, t2, t3, t4, t5, t6, t7⟩ := track_fields p.tol e { s with mesh := W }
  obtain ⟨r1, r2, r3, r4, r5⟩ := refine_fields W (track p.tol e { s with mesh := W })
  rw [← h1] at r1 r2 r3 r4 r5
  refine ⟨by rw [r3, t4]; exact hi.imin, ?_, by rw [r5, t6], by rw [r4, t5], by rw [r1, t1], ?_, ?_⟩
  · rcases refine_spec W (track p.tol e { s with mesh := W }) with ⟨-, hr⟩ | ⟨-, -, hr⟩ | ⟨-, -, hr⟩
    · rw [h1, hr, t3]; exact hi.ih
    · rw [h1, hr]; dsimp only; rw [t3, t4]; dsimp only; rw [hi.imin]; exact hi.ih.half hm
    · rw [h1, hr]; dsimp only; rw [t3, t4]; dsimp only; rw [hi.imin]; exact hi.ih.half hm
  · rcases refine_spec W (track p.tol e { s with mesh := W }) with ⟨-, hr⟩ | ⟨-, -, hr⟩ | ⟨-, -, hr⟩
    · rw [h1, hr, t7]; exact hi.ilast
    · rw [h1, hr]; exact Or.inr hW
    · rw [h1, hr]; dsimp only; rw [t7]; exact hi.ilast
  · intro hc
    rcases refine_spec W (track p.tol e { s with mesh := W }) with ⟨hlow, hr⟩ | ⟨-, -, hr⟩ | ⟨-, hh, hr⟩
    · rw [h1, hr] at hc; omega
    · rw [h1, hr] at hc; simp at hc
    · rw [t3, t4] at hh
      dsimp only at hh
      rw [hi.imin] at hh
      rw [h1, hr]; dsimp only; rw [t3, t4]; dsimp only; rw [hi.imin]
      exact max_le (by linarith) le_rfl

theorem inv_step (x : Ext M B) (p : Params) (V : M) (h minH : ℝ) (hm : 0 < minH) (k : ℕ) (s s' : State M B) (hi : Inv x p V h minH s) (c : Bool) (hs : iteration x p k s = some (c, s')) :
    (c = false ∧ Inv x p V h minH s') ∨ (c = true ∧ Halved h minH s'.h ∧ s'.rc ≤ p.resample ∧ (∀ m, p.maxIter = some m → s'.its ≤ m) ∧
      ((p.maxIter = some s'.its ∧ (s'.its = 0 ∧ s'.mesh = V ∨ ∃ k A C D, x.remesh k A C D s'.h = some s'.mesh)) ∨
      (∃ k A C, x.singular (x.flow k A C) = true ∧ (s'.mesh = V ∨ x.singular s'.mesh = false)) ∨
      (x.singular s'.mesh = false ∧ s'.rc = p.resample ∧ ∃ k A C, s'.mesh = x.flow k A C ∧ (x.invalid k A C = false ∨ s'.h ≤ minH)))) := by
  rcases iteration_cases x p k s c s' hs with ⟨hl, rfl, rfl⟩ | ⟨hl, ⟨hsing, rfl, rfl⟩ | ⟨hsing, s1, hs1, hrest⟩⟩
  · refine Or.inr ⟨rfl, hi.ih, hi.irc, hi.iits, Or.inl ⟨?_, hi.imesh⟩⟩
    unfold atLimit at hl
    split at hl
    · simp at hl
    · rename_i m hpm
      rw [decide_eq_true_eq] at hl
      rw [hpm, le_antisymm (hi.iits m hpm) hl]
  · exact Or.inr ⟨rfl, hi.ih, hi.irc, hi.iits, Or.inr (Or.inl ⟨k, s.mesh, s.smp, hsing, hi.ilast⟩)⟩
  · obtain ⟨a1, a2, a3, a4, a5, a6, a7⟩ := refine_track x p V h minH hm s hi _ hsing _ s1 hs1
    have hirc := hi.irc
    have hits : ∀ m, p.maxIter = some m → s.its + 1 ≤ m := by
      intro m hpm
      unfold atLimit at hl
      rw [hpm] at hl
      simpa [Nat.lt_iff_add_one_le] using hl
    rcases hrest with ⟨rfl, rfl, hr, hc⟩ | ⟨s2, W, h2, hW, hc, rfl⟩
    · refine Or.inr ⟨rfl, a2, by omega, fun m hpm => by rw [a4]; exact hi.iits m hpm, Or.inr (Or.inr ⟨by rw [a5]; exact hsing, by omega, k, s.mesh, s.smp, a5, ?_⟩)⟩
      rcases hc with hc | hc
      · exact Or.inr (a7 (by omega))
      · exact Or.inl hc
    · have hi2 : Inv x p V h minH { s2 with mesh := W, its := s2.its + 1 } := by
        rcases h2 with ⟨U, hr, rfl⟩ | ⟨rfl, hc1, -⟩
        · exact ⟨a1, a2, hr, fun m hpm => by dsimp only; rw [a4]; exact hits m hpm, a6, fun h => absurd h (by simp), Or.inr ⟨k, _, _, _, hW⟩⟩
        · exact ⟨a1, a2, by dsimp only; omega, fun m hpm => by dsimp only; rw [a4]; exact hits m hpm, a6, a7, Or.inr ⟨k, _, _, _, hW⟩⟩
      cases c with
      | false => exact Or.inl ⟨rfl, hi2⟩
      | true =>
        refine Or.inr ⟨rfl, hi2.ih, hi2.irc, hi2.iits, Or.inl ⟨?_, hi2.imesh⟩⟩
        unfold atLimit at hc
        split at hc
        · simp at hc
        · rename_i m hpm
          have hc' : m ≤ s2.its + 1 := by simpa using hc
          rw [hpm, le_antisymm (hi2.iits m hpm) hc']

/-- What is returned.  The edge length is `h` or `max(h/2^k, min_h)`, there were at most `resample` resamplings and `max_iter` iterations, and either the limit was reached and the mesh is
the input (no iteration) or comes from the remesher with the current edge length; or the flow met a singularity, and the mesh is the input or an earlier mesh without singularity; or all
resamplings were done, and the mesh is the result of the flow, without singularity, where all samples were fitted before the step or the edge length is at most `min_h`. -/
theorem C109_returned (x : Ext M B) (p : Params) (V : M) (U : B) (h minH : ℝ) (hm : 0 < minH) (n : ℕ) (s : State M B) (hs : reachSpheres x p V U h minH n = .returned s) :
    Halved h minH s.h ∧ s.rc ≤ p.resample ∧ (∀ m, p.maxIter = some m → s.its ≤ m) ∧
      ((p.maxIter = some s.its ∧ (s.its = 0 ∧ s.mesh = V ∨ ∃ k A C D, x.remesh k A C D s.h = some s.mesh)) ∨
      (∃ k A C, x.singular (x.flow k A C) = true ∧ (s.mesh = V ∨ x.singular s.mesh = false)) ∨
      (x.singular s.mesh = false ∧ s.rc = p.resample ∧ ∃ k A C, s.mesh = x.flow k A C ∧ (x.invalid k A C = false ∨ s.h ≤ minH))) := by
  have key : ∀ (n k : ℕ) (s0 : State M B), Inv x p V h minH s0 → loop x p n k s0 = .returned s → Halved h minH s.h ∧ s.rc ≤ p.resample ∧ (∀ m, p.maxIter = some m → s.its ≤ m) ∧
      ((p.maxIter = some s.its ∧ (s.its = 0 ∧ s.mesh = V ∨ ∃ k A C D, x.remesh k A C D s.h = some s.mesh)) ∨
      (∃ k A C, x.singular (x.flow k A C) = true ∧ (s.mesh = V ∨ x.singular s.mesh = false)) ∨
      (x.singular s.mesh = false ∧ s.rc = p.resample ∧ ∃ k A C, s.mesh = x.flow k A C ∧ (x.invalid k A C = false ∨ s.h ≤ minH))) := by
    intro n
    induction n with
    | zero => intro k s0 _ h; simp [loop] at h
    | succ n ih =>
      intro k s0 hi hl
      rw [loop] at hl
      split at hl
      · simp at hl
      · rename_i s' he
        obtain rfl : s' = s := by simpa using hl
        rcases inv_step x p V h minH hm k s0 s' hi true he with ⟨h, -⟩ | ⟨-, h⟩
        · simp at h
        · exact h
      · rename_i s' he
        rcases inv_step x p V h minH hm k s0 s' hi false he with ⟨-, h⟩ | ⟨h, -⟩
        · exact ih (k + 1) s' h hl
        · simp at h
  refine key n 0 _ ⟨rfl, Or.inl rfl, Nat.zero_le _, fun m _ => Nat.zero_le _, Or.inl rfl, fun h => absurd h (by simp [initial]), Or.inl ⟨rfl, rfl⟩⟩ hs

/-- the hypotheses can be met: a flow that halves a number, fitted when it is below one -/
noncomputable def exExt : Ext ℝ Unit where
  flow := fun _ V _ => V / 2
  invalid := fun _ V _ => decide (1 ≤ V)
  singular := fun _ => false
  err := fun _ _ _ V' => |V'|
  resample := fun _ _ _ => some ()
  remesh := fun _ _ _ V _ => some V

example : (∀ k V U V', 0 ≤ exExt.err k V U V') ∧ ∃ s, reachSpheres exExt ⟨none, 1 / 100, 0⟩ 3 () (1 / 10) (1 / 100) 3 = .returned s ∧ s.mesh = 3 / 8 := by
  refine ⟨fun _ _ _ V' => abs_nonneg V', ?_⟩
  have h1 : iteration exExt ⟨none, 1 / 100, 0⟩ 0 (initial 3 () (1 / 10) (1 / 100)) = some (false, ⟨3 / 2, (), 1 / 10, 1 / 100, 1, 0, some (3 / 2), 0, 3⟩) := by
    unfold iteration
    norm_num [atLimit, exExt, initial, refine, track, abs_of_pos]
  have h2 : iteration exExt ⟨none, 1 / 100, 0⟩ 1 ⟨3 / 2, (), 1 / 10, 1 / 100, 1, 0, some (3 / 2), 0, 3⟩ = some (false, ⟨3 / 4, (), 1 / 10, 1 / 100, 2, 0, some (3 / 4), 0, 3⟩) := by
    unfold iteration
    norm_num [atLimit, exExt, refine, track, abs_of_pos]
  have h3 : iteration exExt ⟨none, 1 / 100, 0⟩ 2 ⟨3 / 4, (), 1 / 10, 1 / 100, 2, 0, some (3 / 4), 0, 3⟩ = some (true, ⟨3 / 8, (), 1 / 10, 1 / 100, 2, 0, some (3 / 8), 0, 3⟩) := by
    unfold iteration
    norm_num [atLimit, exExt, refine, track, abs_of_pos]
  refine ⟨⟨3 / 8, (), 1 / 10, 1 / 100, 2, 0, some (3 / 8), 0, 3⟩, ?_, rfl⟩
  unfold reachSpheres
  rw [loop, h1]
  dsimp only
  rw [loop, h2]
  dsimp only
  rw [loop, h3]

end Gpy.Spheres
