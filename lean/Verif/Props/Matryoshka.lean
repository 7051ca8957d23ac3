import Verif.Proofs.Matryoshka3
import Verif.Proofs.Aabb
import Verif.Props.Swarm

/-! C98: `matryoshka`. -/

set_option autoImplicit false
namespace Gpy

noncomputable section

theorem psq_neg3 (v : Pt 3) : psq (fun i => -v i) = psq v := by rw [psq3, psq3]; ring

theorem flip_unit (b : Bool) {v : Pt 3} (h : psq v = 1) : psq (flipIf b v) = 1 := by
  unfold flipIf; split_ifs
  · rw [psq_neg3]; exact h
  · exact h

theorem pdot_neg_left (v n : Pt 3) : pdot (fun i => -v i) n = -pdot v n := by rw [pdot3, pdot3]; ring

/-- The plane normal and the removal directions of a configuration have length one. -/
def UnitDirs (g : MCfg) : Prop := psq g.n = 1 ∧ psq g.ap = 1 ∧ psq g.am = 1

theorem decodeAll_unit (Ac : Pt 3) (x : Pt 16) : UnitDirs (decodeAll Ac x) :=
  ⟨mNormalize_unit _, flip_unit _ (mNormalize_unit _), flip_unit _ (mNormalize_unit _)⟩

theorem decodeAll_sides (Ac : Pt 3) (x : Pt 16) : 0 ≤ pdot (decodeAll Ac x).ap (decodeAll Ac x).n ∧ pdot (decodeAll Ac x).am (decodeAll Ac x).n ≤ 0 := by
  unfold decodeAll
  simp only
  constructor
  · unfold flipIf
    split_ifs with h
    · rw [pdot_neg_left]; have := of_decide_eq_true h; linarith
    · simpa using h
  · unfold flipIf
    split_ifs with h
    · rw [pdot_neg_left]; have := of_decide_eq_true h; linarith
    · simpa using h

/-- The points that are tested: the vertices of `B` and the samples. -/
def MArgs.points (a : MArgs) : List (Pt 3) := a.VB.getD a.V ++ a.samples

theorem mPrep_some {a : MArgs} {p : MPrep} (h : mPrep a = some p) :
    colMean (a.VB.getD a.V) = some p.Bc ∧ colMean a.V = some p.Ac ∧ npAmin a.V = some p.Amin ∧ npAmax a.V = some p.Amax ∧ p.samplesB = a.points ∧
    psq p.n = 1 ∧ psq p.ap = 1 ∧ psq p.am = 1 ∧ p.n = (a.n.map mNormalize).getD ![0, 0, 1] ∧ p.cp = a.cp.getD p.Ac ∧
    p.ap = (a.ap.map mNormalize).getD p.n ∧ p.am = (a.am.map mNormalize).getD (fun i => -p.n i) := by
  unfold mPrep at h
  simp only [Option.bind_eq_bind] at h
  obtain ⟨Bc, h1, h⟩ := Option.bind_eq_some_iff.mp h
  obtain ⟨Ac, h2, h⟩ := Option.bind_eq_some_iff.mp h
  obtain ⟨mi, h3, h⟩ := Option.bind_eq_some_iff.mp h
  obtain ⟨ma, h4, h⟩ := Option.bind_eq_some_iff.mp h
  cases h
  have hn : psq ((a.n.map mNormalize).getD ![0, 0, 1]) = 1 := by
    cases a.n with
    | none => simp only [Option.map_none, Option.getD_none]; rw [psq3]; simp
    | some v => exact mNormalize_unit v
  refine ⟨h1, h2, h3, h4, rfl, hn, ?_, ?_, rfl, rfl, rfl, rfl⟩
  · show psq ((a.ap.map mNormalize).getD _) = 1
    cases a.ap with
    | none => exact hn
    | some v => exact mNormalize_unit v
  · show psq ((a.am.map mNormalize).getD _) = 1
    cases a.am with
    | none => simp only [Option.map_none, Option.getD_none]; rw [psq_neg3]; exact hn
    | some v => exact mNormalize_unit v

theorem mSearch_spec {n : ℕ} {o : MQuery} {p : MPrep} {tol : ℝ} {decode : Pt n → MCfg} {lb ub : Pt n} {w : SwarmRand n} {nP maxIter : ℕ}
    {best0 : ℝ × Option (Pt n)} {r : MRes} (h : mSearch o p tol decode lb ub w nP maxIter best0 = some r)
    (h0 : best0 = (0, none) ∨ ∃ x, best0 = (mScore o p tol (decode x), some x)) :
    ∃ run, runSwarm w (fun x => ((-mScore o p tol (decode x) : ℝ) : WithTop ℝ)) lb ub nP maxIter = some run ∧ best0.1 ≤ r.s ∧
      (∀ x ∈ run.2.2, mScore o p tol (decode x) ≤ r.s) ∧
      (r = ⟨0, p.Bc, ⟨1, p.Ac, p.cp, p.n, p.ap, p.am⟩⟩ ∨
        ∃ x, r = ⟨mScore o p tol (decode x), p.Bc, decode x⟩ ∧ (x ∈ run.2.2 ∨ best0 = (mScore o p tol (decode x), some x))) := by
  unfold mSearch at h
  simp only [Option.bind_eq_bind] at h
  obtain ⟨run, hrun, h⟩ := Option.bind_eq_some_iff.mp h
  refine ⟨run, hrun, ?_⟩
  obtain ⟨t1, t2, t3⟩ := track_spec (fun x => mScore o p tol (decode x)) best0 run.2.2.reverse
  set b := run.2.2.reverse.foldl (trackBest (fun x => mScore o p tol (decode x))) best0 with hb
  have hr := (Option.some.inj h).symm
  rcases t3 with t3 | ⟨x, hx, hbx, -⟩
  · rcases h0 with h0 | ⟨x, h0⟩
    · have hb2 : b = (0, none) := t3.trans h0
      rw [hb2] at hr t1 t2
      simp only [Option.map_none, Option.getD_none] at hr
      rw [hr]
      exact ⟨t1, fun x hx => t2 x (List.mem_reverse.mpr hx), Or.inl rfl⟩
    · have hb2 : b = (mScore o p tol (decode x), some x) := t3.trans h0
      rw [hb2] at hr t1 t2
      simp only [Option.map_some, Option.getD_some] at hr
      rw [hr]
      exact ⟨t1, fun x hx => t2 x (List.mem_reverse.mpr hx), Or.inr ⟨x, rfl, Or.inr h0⟩⟩
  · rw [hbx] at hr t1 t2
    simp only [Option.map_some, Option.getD_some] at hr
    rw [hr]
    exact ⟨t1, fun x hx => t2 x (List.mem_reverse.mpr hx), Or.inr ⟨x, rfl, Or.inl (List.mem_reverse.mp hx)⟩⟩

theorem warmBest_form (o : MQuery) (p : MPrep) (tol : ℝ) (seed : Option MRes) :
    warmBest o p tol seed = (0, none) ∨ ∃ x, warmBest o p tol seed = (mScore o p tol (decodeAll p.Ac x), some x) := by
  unfold warmBest
  cases seed with
  | none => exact Or.inl rfl
  | some r =>
    simp only
    split_ifs
    · exact Or.inr ⟨_, rfl⟩
    · exact Or.inl rfl

/-- What every call returns: a configuration with the scale found for it, or (never with `'scale_only'`) scale 0 with the default configuration. -/
theorem matry_outcome {o : MQuery} {a : MArgs} {mode : MMode} {r : MRes} (h : matryoshka o a mode = some r) :
    ∃ p, mPrep a = some p ∧ r.Bc = p.Bc ∧ UnitDirs r.g ∧
      ((r.s = 0 ∧ mode ≠ .scaleOnly) ∨ r.s = mScore o p a.tol r.g) ∧ (mode ≠ .scaleOnly → IsRotation3 r.g.R) := by
  cases mode with
  | scaleOnly =>
    unfold matryoshka matryoshkaScale at h
    simp only [Option.bind_eq_bind] at h
    obtain ⟨p, hp, h⟩ := Option.bind_eq_some_iff.mp h
    cases h
    obtain ⟨-, -, -, -, -, u1, u2, u3, -⟩ := mPrep_some hp
    exact ⟨p, hp, rfl, ⟨u1, u2, u3⟩, Or.inr rfl, fun hne => absurd rfl hne⟩
  | rigid w =>
    unfold matryoshka matryoshkaRigid at h
    simp only [Option.bind_eq_bind] at h
    obtain ⟨p, hp, h⟩ := Option.bind_eq_some_iff.mp h
    obtain ⟨-, -, -, -, -, u1, u2, u3, -⟩ := mPrep_some hp
    obtain ⟨run, -, -, -, h3⟩ := mSearch_spec h (Or.inl rfl)
    rcases h3 with rfl | ⟨x, rfl, -⟩
    · exact ⟨p, hp, rfl, ⟨u1, u2, u3⟩, Or.inl ⟨rfl, by simp⟩, fun _ => isRotation3_one⟩
    · exact ⟨p, hp, rfl, ⟨u1, u2, u3⟩, Or.inr rfl, fun _ => axisAngle_rot _⟩
  | all warm w =>
    unfold matryoshka matryoshkaAll at h
    simp only [Option.bind_eq_bind] at h
    obtain ⟨p, hp, h⟩ := Option.bind_eq_some_iff.mp h
    obtain ⟨seed, hs, h⟩ := Option.bind_eq_some_iff.mp h
    obtain ⟨-, -, -, -, -, u1, u2, u3, -⟩ := mPrep_some hp
    obtain ⟨run, -, -, -, h3⟩ := mSearch_spec h (warmBest_form o p a.tol seed)
    rcases h3 with rfl | ⟨x, rfl, -⟩
    · exact ⟨p, hp, rfl, ⟨u1, u2, u3⟩, Or.inl ⟨rfl, by simp⟩, fun _ => isRotation3_one⟩
    · exact ⟨p, hp, rfl, decodeAll_unit _ _, Or.inr rfl, fun _ => axisAngle_rot _⟩

/-- **C98 (nesting)** in every mode, for every warm start and all random numbers: if the returned scale is positive, the copy of `B` with the returned
scale, rotation, centre, cut plane and removal directions nests in `A` — every vertex of `B` and every sample is inside `A` and the two parts
can be pulled off.  `B_center` is the mean of the vertices of `B`. -/
theorem C98_nested {o : MQuery} {a : MArgs} {mode : MMode} {r : MRes} (h : matryoshka o a mode = some r) :
    colMean (a.VB.getD a.V) = some r.Bc ∧ (0 < r.s → Nested o (a.VB.getD a.V ++ a.samples) r.s r.Bc r.g) := by
  obtain ⟨p, hp, hbc, ⟨-, u2, u3⟩, hs, -⟩ := matry_outcome h
  obtain ⟨m1, -, -, -, m5, -⟩ := mPrep_some hp
  refine ⟨by rw [hbc]; exact m1, fun hpos => ?_⟩
  rcases hs with ⟨hs, -⟩ | hs
  · rw [hs] at hpos; exact absurd hpos (lt_irrefl _)
  · have key := largestScale_spec (mFeasAt o p.samplesB p.Bc r.g) a.tol
    change r.s = largestScale (mFeasAt o p.samplesB p.Bc r.g) a.tol at hs
    rw [← hs] at key
    rw [show a.VB.getD a.V ++ a.samples = p.samplesB from m5.symm, hbc]
    refine (feasAt_iff o p.samplesB p.Bc r.g u2 u3 r.s).mp ?_
    rcases key with ⟨k, -⟩ | ⟨k, k'⟩ | ⟨-, -, k, -⟩
    · rw [k] at hpos; exact absurd hpos (lt_irrefl _)
    · rw [k]; exact k'
    · exact k

/-- **C98 (range and maximality)** the scale is 0 or between `1e-3` and 1; if it is positive and less than 1, some larger scale, at most the tolerance
(or the resolution of 15 bisection steps) above, does not nest; with `'scale_only'`, scale 0 means that scale `1e-3` does not nest. -/
theorem C98_maximal {o : MQuery} {a : MArgs} {mode : MMode} {r : MRes} (h : matryoshka o a mode = some r) :
    (r.s = 0 ∧ (mode = .scaleOnly → ¬ Nested o (a.VB.getD a.V ++ a.samples) (1 / 1000) r.Bc r.g)) ∨ r.s = 1 ∨
    (1 / 1000 ≤ r.s ∧ r.s < 1 ∧ ∃ s', r.s < s' ∧ s' ≤ 1 ∧ s' ≤ r.s + max a.tol (999 / 1000 / 2 ^ 15) ∧
      ¬ Nested o (a.VB.getD a.V ++ a.samples) s' r.Bc r.g) := by
  obtain ⟨p, hp, hbc, ⟨-, u2, u3⟩, hs, -⟩ := matry_outcome h
  obtain ⟨m1, -, -, -, m5, -⟩ := mPrep_some hp
  rw [show a.VB.getD a.V ++ a.samples = p.samplesB from m5.symm, hbc]
  rcases hs with ⟨hs, hne⟩ | hs
  · exact Or.inl ⟨hs, fun he => absurd he hne⟩
  · have key := largestScale_spec (mFeasAt o p.samplesB p.Bc r.g) a.tol
    change r.s = largestScale (mFeasAt o p.samplesB p.Bc r.g) a.tol at hs
    rw [← hs] at key
    have neg : ∀ s, mFeasAt o p.samplesB p.Bc r.g s = false → ¬ Nested o p.samplesB s p.Bc r.g := fun s hf hn => by
      rw [(feasAt_iff o p.samplesB p.Bc r.g u2 u3 s).mpr hn] at hf; cases hf
    rcases key with ⟨k, k'⟩ | ⟨k, -⟩ | ⟨k1, k2, -, s', k3, k4, k5, k6⟩
    · refine Or.inl ⟨k, fun _ => neg _ ?_⟩
      rw [← k']; norm_num
    · exact Or.inr (Or.inl k)
    · refine Or.inr (Or.inr ⟨by rw [show (1:ℝ) / 1000 = 1 / 10 ^ 3 by norm_num]; exact k1, k2, s', k4, k5, ?_, neg _ k3⟩)
      rw [show (999:ℝ) / 1000 / 2 ^ 15 = (1 - 1 / 10 ^ 3) / 2 ^ 15 by norm_num]; exact k6

/-- **C98 (rotation and directions)** `R` is a rotation matrix whenever it is optimised, the plane normal and the removal directions have length one, and
when they are optimised the upper part is removed upwards and the lower part downwards (unless no feasible configuration was met: scale 0). -/
theorem C98_directions {o : MQuery} {a : MArgs} {mode : MMode} {r : MRes} (h : matryoshka o a mode = some r) :
    (mode ≠ .scaleOnly → r.g.R * r.g.R.transpose = 1 ∧ r.g.R.det = 1) ∧ psq r.g.n = 1 ∧ psq r.g.ap = 1 ∧ psq r.g.am = 1 ∧
    ((∃ warm w, mode = .all warm w) → 0 < r.s → 0 ≤ pdot r.g.ap r.g.n ∧ pdot r.g.am r.g.n ≤ 0) := by
  obtain ⟨p, hp, hbc, ⟨u1, u2, u3⟩, hs, hR⟩ := matry_outcome h
  refine ⟨hR, u1, u2, u3, ?_⟩
  rintro ⟨warm, w, rfl⟩ hpos
  unfold matryoshka matryoshkaAll at h
  simp only [Option.bind_eq_bind] at h
  obtain ⟨p, hp, h⟩ := Option.bind_eq_some_iff.mp h
  obtain ⟨seed, hs, h⟩ := Option.bind_eq_some_iff.mp h
  obtain ⟨run, -, -, -, h3⟩ := mSearch_spec h (warmBest_form o p a.tol seed)
  rcases h3 with rfl | ⟨x, rfl, -⟩
  · exact absurd hpos (lt_irrefl _)
  · exact decodeAll_sides _ _

end

end Gpy
