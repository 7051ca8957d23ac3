import Verif.Props.Matryoshka

/-! C98: `matryoshka`, the search and the warm start. -/

set_option autoImplicit false
namespace Gpy

noncomputable section

theorem scaleOf_eq {o : MQuery} {a : MArgs} {p : MPrep} (hp : mPrep a = some p) {g : MCfg} (hg : UnitDirs g) : scaleOf o a g = mScore o p a.tol g := by
  obtain ⟨m1, m2, m3, m4, m5, -⟩ := mPrep_some hp
  unfold scaleOf matryoshka matryoshkaScale mPrep
  simp only [Option.bind_eq_bind, m1, m2, m3, m4, Option.bind_some, Option.map_some, Option.getD_some]
  rw [mNormalize_of_unit hg.1, mNormalize_of_unit hg.2.1, mNormalize_of_unit hg.2.2]
  unfold mScore
  simp only
  rw [show a.VB.getD a.V ++ a.samples = p.samplesB from m5.symm]

theorem runSwarm_total {n : ℕ} {w : SwarmRand n} {f : Pt n → WithTop ℝ} {lb ub : Pt n} {nP maxIter : ℕ} (hb : ∀ j, lb j ≤ ub j) (hnP : 0 < nP)
    (hw : w.Ok lb ub) (hf : ∀ x, f x ≠ ⊤) :
    ∃ x v evals, runSwarm w f lb ub nP maxIter = some (x, v, evals) ∧ BestOf f lb ub x v evals ∧ evals.length = nP * (maxIter + 1) := by
  unfold runSwarm
  split_ifs with hc
  · exact C40_cpp hb nP maxIter hnP _ _ _ _ _ _ _ (hw.1 hc)
  · exact C40_python hb nP maxIter _ _ _ _ _ _ _ (fun i _ j => hw.2 (by simpa using hc) i j) ⟨0, hnP, hf _⟩ (by simp)

theorem amin_le_amax {l : List (Pt 3)} {lo hi : Pt 3} (h1 : npAmin l = some lo) (h2 : npAmax l = some hi) (j : Fin 3) : lo j ≤ hi j := by
  have hne : l ≠ [] := by rintro rfl; cases h1
  obtain ⟨lo', e1, a, -⟩ := npAmin_spec hne
  obtain ⟨hi', e2, b, -⟩ := npAmax_spec hne
  rw [h1] at e1; rw [h2] at e2
  cases e1; cases e2
  obtain ⟨x, hx⟩ := List.exists_mem_of_ne_nil l hne
  exact le_trans (a x hx j) (b x hx j)

theorem box_rigid {a : MArgs} {p : MPrep} (hp : mPrep a = some p) (j : Fin 6) : lbRigid p j ≤ ubRigid p j := by
  obtain ⟨-, -, m3, m4, -⟩ := mPrep_some hp
  have h := amin_le_amax m3 m4
  have hpi := Real.pi_pos
  fin_cases j <;> simp [lbRigid, ubRigid, h] <;> linarith

theorem box_all {a : MArgs} {p : MPrep} (hp : mPrep a = some p) (j : Fin 16) : lbAll p j ≤ ubAll p j := by
  obtain ⟨-, -, m3, m4, -⟩ := mPrep_some hp
  have h := amin_le_amax m3 m4
  have hpi := Real.pi_pos
  have hm : 0 ≤ maxOffset p := mul_nonneg (by norm_num) (Real.sqrt_nonneg _)
  fin_cases j <;> simp [lbAll, ubAll, h] <;> linarith

/-- **C98 (best of the search, rigid)** the run of the particle swarm evaluates `n_particles*(max_iter+1)` configurations inside the documented box
(angles within `±π`, centre inside the bounding box of `A`); the returned scale is at least the scale that `'scale_only'` finds for each of
them, and a positive returned scale is the one found for one of them, which is returned. -/
theorem C98_best_rigid {o : MQuery} {a : MArgs} {p : MPrep} (hp : mPrep a = some p) {w : SwarmRand 6} (hw : w.Ok (lbRigid p) (ubRigid p)) (hnP : 0 < a.nP) :
    ∃ (r : MRes) (best : Pt 6 × WithTop ℝ) (evals : List (Pt 6)), matryoshka o a (.rigid w) = some r ∧
      runSwarm w (fun x => ((-scaleOf o a (decodeRigid p.cp p.n p.ap p.am x) : ℝ) : WithTop ℝ)) (lbRigid p) (ubRigid p) a.nP a.maxIter = some (best.1, best.2, evals) ∧
      evals.length = a.nP * (a.maxIter + 1) ∧ (∀ x ∈ evals, ∀ j, lbRigid p j ≤ x j ∧ x j ≤ ubRigid p j) ∧
      (∀ x ∈ evals, scaleOf o a (decodeRigid p.cp p.n p.ap p.am x) ≤ r.s) ∧
      (0 < r.s → ∃ x ∈ evals, r.g = decodeRigid p.cp p.n p.ap p.am x ∧ r.s = scaleOf o a r.g) := by
  obtain ⟨-, -, -, -, -, u1, u2, u3, -⟩ := mPrep_some hp
  have hsc : ∀ x, scaleOf o a (decodeRigid p.cp p.n p.ap p.am x) = mScore o p a.tol (decodeRigid p.cp p.n p.ap p.am x) := fun x => scaleOf_eq hp ⟨u1, u2, u3⟩
  simp only [hsc]
  obtain ⟨xb, v, evals, hrun, hbest, hlen⟩ := runSwarm_total (f := fun x => ((-mScore o p a.tol (decodeRigid p.cp p.n p.ap p.am x) : ℝ) : WithTop ℝ)) (maxIter := a.maxIter) (box_rigid hp) hnP hw (fun x => WithTop.coe_ne_top)
  obtain ⟨r, hr⟩ : ∃ r, mSearch o p a.tol (decodeRigid p.cp p.n p.ap p.am) (lbRigid p) (ubRigid p) w a.nP a.maxIter (0, none) = some r := by
    unfold mSearch
    simp only [Option.bind_eq_bind, hrun, Option.bind_some]
    exact ⟨_, rfl⟩
  obtain ⟨run, hrun', -, h2, h3⟩ := mSearch_spec hr (Or.inl rfl)
  rw [hrun] at hrun'
  cases hrun'
  refine ⟨r, (xb, v), evals, ?_, hrun, hlen, hbest.2.2.2, h2, ?_⟩
  · unfold matryoshka matryoshkaRigid
    simp only [Option.bind_eq_bind, hp, Option.bind_some]
    exact hr
  · intro hpos
    rcases h3 with rfl | ⟨x, rfl, hx | hx⟩
    · exact absurd hpos (lt_irrefl _)
    · exact ⟨x, hx, rfl, (hsc x).symm⟩
    · exact absurd (congrArg Prod.snd hx) (by simp)

/-- **C98 (best of the search, all variables)** the same when everything is optimised, without a warm start. -/
theorem C98_best_all {o : MQuery} {a : MArgs} {p : MPrep} (hp : mPrep a = some p) {w : SwarmRand 16} (hw : w.Ok (lbAll p) (ubAll p)) (hnP : 0 < a.nP) :
    ∃ (r : MRes) (best : Pt 16 × WithTop ℝ) (evals : List (Pt 16)), matryoshka o a (.all .off w) = some r ∧
      runSwarm w (fun x => ((-scaleOf o a (decodeAll p.Ac x) : ℝ) : WithTop ℝ)) (lbAll p) (ubAll p) a.nP a.maxIter = some (best.1, best.2, evals) ∧
      evals.length = a.nP * (a.maxIter + 1) ∧ (∀ x ∈ evals, ∀ j, lbAll p j ≤ x j ∧ x j ≤ ubAll p j) ∧
      (∀ x ∈ evals, scaleOf o a (decodeAll p.Ac x) ≤ r.s) ∧
      (0 < r.s → ∃ x ∈ evals, r.g = decodeAll p.Ac x ∧ r.s = scaleOf o a r.g) := by
  have hsc : ∀ x, scaleOf o a (decodeAll p.Ac x) = mScore o p a.tol (decodeAll p.Ac x) := fun x => scaleOf_eq hp (decodeAll_unit _ _)
  simp only [hsc]
  obtain ⟨xb, v, evals, hrun, hbest, hlen⟩ := runSwarm_total (f := fun x => ((-mScore o p a.tol (decodeAll p.Ac x) : ℝ) : WithTop ℝ)) (maxIter := a.maxIter) (box_all hp) hnP hw (fun x => WithTop.coe_ne_top)
  obtain ⟨r, hr⟩ : ∃ r, mSearch o p a.tol (decodeAll p.Ac) (lbAll p) (ubAll p) w a.nP a.maxIter (0, none) = some r := by
    unfold mSearch
    simp only [Option.bind_eq_bind, hrun, Option.bind_some]
    exact ⟨_, rfl⟩
  obtain ⟨run, hrun', -, h2, h3⟩ := mSearch_spec hr (Or.inl rfl)
  rw [hrun] at hrun'
  cases hrun'
  refine ⟨r, (xb, v), evals, ?_, hrun, hlen, hbest.2.2.2, h2, ?_⟩
  · unfold matryoshka matryoshkaAll
    simp only [Option.bind_eq_bind, hp, Option.bind_some, warmSeed, warmBest]
    exact hr
  · intro hpos
    rcases h3 with rfl | ⟨x, rfl, hx | hx⟩
    · exact absurd hpos (lt_irrefl _)
    · exact ⟨x, hx, rfl, (hsc x).symm⟩
    · exact absurd (congrArg Prod.snd hx) (by simp)

/-- `mPrep` succeeds exactly on nonempty vertex lists. -/
theorem mPrep_total {a : MArgs} (hV : a.V ≠ []) (hB : a.VB ≠ some []) : ∃ p, mPrep a = some p := by
  have hB' : a.VB.getD a.V ≠ [] := by
    cases h : a.VB with
    | none => exact hV
    | some l => rintro e; exact hB (by rw [h]; exact congrArg some e)
  obtain ⟨lo, e1, -⟩ := npAmin_spec hV
  obtain ⟨hi, e2, -⟩ := npAmax_spec hV
  unfold mPrep colMean
  simp only [Option.bind_eq_bind, if_neg hV, if_neg hB', Option.bind_some, e1, e2]
  exact ⟨_, rfl⟩

theorem pdot_cp (Ac cp n q : Pt 3) (hn : psq n = 1) :
    pdot (fun i => q i - (Ac i + pdot (fun i => cp i - Ac i) n * n i)) n = pdot (fun i => q i - cp i) n := by
  rw [psq3] at hn
  simp only [pdot3]
  linear_combination (-((cp 0 - Ac 0) * n 0 + (cp 1 - Ac 1) * n 1 + (cp 2 - Ac 2) * n 2)) * hn

open Classical in
/-- Encoding and decoding a configuration: the same rotation, centre and plane, the directions turned to the right side. -/
theorem decode_encode {g : MCfg} (hg : UnitDirs g) (hR : ExactRotation g.R) (Ac : Pt 3) :
    (decodeAll Ac (encodeAll g Ac)).R = g.R ∧ (decodeAll Ac (encodeAll g Ac)).c = g.c ∧ (decodeAll Ac (encodeAll g Ac)).n = g.n ∧
    (∀ q, planeSide (decodeAll Ac (encodeAll g Ac)) q = planeSide g q) ∧
    (decodeAll Ac (encodeAll g Ac)).ap = flipIf (decide (pdot g.ap g.n < 0)) g.ap ∧
    (decodeAll Ac (encodeAll g Ac)).am = flipIf (decide (pdot g.am g.n > 0)) g.am := by
  have eta : ∀ v : Pt 3, ![v 0, v 1, v 2] = v := fun v => by funext i; fin_cases i <;> rfl
  obtain ⟨u1, u2, u3⟩ := hg
  have en : (decodeAll Ac (encodeAll g Ac)).n = g.n := by
    show mNormalize ![mNormalize g.n 0, mNormalize g.n 1, mNormalize g.n 2] = g.n
    rw [eta, mNormalize_of_unit u1, mNormalize_of_unit u1]
  have fl : ∀ (b : Bool) (v : Pt 3), psq v = 1 → mNormalize (flipIf b v) = flipIf b v := fun b v h => mNormalize_of_unit (flip_unit b h)
  refine ⟨?_, ?_, en, ?_, ?_, ?_⟩
  · show axisAngleToMatrix ![matrixToAxisAngle g.R 0, matrixToAxisAngle g.R 1, matrixToAxisAngle g.R 2] = g.R
    rw [eta]
    exact roundTrip hR.1 hR.2.1 hR.2.2
  · exact eta g.c
  · intro q
    unfold planeSide
    rw [en]
    show pdot (fun i => q i - (Ac i + pdot (fun i => g.cp i - Ac i) (mNormalize g.n) * mNormalize ![mNormalize g.n 0, mNormalize g.n 1, mNormalize g.n 2] i)) g.n = _
    rw [eta, mNormalize_of_unit u1, mNormalize_of_unit u1]
    exact pdot_cp Ac g.cp g.n q u1
  · have e : (decodeAll Ac (encodeAll g Ac)).ap = flipIf (decide (pdot (mNormalize (flipIf (decide (pdot (mNormalize g.ap) (mNormalize g.n) < 0)) (mNormalize g.ap))) (decodeAll Ac (encodeAll g Ac)).n < 0)) (mNormalize (flipIf (decide (pdot (mNormalize g.ap) (mNormalize g.n) < 0)) (mNormalize g.ap))) := by
      conv_rhs => rw [← eta (flipIf (decide (pdot (mNormalize g.ap) (mNormalize g.n) < 0)) (mNormalize g.ap))]
      rfl
    rw [e, en, mNormalize_of_unit u1, mNormalize_of_unit u2, fl _ _ u2]
    have : ¬ pdot (flipIf (decide (pdot g.ap g.n < 0)) g.ap) g.n < 0 := by
      unfold flipIf
      split_ifs with h
      · rw [pdot_neg_left]; have := of_decide_eq_true h; linarith
      · simpa using h
    rw [decide_eq_false this]
    rfl
  · have e : (decodeAll Ac (encodeAll g Ac)).am = flipIf (decide (pdot (mNormalize (flipIf (decide (pdot (mNormalize g.am) (mNormalize g.n) > 0)) (mNormalize g.am))) (decodeAll Ac (encodeAll g Ac)).n > 0)) (mNormalize (flipIf (decide (pdot (mNormalize g.am) (mNormalize g.n) > 0)) (mNormalize g.am))) := by
      conv_rhs => rw [← eta (flipIf (decide (pdot (mNormalize g.am) (mNormalize g.n) > 0)) (mNormalize g.am))]
      rfl
    rw [e, en, mNormalize_of_unit u1, mNormalize_of_unit u3, fl _ _ u3]
    have : ¬ pdot (flipIf (decide (pdot g.am g.n > 0)) g.am) g.n > 0 := by
      unfold flipIf
      split_ifs with h
      · rw [pdot_neg_left]; have := of_decide_eq_true h; linarith
      · simpa using h
    rw [decide_eq_false this]
    rfl

theorem planeSide_ray (g : MCfg) (q d : Pt 3) (t : ℝ) : planeSide g (fun i => q i + t * d i) = planeSide g q + t * pdot d g.n := by
  unfold planeSide; simp only [pdot3]; ring

/-- Re-encoding a configuration keeps every scale feasible. -/
theorem nested_reencode {o : MQuery} {B : List (Pt 3)} {s : ℝ} {Bc Ac : Pt 3} {g : MCfg} (hg : UnitDirs g) (hR : ExactRotation g.R)
    (hray : RaysHit o ∨ (0 ≤ pdot g.ap g.n ∧ pdot g.am g.n ≤ 0)) (h : Nested o B s Bc g) : Nested o B s Bc (decodeAll Ac (encodeAll g Ac)) := by
  obtain ⟨e1, e2, e3, e4, e5, e6⟩ := decode_encode hg hR Ac
  obtain ⟨u1, u2, u3⟩ := hg
  have em : ∀ x, nestMap s Bc (decodeAll Ac (encodeAll g Ac)) x = nestMap s Bc g x := fun x => by unfold nestMap; rw [e1, e2]
  intro x hx
  rw [em]
  set q := nestMap s Bc g x with hq
  obtain ⟨h1, h2, h3⟩ := h x hx
  rw [← hq] at h1 h2 h3
  refine ⟨h1, ?_, ?_⟩
  · intro t ht
    rw [e5] at ht
    rw [e4, e5]
    by_cases hf : pdot g.ap g.n < 0
    · rw [decide_eq_true hf] at ht ⊢
      have hr : RaysHit o := hray.resolve_right (fun hh => absurd hf (not_lt.mpr hh.1))
      simp only [flipIf, if_true, neg_neg] at ht ⊢
      obtain ⟨t0, ht0, hr0⟩ := hr q (fun i => -g.ap i) h1 (by rw [psq_neg3]; exact u2)
      obtain ⟨t', ht', hr'⟩ := hr q g.ap h1 u2
      have : t' = t := Option.some.inj (hr'.symm.trans ht)
      subst this
      have a := h2 t0 hr0
      rw [planeSide_ray g q (fun i => -g.ap i), pdot_neg_left] at a
      rw [planeSide_ray g q g.ap]
      nlinarith
    · rw [decide_eq_false hf] at ht ⊢
      exact h2 t ht
  · intro t ht
    rw [e6] at ht
    rw [e4, e6]
    by_cases hf : pdot g.am g.n > 0
    · rw [decide_eq_true hf] at ht ⊢
      have hr : RaysHit o := hray.resolve_right (fun hh => absurd hf (not_lt.mpr hh.2))
      simp only [flipIf, if_true, neg_neg] at ht ⊢
      obtain ⟨t0, ht0, hr0⟩ := hr q (fun i => -g.am i) h1 (by rw [psq_neg3]; exact u3)
      obtain ⟨t', ht', hr'⟩ := hr q g.am h1 u3
      have : t' = t := Option.some.inj (hr'.symm.trans ht)
      subst this
      have a := h3 t0 hr0
      rw [planeSide_ray g q (fun i => -g.am i), pdot_neg_left] at a
      rw [planeSide_ray g q g.am]
      nlinarith
    · rw [decide_eq_false hf] at ht ⊢
      exact h3 t ht

/-- **C98 (warm start)** with a result dictionary of a previous call (any mode) for the same `A`, `B`, surface samples and tolerance as the seed, the returned
scale is at least the scale of the seed — if the seed's rotation survives the conversion to an axis-angle vector exactly, and either rays
from inside always hit `A` or the seed's removal directions point to the right sides of the plane. -/
theorem C98_warm_start {o : MQuery} {a a' : MArgs} {mode : MMode} {w : SwarmRand 16} {r0 r : MRes} (h0 : matryoshka o a' mode = some r0)
    (hB : a'.VB.getD a'.V = a.VB.getD a.V) (hs : a'.samples = a.samples) (ht : a'.tol = a.tol) (hR : ExactRotation r0.g.R)
    (hray : RaysHit o ∨ (0 ≤ pdot r0.g.ap r0.g.n ∧ pdot r0.g.am r0.g.n ≤ 0)) (h : matryoshka o a (.all (.dict r0) w) = some r) : r0.s ≤ r.s := by
  obtain ⟨p', hp', -, hu, hsc, -⟩ := matry_outcome h0
  unfold matryoshka matryoshkaAll at h
  simp only [Option.bind_eq_bind, warmSeed, Option.bind_some] at h
  obtain ⟨p, hp, h⟩ := Option.bind_eq_some_iff.mp h
  obtain ⟨run, -, hbest, -, -⟩ := mSearch_spec h (warmBest_form o p a.tol _)
  obtain ⟨m1, -, -, -, m5, -⟩ := mPrep_some hp
  obtain ⟨m1', -, -, -, m5', -⟩ := mPrep_some hp'
  refine le_trans ?_ hbest
  unfold warmBest
  simp only
  split_ifs with hpos
  · rcases hsc with ⟨hz, -⟩ | hsc
    · rw [hz] at hpos; exact absurd hpos (lt_irrefl _)
    · rw [hsc]
      have eBc : p'.Bc = p.Bc := by rw [hB, m1] at m1'; exact (Option.some.inj m1').symm
      have eB : p'.samplesB = p.samplesB := by rw [m5, m5']; unfold MArgs.points; rw [hB, hs]
      unfold mScore
      rw [ht, eBc, eB]
      refine largestScale_mono _ _ (fun s hf => ?_) _
      have hd := decodeAll_unit p.Ac (encodeAll r0.g p.Ac)
      exact (feasAt_iff _ _ _ _ hd.2.1 hd.2.2 s).mpr (nested_reencode hu hR hray ((feasAt_iff _ _ _ _ hu.2.1 hu.2.2 s).mp hf))
  · exact not_lt.mp hpos

/-- **C98 (warm start with True)** the seed is the result of the `'rigid'` call with the same arguments; if that call draws the same samples (as with a given
random seed), the returned scale is at least the rigid scale, under the same conditions. -/
theorem C98_warm_true {o : MQuery} {a : MArgs} {w : SwarmRand 16} {w' : SwarmRand 6} {r : MRes} (h : matryoshka o a (.all (.rigid a.samples w') w) = some r) :
    ∃ r0, matryoshka o a (.rigid w') = some r0 ∧ matryoshka o a (.all (.dict r0) w) = some r ∧
      (ExactRotation r0.g.R → (RaysHit o ∨ (0 ≤ pdot r0.g.ap r0.g.n ∧ pdot r0.g.am r0.g.n ≤ 0)) → r0.s ≤ r.s) := by
  have h' := h
  unfold matryoshka matryoshkaAll at h
  simp only [Option.bind_eq_bind] at h
  obtain ⟨p, hp, h⟩ := Option.bind_eq_some_iff.mp h
  obtain ⟨seed, hseed, h⟩ := Option.bind_eq_some_iff.mp h
  simp only [warmSeed, Option.map_eq_some_iff] at hseed
  obtain ⟨r0, hr0, rfl⟩ := hseed
  obtain ⟨m1, m2, m3, m4, m5, u1, u2, u3, -⟩ := mPrep_some hp
  have hp2 : mPrep { a with VB := some (a.VB.getD a.V), samples := a.samples, cp := some p.cp, n := some p.n, ap := some p.ap, am := some p.am } = some p := by
    unfold mPrep
    simp only [Option.bind_eq_bind, Option.getD_some, m1, m2, m3, m4, Option.bind_some, Option.map_some]
    rw [mNormalize_of_unit u1, mNormalize_of_unit u2, mNormalize_of_unit u3]
    rw [show a.VB.getD a.V ++ a.samples = p.samplesB from m5.symm]
  have e0 : matryoshka o a (.rigid w') = some r0 := by
    rw [← hr0]
    unfold matryoshka matryoshkaRigid
    simp only [Option.bind_eq_bind, hp, hp2, Option.bind_some]
  have e1 : matryoshka o a (.all (.dict r0) w) = some r := by
    unfold matryoshka matryoshkaAll
    simp only [Option.bind_eq_bind, hp, Option.bind_some, warmSeed]
    exact h
  exact ⟨r0, e0, e1, fun hR hray => C98_warm_start e0 rfl rfl rfl hR hray e1⟩

/-- **C98 (fixed values)** `'scale_only'` returns the given rotation, centre and cut point (identity, centroid of `A` if not given). -/
theorem C98_scale_only {o : MQuery} {a : MArgs} {r : MRes} (h : matryoshka o a .scaleOnly = some r) :
    r.g.R = a.R.getD 1 ∧ (∀ c, a.c = some c → r.g.c = c) ∧ (∀ c, a.cp = some c → r.g.cp = c) ∧ (a.c = none → colMean a.V = some r.g.c) ∧
    (a.cp = none → colMean a.V = some r.g.cp) ∧ (a.n = none → r.g.n = ![0, 0, 1]) ∧ (a.ap = none → r.g.ap = r.g.n) ∧ (a.am = none → r.g.am = fun i => -r.g.n i) ∧
    (∀ v, a.n = some v → 1 / 10 ^ 12 ≤ pnorm v → ∀ i, r.g.n i = v i / pnorm v) ∧ (∀ v, a.ap = some v → 1 / 10 ^ 12 ≤ pnorm v → ∀ i, r.g.ap i = v i / pnorm v) ∧
    (∀ v, a.am = some v → 1 / 10 ^ 12 ≤ pnorm v → ∀ i, r.g.am i = v i / pnorm v) := by
  unfold matryoshka matryoshkaScale at h
  simp only [Option.bind_eq_bind] at h
  obtain ⟨p, hp, h⟩ := Option.bind_eq_some_iff.mp h
  cases h
  obtain ⟨m1, m2, m3, m4, m5, u1, u2, u3, en, ecp, eap, eam⟩ := mPrep_some hp
  have nn : ∀ v : Pt 3, 1 / 10 ^ 12 ≤ pnorm v → ∀ i, mNormalize v i = v i / pnorm v := fun v hv i => by
    unfold mNormalize; rw [if_neg (not_lt.mpr hv)]
  refine ⟨rfl, ?_, ?_, ?_, ?_, ?_, ?_, ?_, ?_, ?_, ?_⟩
  · intro c hc; simp [hc]
  · intro c hc; rw [hc] at ecp; exact ecp
  · intro hc; simp only [hc, Option.getD_none]; exact m2
  · intro hc; rw [hc] at ecp; show colMean a.V = some p.cp; rw [ecp]; exact m2
  · intro hc; rw [hc] at en; exact en
  · intro hc; rw [hc] at eap; exact eap
  · intro hc; rw [hc] at eam; exact eam
  · intro v hv hl i; rw [hv] at en; show p.n i = _; rw [en]; exact nn v hl i
  · intro v hv hl i; rw [hv] at eap; show p.ap i = _; rw [eap]; exact nn v hl i
  · intro v hv hl i; rw [hv] at eam; show p.am i = _; rw [eam]; exact nn v hl i

/-- **C98 (a result exists)** `matryoshka` returns a result for all nonempty vertex lists and at least one particle. -/
theorem C98_total {o : MQuery} {a : MArgs} (hV : a.V ≠ []) (hB : a.VB ≠ some []) (hnP : 0 < a.nP) :
    (∃ r, matryoshka o a .scaleOnly = some r) ∧
    ∃ p, mPrep a = some p ∧ (∀ w : SwarmRand 6, w.Ok (lbRigid p) (ubRigid p) → ∃ r, matryoshka o a (.rigid w) = some r) ∧
      (∀ (w : SwarmRand 16) (warm : WarmStart), w.Ok (lbAll p) (ubAll p) → (∀ s w', warm = .rigid s w' → w'.Ok (lbRigid p) (ubRigid p)) →
        ∃ r, matryoshka o a (.all warm w) = some r) := by
  obtain ⟨p, hp⟩ := mPrep_total hV hB
  have hsearch : ∀ (w : SwarmRand 16) (hw : w.Ok (lbAll p) (ubAll p)) (b0 : ℝ × Option (Pt 16)), ∃ r, mSearch o p a.tol (decodeAll p.Ac) (lbAll p) (ubAll p) w a.nP a.maxIter b0 = some r := by
    intro w hw b0
    obtain ⟨xb, v, evals, hrun, -, -⟩ := runSwarm_total (f := fun x => ((-mScore o p a.tol (decodeAll p.Ac x) : ℝ) : WithTop ℝ)) (maxIter := a.maxIter) (box_all hp) hnP hw (fun x => WithTop.coe_ne_top)
    unfold mSearch
    simp only [Option.bind_eq_bind, hrun, Option.bind_some]
    exact ⟨_, rfl⟩
  refine ⟨?_, p, hp, ?_, ?_⟩
  · unfold matryoshka matryoshkaScale
    simp only [Option.bind_eq_bind, hp, Option.bind_some]
    exact ⟨_, rfl⟩
  · intro w hw
    obtain ⟨r, -, -, h, -⟩ := C98_best_rigid (o := o) hp hw hnP
    exact ⟨r, h⟩
  · intro w warm hw hwarm
    have hseed : ∃ seed, warmSeed o a p warm = some seed := by
      cases warm with
      | off => exact ⟨_, rfl⟩
      | dict r => exact ⟨_, rfl⟩
      | rigid s w' =>
        obtain ⟨m1, m2, m3, m4, m5, u1, u2, u3, -⟩ := mPrep_some hp
        have hp2 : mPrep { a with VB := some (a.VB.getD a.V), samples := s, cp := some p.cp, n := some p.n, ap := some p.ap, am := some p.am } = some { p with samplesB := a.VB.getD a.V ++ s } := by
          unfold mPrep
          simp only [Option.bind_eq_bind, Option.getD_some, m1, m2, m3, m4, Option.bind_some, Option.map_some]
          rw [mNormalize_of_unit u1, mNormalize_of_unit u2, mNormalize_of_unit u3]
        obtain ⟨r, -, -, h, -⟩ := C98_best_rigid (o := o) hp2 (w := w') (hwarm s w' rfl) hnP
        simp only [warmSeed]
        have h' : matryoshkaRigid o { a with VB := some (a.VB.getD a.V), samples := s, cp := some p.cp, n := some p.n, ap := some p.ap, am := some p.am } w' = some r := h
        rw [h']
        exact ⟨_, rfl⟩
    obtain ⟨seed, hseed⟩ := hseed
    unfold matryoshka matryoshkaAll
    simp only [Option.bind_eq_bind, hp, Option.bind_some, hseed]
    exact hsearch w hw _

end

end Gpy
