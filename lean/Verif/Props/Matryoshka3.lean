import Verif.Props.Matryoshka2

/-! C98: `matryoshka`, concrete cases. -/

set_option autoImplicit false
namespace Gpy

noncomputable section

/-- Two vertices far apart; `A` is everything outside a slab, rays never hit. -/
def exQuery : MQuery := ⟨fun q => 1 / 100 - |q 0|, fun _ _ => none⟩

def exArgs (samples : List (Pt 3)) : MArgs :=
  { V := [![-20, 0, 0], ![20, 0, 0]], VB := none, samples := samples, R := none, c := none, cp := none, n := none, ap := none, am := none, nP := 1, maxIter := 0, tol := 1 / 1000 }

def exRand (n : ℕ) : SwarmRand n := ⟨false, fun _ _ => 0, fun _ _ => 0, fun _ _ => 0, fun _ _ => 0⟩

theorem ex_prep (samples : List (Pt 3)) : ∃ p, mPrep (exArgs samples) = some p ∧ p.Bc = (fun _ => 0) ∧ p.Ac = (fun _ => 0) := by
  refine ⟨_, rfl, ?_, ?_⟩ <;>
  · funext j
    show ((![-20, 0, 0] : Pt 3) j + ((![20, 0, 0] : Pt 3) j + 0)) / ((0 + 1 + 1 : ℕ) : ℝ) = 0
    fin_cases j <;> simp

theorem ex_run {n : ℕ} (f : Pt n → ℝ) (lb ub : Pt n) : ∃ v, runSwarm (exRand n) (fun x => (f x : WithTop ℝ)) lb ub 1 0 = some ((fun _ => 0), v, [fun _ => 0]) := by
  unfold runSwarm pySwarm swarmLoop
  simp only [exRand, Bool.false_eq_true, if_false, List.range_one, List.foldl_cons, List.foldl_nil, List.range_zero, List.foldlM_nil, swarmInit, Option.pure_def, Option.bind_eq_bind, Option.bind_some]
  rw [if_pos (WithTop.coe_lt_top _)]
  exact ⟨_, rfl⟩

theorem nest_one (s : ℝ) (g : MCfg) (hR : g.R = 1) (hc : g.c = fun _ => 0) (x : Pt 3) (i : Fin 3) : nestMap s (fun _ => 0) g x i = s * x i := by
  unfold nestMap
  rw [hR, hc]
  simp [Matrix.one_apply]

/-- Without samples every scale nests. -/
theorem ex_nested (s : ℝ) (hs : 1 / 1000 ≤ s) (g : MCfg) (hR : g.R = 1) (hc : g.c = fun _ => 0) :
    Nested exQuery [![-20, 0, 0], ![20, 0, 0]] s (fun _ => 0) g := by
  intro x hx
  refine ⟨?_, ⟨fun t ht => ?_, fun t ht => ?_⟩⟩
  rotate_left
  · cases ht
  · cases ht
  show 1 / 100 - |nestMap s (fun _ => 0) g x 0| ≤ _
  rw [nest_one s g hR hc]
  have h20 : (20 : ℝ) * s ≤ |s * x 0| := by
    simp only [List.mem_cons, List.not_mem_nil, or_false] at hx
    rcases hx with rfl | rfl
    · simp [abs_mul]; nlinarith [le_abs_self s]
    · simp [abs_mul]; nlinarith [le_abs_self s]
  norm_num at *
  linarith

/-- With a sample in the middle no scale nests. -/
theorem ex_not_nested (s : ℝ) (g : MCfg) (hR : g.R = 1) (hc : g.c = fun _ => 0) :
    ¬ Nested exQuery [![-20, 0, 0], ![20, 0, 0], fun _ => 0] s (fun _ => 0) g := by
  intro h
  have := (h (fun _ => 0) (by simp)).1
  change 1 / 100 - |nestMap s (fun _ => 0) g (fun _ => 0) 0| ≤ _ at this
  rw [nest_one s g hR hc] at this
  norm_num at this

theorem ex_angle : axisAngleToMatrix (fun _ => 0) = 1 := by
  unfold axisAngleToMatrix
  simp only
  rw [if_pos]
  have : pnorm (fun _ : Fin 3 => (0 : ℝ)) = 0 := by unfold pnorm; rw [psq3]; simp
  rw [this]; positivity

theorem zeros3 : (![0, 0, 0] : Pt 3) = fun _ => 0 := by funext i; fin_cases i <;> rfl

theorem ex_rigid : ∃ r, matryoshka exQuery (exArgs []) (.rigid (exRand 6)) = some r ∧ r.s = 1 ∧ r.g.R = 1 ∧ r.g.c = fun _ => 0 := by
  obtain ⟨p, hp, hBc, hAc⟩ := ex_prep []
  obtain ⟨-, -, -, -, m5, u1, u2, u3, -⟩ := mPrep_some hp
  set dec := decodeRigid p.cp p.n p.ap p.am with hdec
  have hscore : mScore exQuery p (exArgs []).tol (dec (fun _ => 0)) = 1 := by
    have hR : (dec (fun _ => 0)).R = 1 := by show axisAngleToMatrix ![0, 0, 0] = 1; rw [zeros3, ex_angle]
    have hc : (dec (fun _ => 0)).c = fun _ => 0 := zeros3
    have hf : ∀ s, 1 / 1000 ≤ s → mFeasAt exQuery p.samplesB p.Bc (dec (fun _ => 0)) s = true := fun s hs => by
      rw [feasAt_iff _ _ _ (dec (fun _ => 0)) u2 u3, m5, hBc]
      exact ex_nested s hs _ hR hc
    unfold mScore largestScale
    rw [hf (1 / 10 ^ 3) (by norm_num), hf 1 (by norm_num)]
    simp
  obtain ⟨v, hrun⟩ := ex_run (fun x => -mScore exQuery p (exArgs []).tol (dec x)) (lbRigid p) (ubRigid p)
  refine ⟨⟨1, p.Bc, dec (fun _ => 0)⟩, ?_, rfl, ?_, zeros3⟩
  · unfold matryoshka matryoshkaRigid
    simp only [Option.bind_eq_bind, hp, Option.bind_some]
    unfold mSearch
    simp only [Option.bind_eq_bind]
    rw [show (exArgs []).nP = 1 from rfl, show (exArgs []).maxIter = 0 from rfl, ← hdec, hrun]
    simp only [Option.bind_some, List.reverse_singleton, List.foldl_cons, List.foldl_nil, trackBest, hscore]
    simp
  · show axisAngleToMatrix ![0, 0, 0] = 1
    rw [zeros3, ex_angle]

/-- **C98 (warm start, violated for other samples)** the documentation promises that the returned scale is at least as large as the scale of a seed
dictionary.  The seed is re-scored with the samples of the new call: here a seed with scale 1, computed from the vertices alone, leads to
scale 0. -/
theorem C98_warm_start_violated : ∃ (o : MQuery) (a a' : MArgs) (w : SwarmRand 6) (w' : SwarmRand 16) (r r' : MRes),
    a' = { a with samples := a'.samples } ∧ matryoshka o a (.rigid w) = some r ∧ matryoshka o a' (.all (.dict r) w') = some r' ∧ r.s = 1 ∧ r'.s = 0 := by
  obtain ⟨r, hr, hs, hR, hc⟩ := ex_rigid
  obtain ⟨p, hp, hBc, hAc⟩ := ex_prep [fun _ => 0]
  obtain ⟨-, -, -, -, m5, -⟩ := mPrep_some hp
  have hzero : ∀ g : MCfg, UnitDirs g → g.R = 1 → g.c = (fun _ => 0) → mScore exQuery p (exArgs [fun _ => 0]).tol g = 0 := by
    intro g hg hR hc
    have hf : ∀ s, mFeasAt exQuery p.samplesB p.Bc g s = false := fun s => by
      rw [Bool.eq_false_iff, Ne, feasAt_iff _ _ _ g hg.2.1 hg.2.2, m5, hBc]
      exact ex_not_nested s g hR hc
    unfold mScore largestScale
    rw [hf]; simp
  obtain ⟨p0, hp0, -, hu, -, -⟩ := matry_outcome hr
  have hEx : ExactRotation r.g.R := by
    rw [hR]
    exact ⟨isRotation3_one, Or.inl rfl, Or.inl (by simp)⟩
  obtain ⟨e1, e2, -⟩ := decode_encode hu hEx p.Ac
  have hseed : mScore exQuery p (exArgs [fun _ => 0]).tol (decodeAll p.Ac (encodeAll r.g p.Ac)) = 0 :=
    hzero _ (decodeAll_unit _ _) (e1.trans hR) (e2.trans hc)
  have hcand : mScore exQuery p (exArgs [fun _ => 0]).tol (decodeAll p.Ac (fun _ => 0)) = 0 := by
    refine hzero _ (decodeAll_unit _ _) ?_ zeros3
    show axisAngleToMatrix ![0, 0, 0] = 1
    rw [zeros3, ex_angle]
  obtain ⟨v, hrun⟩ := ex_run (fun x => -mScore exQuery p (exArgs [fun _ => 0]).tol (decodeAll p.Ac x)) (lbAll p) (ubAll p)
  refine ⟨exQuery, exArgs [], exArgs [fun _ => 0], exRand 6, exRand 16, r, ⟨0, p.Bc, decodeAll p.Ac (encodeAll r.g p.Ac)⟩, rfl, hr, ?_, hs, rfl⟩
  unfold matryoshka matryoshkaAll
  simp only [Option.bind_eq_bind, hp, Option.bind_some, warmSeed]
  unfold mSearch
  simp only [Option.bind_eq_bind]
  rw [show (exArgs [fun _ => 0]).nP = 1 from rfl, show (exArgs [fun _ => 0]).maxIter = 0 from rfl, hrun]
  simp only [Option.bind_some, List.reverse_singleton, List.foldl_cons, List.foldl_nil, trackBest, hcand, warmBest, hs]
  rw [if_pos (show (1:ℝ) > 0 by norm_num), hseed]
  simp

/-- A warm start that works: the same samples. -/
example : ∃ r r', matryoshka exQuery (exArgs []) (.rigid (exRand 6)) = some r ∧ matryoshka exQuery (exArgs []) (.all (.dict r) (exRand 16)) = some r' ∧ r'.s = 1 := by
  obtain ⟨r, hr, hs, hR, hc⟩ := ex_rigid
  obtain ⟨-, p, hp, -, htot⟩ := C98_total (o := exQuery) (a := exArgs []) (by simp [exArgs]) (by simp [exArgs]) (by simp [exArgs])
  obtain ⟨-, -, m3, m4, -⟩ := mPrep_some hp
  have hw : (exRand 16).Ok (lbAll p) (ubAll p) := by
    refine ⟨fun h => (Bool.false_ne_true h).elim, fun _ i j => ?_⟩
    have hmin : p.Amin = fun j => min ((![-20, 0, 0] : Pt 3) j) ((![20, 0, 0] : Pt 3) j) := (Option.some.inj m3).symm
    have hmax : p.Amax = fun j => max ((![-20, 0, 0] : Pt 3) j) ((![20, 0, 0] : Pt 3) j) := (Option.some.inj m4).symm
    have hm : 0 ≤ maxOffset p := mul_nonneg (by norm_num) (Real.sqrt_nonneg _)
    have hpi := Real.pi_pos.le
    fin_cases j <;> simp [lbAll, ubAll, exRand, hmin, hmax, hm, hpi]
  obtain ⟨r', hr'⟩ := htot (exRand 16) (.dict r) hw (fun s w' h => by cases h)
  have hle : r.s ≤ r'.s := by
    obtain ⟨-, -, -, hu, -⟩ := matry_outcome hr
    refine C98_warm_start hr rfl rfl rfl (by rw [hR]; exact ⟨isRotation3_one, Or.inl rfl, Or.inl (by simp)⟩) (Or.inr ?_) hr'
    obtain ⟨q, hq, hqq⟩ := Option.bind_eq_some_iff.mp (show (mPrep (exArgs [])).bind (fun p => mSearch exQuery p (exArgs []).tol (decodeRigid p.cp p.n p.ap p.am) (lbRigid p) (ubRigid p) (exRand 6) 1 0 (0, none)) = some r from hr)
    obtain ⟨-, -, -, -, -, -, -, -, en, -, eap, eam⟩ := mPrep_some hq
    obtain ⟨_, -, -, -, h3⟩ := mSearch_spec hqq (Or.inl rfl)
    have h1 : r.g.n = ![0, 0, 1] ∧ r.g.ap = ![0, 0, 1] ∧ r.g.am = fun i => -(![0, 0, 1] : Pt 3) i := by
      have en' : q.n = ![0, 0, 1] := en
      have eap' : q.ap = q.n := eap
      have eam' : q.am = fun i => -q.n i := eam
      rcases h3 with rfl | ⟨x, rfl, -⟩
      · exact ⟨en', eap'.trans en', by show q.am = _; rw [eam', en']⟩
      · exact ⟨en', eap'.trans en', by show q.am = _; rw [eam', en']⟩
    rw [h1.1, h1.2.1, h1.2.2]
    simp [pdot3]
  refine ⟨r, r', hr, hr', le_antisymm ?_ (hs ▸ hle)⟩
  rcases C98_maximal hr' with ⟨h, -⟩ | h | ⟨-, h, -⟩
  · rw [h]; norm_num
  · exact h.le
  · exact h.le

/-- **C98 (axis-angle)** every vector gives a rotation, and a rotation is recovered exactly from its axis-angle vector unless its angle is
tiny or (without being a half turn) within `1e-6` of `π`. -/
theorem C98_axis_angle : (∀ aa, IsRotation3 (axisAngleToMatrix aa)) ∧ ∀ R, ExactRotation R → axisAngleToMatrix (matrixToAxisAngle R) = R :=
  ⟨axisAngle_rot, fun _ h => roundTrip h.1 h.2.1 h.2.2⟩

/-- A quarter turn and a half turn are covered. -/
example : ExactRotation !![0, -1, 0; 1, 0, 0; 0, 0, 1] ∧ ExactRotation !![-1, 0, 0; 0, -1, 0; 0, 0, 1] := by
  have hpi := Real.two_le_pi
  refine ⟨⟨⟨?_, ?_⟩, Or.inr ?_, Or.inr ?_⟩, ⟨⟨?_, ?_⟩, Or.inr ?_, Or.inl ?_⟩⟩
  · ext i j; fin_cases i <;> fin_cases j <;> simp [Matrix.mul_apply, Fin.sum_univ_three]
  · rw [Matrix.det_fin_three]; simp
  · unfold rotAngle; rw [trace3]; simp; norm_num at *; linarith
  · unfold rotAngle; rw [trace3]; simp; norm_num at *; linarith
  · ext i j; fin_cases i <;> fin_cases j <;> simp [Matrix.mul_apply, Fin.sum_univ_three]
  · rw [Matrix.det_fin_three]; simp
  · unfold rotAngle; rw [trace3]; simp
    rw [show (2⁻¹ * (-1 - 1) : ℝ) = -1 by norm_num]
    rw [Real.arccos_neg_one]; norm_num at *; linarith
  · ext i j; fin_cases i <;> fin_cases j <;> simp [Matrix.mul_apply, Fin.sum_univ_three]

end

end Gpy
