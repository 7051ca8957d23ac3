import Verif.Proofs.ReachArcs

/-!
# C108: `reach_for_the_arcs` as a whole
-/

set_option autoImplicit false
namespace Gpy.Arcs
open Classical

variable {d : ℕ}

/-- the samples and distances in the unit box -/
noncomputable def nrmU [NeZero d] (n : ℕ) (U : ℕ → Pt d) : ℕ → Pt d := fun i j => (U i j - transOf n U j) / scaleOf n U
noncomputable def nrmS [NeZero d] (n : ℕ) (U : ℕ → Pt d) (S : ℕ → ℝ) : ℕ → ℝ := fun i => S i / scaleOf n U
noncomputable def backPt [NeZero d] (n : ℕ) (U : ℕ → Pt d) (p : Pt d) : Pt d := fun j => scaleOf n U * p j + transOf n U j

section
variable [NeZero d] (env : ArcEnv d) (he : ArcEnvOk env) (a : ArcArgs) (n : ℕ) (U : ℕ → Pt d) (S : ℕ → ℝ)

theorem nrm_box (hn : 0 < n) (hs : scaleOf n U ≠ 0) : ∀ i < n, ∀ j, 0 ≤ nrmU n U i j ∧ nrmU n U i j ≤ 1 := by
  intro i hi j
  have h0 := lt_of_le_of_ne (scaleOf_nonneg n hn U) (Ne.symm hs)
  refine ⟨div_nonneg (sub_nonneg.mpr (transOf_le n U i hi j)) h0.le, ?_⟩
  rw [nrmU, div_le_one h0]
  exact le_scaleOf n U i hi j

theorem back_dist (hs : 0 < scaleOf n U) (p : Pt d) (i : ℕ) : pnorm (backPt n U p - U i) = scaleOf n U * pnorm (p - nrmU n U i) := by
  have : backPt n U p - U i = fun j => scaleOf n U * (p - nrmU n U i) j := by
    funext j
    simp only [backPt, nrmU, Pi.sub_apply]
    field_simp
    ring
  rw [this, pnorm_scale, abs_of_pos hs]

include he in
/-- what is returned: the points of a cloud `R` in the unit box, mapped back; `R` comes from a cloud `C` by fine tuning -/
theorem reach_core (htol : 0 ≤ a.tol) (hcons : ∀ i < n, ∀ j < n, U i = U j → |S i| = |S j|) (out : ArcOut d) (h : reachArcs env a n U S = some out) :
    0 < n ∧ 0 < scaleOf n U ∧ ∃ R : List (Row d), out.P = R.map (fun r => backPt n U r.point) ∧ out.N = R.map Row.normal ∧ (R = [] ∨ 1 ≤ a.maxP ∧ ∃ C : List (Row d),
      OnSpheres n (nrmU n U) (nrmS n U S) (a.clamp / scaleOf n U) C ∧ GoodNormals (nrmU n U) (nrmS n U S) C ∧ AtMost 1 C ∧
      (a.bs ≤ 0 ∨ (n : Int) ≤ a.bs → ∀ r ∈ C, ∀ j < n, (nrmS n U S j < 0 ↔ nrmS n U S r.index < 0) → |nrmS n U S j| - a.tol ≤ pnorm (r.point - nrmU n U j)) ∧
      ∃ recon, fineTune (nrmU n U) (nrmS n U S) recon env.sort env.sortC (tuneEnv env n a.bs) a.tuneIters a.maxP a.nLocal a.iters a.lt a.tol (a.clamp / scaleOf n U) C = some R) := by
  unfold reachArcs at h
  split at h
  · simp at h
  split at h
  · simp at h
  rename_i hd hn
  have hn : 0 < n := Nat.pos_of_ne_zero hn
  dsimp only at h
  split at h
  · simp at h
  rename_i hs
  have h0 := lt_of_le_of_ne (scaleOf_nonneg n hn U) (Ne.symm hs)
  refine ⟨hn, h0, ?_⟩
  obtain ⟨Rp, hp, h⟩ := Option.bind_eq_some_iff.mp h
  obtain ⟨Rn, hq, h⟩ := Option.bind_eq_some_iff.mp h
  split at h
  · rw [← Option.some.inj h]
    exact ⟨[], rfl, rfl, Or.inl rfl⟩
  obtain ⟨R, hR, h⟩ := Option.bind_eq_some_iff.mp h
  have hm : 1 ≤ a.maxP := by
    by_contra hm
    unfold fineTune at hR
    rw [if_neg hd, if_pos hm] at hR
    simp at hR
  have hout : out.P = R.map (fun r => backPt n U r.point) ∧ out.N = R.map Row.normal := by
    generalize (if R.length < 2 then ([], []) else env.mesh (pn R)) = VF at h
    split at h <;> (rw [← Option.some.inj h]; exact ⟨rfl, rfl⟩)
  refine ⟨R, hout.1, hout.2, Or.inr ⟨hm, Rp ++ Rn, ?_⟩⟩
  have hcons' : ∀ i < n, ∀ j < n, nrmU n U i = nrmU n U j → |nrmS n U S i| = |nrmS n U S j| := by
    intro i hi j hj hij
    have : U i = U j := by
      funext k
      have := congrFun hij k
      unfold nrmU at this
      field_simp at this
      linarith
    unfold nrmS
    rw [abs_div, abs_div, hcons i hi j hj this]
  have hlt : ∀ p : ℕ → Bool, ((List.range n).filter p).Pairwise (· < ·) := fun p => List.Pairwise.filter _ List.pairwise_lt_range
  have hmem : ∀ (p : ℕ → Bool) (i : ℕ), i ∈ (List.range n).filter p → i < n := fun p i hi => List.mem_range.mp (List.mem_filter.mp hi).1
  have hlen : ∀ p : ℕ → Bool, (((List.range n).filter p).length : Int) ≤ n := fun p => by
    have := List.length_filter_le p (List.range n)
    rw [List.length_range] at this
    exact_mod_cast this
  obtain ⟨p1, p2⟩ := group_spec env.rPos env.fPos ((List.range n).filter (fun i => ¬ nrmS n U S i < 0)) (nrmU n U) (nrmS n U S) a.res a.nLocal a.iters a.bs a.numSph a.tol _ he.fPos (hlt _) htol
    (fun i hi j hj => hcons' i (hmem _ i hi) j (hmem _ j hj)) Rp hp
  obtain ⟨q1, q2⟩ := group_spec env.rNeg env.fNeg ((List.range n).filter (fun i => nrmS n U S i < 0)) (nrmU n U) (nrmS n U S) a.res a.nLocal a.iters a.bs a.numSph a.tol _ he.fNeg (hlt _) htol
    (fun i hi j hj => hcons' i (hmem _ i hi) j (hmem _ j hj)) Rn hq
  refine ⟨?_, ?_, ?_, ?_, _, hR⟩
  · intro r hr
    rcases List.mem_append.mp hr with hr | hr
    · exact ⟨hmem _ _ (p2 r hr).1, (p2 r hr).2.1, (p2 r hr).2.2.1⟩
    · exact ⟨hmem _ _ (q2 r hr).1, (q2 r hr).2.1, (q2 r hr).2.2.1⟩
  · intro r hr
    rcases List.mem_append.mp hr with hr | hr
    · exact ⟨(p2 r hr).2.2.2.1, fun _ => (p2 r hr).2.2.2.2.1⟩
    · exact ⟨(q2 r hr).2.2.2.1, fun _ => (q2 r hr).2.2.2.2.1⟩
  · intro i
    have hnd : ((Rp ++ Rn).map Row.index).Nodup := by
      rw [List.map_append, List.nodup_append]
      refine ⟨p1.imp (fun h => h.ne), q1.imp (fun h => h.ne), ?_⟩
      intro x hx y hy hxy
      obtain ⟨r, hr, rfl⟩ := List.mem_map.mp hx
      obtain ⟨r', hr', rfl⟩ := List.mem_map.mp hy
      have e1 := (List.mem_filter.mp (p2 r hr).1).2
      have e2 := (List.mem_filter.mp (q2 r' hr').1).2
      rw [hxy] at e1
      simp only [decide_eq_true_eq] at e1 e2
      exact e1 e2
    exact_mod_cast List.nodup_iff_count_le_one.mp hnd i
  · intro hbs r hr j hj hjs
    rcases List.mem_append.mp hr with hr | hr
    · refine (p2 r hr).2.2.2.2.2 ?_ j ?_
      · have := hlen (fun i => ¬ nrmS n U S i < 0)
        omega
      · have e1 := (List.mem_filter.mp (p2 r hr).1).2
        rw [List.mem_filter, List.mem_range]
        simp only [decide_eq_true_eq] at e1 ⊢
        exact ⟨hj, fun h => e1 (hjs.mp h)⟩
    · refine (q2 r hr).2.2.2.2.2 ?_ j ?_
      · have := hlen (fun i => nrmS n U S i < 0)
        omega
      · have e1 := (List.mem_filter.mp (q2 r hr).1).2
        rw [List.mem_filter, List.mem_range]
        simp only [decide_eq_true_eq] at e1 ⊢
        exact ⟨hj, hjs.mpr e1⟩

include he in
/-- The call returns for samples that are not all at one place. -/
theorem C108_returns (hd : d = 2 ∨ d = 3) (hres : 2 ≤ a.res) (hm : 1 ≤ a.maxP) (hU : ∃ i < n, ∃ i' < n, U i ≠ U i') : ∃ out, reachArcs env a n U S = some out := by
  obtain ⟨i, hi, i', hi', hne⟩ := hU
  have hn : 0 < n := by omega
  have hs : scaleOf n U ≠ 0 := by
    intro hs
    apply hne
    funext j
    have h1 := (scaleOf_longest n hn U).1 i hi i' hi' j
    have h2 := (scaleOf_longest n hn U).1 i' hi' i hi j
    linarith
  unfold reachArcs
  rw [if_neg (not_not_intro hd), if_neg hn.ne']
  dsimp only
  rw [if_neg hs]
  have hbox := nrm_box n U hn hs
  have hmem : ∀ (p : ℕ → Bool) (i : ℕ), i ∈ (List.range n).filter p → i < n := fun p i hi => List.mem_range.mp (List.mem_filter.mp hi).1
  obtain ⟨Rp, hp⟩ := group_some env.rPos env.fPos ((List.range n).filter (fun i => ¬ nrmS n U S i < 0)) (nrmU n U) (nrmS n U S) a.res a.nLocal a.iters a.bs a.numSph a.tol
    (a.clamp / scaleOf n U) he.fPos (fun i hi => hbox i (hmem _ i hi)) hd hres
  obtain ⟨Rn, hq⟩ := group_some env.rNeg env.fNeg ((List.range n).filter (fun i => nrmS n U S i < 0)) (nrmU n U) (nrmS n U S) a.res a.nLocal a.iters a.bs a.numSph a.tol
    (a.clamp / scaleOf n U) he.fNeg (fun i hi => hbox i (hmem _ i hi)) hd hres
  unfold nrmU nrmS at hp hq
  rw [hp, Option.bind_some, hq, Option.bind_some]
  split
  · exact ⟨_, rfl⟩
  obtain ⟨R, hR⟩ := C106_returns n (nrmU n U) (nrmS n U S) (fun R => if (env.mesh (pn R)).1 = [] then none else some (env.recon R)) env.sort env.sortC a.maxP a.nLocal a.iters a.lt a.tol
    (a.clamp / scaleOf n U) (tuneEnv env n a.bs) (tuneEnv_ok env he n hn a.bs) a.tuneIters hd hm (Rp ++ Rn)
  unfold nrmU nrmS at hR
  rw [hR, Option.bind_some]
  generalize (if R.length < 2 then ([], []) else env.mesh (pn R)) = VF
  split <;> exact ⟨_, rfl⟩

theorem nrmS_neg (hs : 0 < scaleOf n U) (i : ℕ) : nrmS n U S i < 0 ↔ S i < 0 := by
  unfold nrmS
  rw [div_lt_iff₀ hs, zero_mul]

theorem abs_nrmS (hs : 0 < scaleOf n U) (i : ℕ) : scaleOf n U * |nrmS n U S i| = |S i| := by
  unfold nrmS
  rw [abs_div, abs_of_pos hs]
  field_simp

include he in
/-- the cloud, for a relation (equal or at most) that the fine tuning keeps -/
theorem cloud_gen (rel : ℝ → ℝ → Prop) (hrel : ∀ x, rel x x) (hscale : ∀ s x y, 0 < s → rel x y → rel (s * x) (s * y))
    (harc : ∀ (U : ℕ → Pt d) (S : ℕ → ℝ) i p q, rel (pnorm (p - U i)) |S i| → ∀ φ : ℝ, rel (pnorm ((fun j => U i j + rotate d φ (p - U i) (q - U i) j) - U i)) |S i|)
    (htol : 0 ≤ a.tol) (hcons : ∀ i < n, ∀ j < n, U i = U j → |S i| = |S j|) (s : ℝ) (hside : LongestSide n U s) (out : ArcOut d) (h : reachArcs env a n U S = some out) :
    out.P.length = out.N.length ∧ out.P.length ≤ n * a.maxP.toNat ∧ ∀ x ∈ out.P.zip out.N, ∃ i < n, |S i| < a.clamp ∧ rel (pnorm (x.1 - U i)) |S i| ∧ pnorm x.2 = 1 ∧
      (pnorm (x.1 - U i) = |S i| → eps * s < |S i| → x.1 = U i - S i • x.2) ∧
      (a.bs ≤ 0 ∨ (n : Int) ≤ a.bs → ∀ j < n, j ≠ i → (S j < 0 ↔ S i < 0) → |S j| - a.tol * s ≤ pnorm (x.1 - U j)) := by
  obtain ⟨hn, hs, R, hP, hN, hR⟩ := reach_core env he a n U S htol hcons out h
  obtain rfl := hside.unique (scaleOf_longest n hn U)
  have hcons' : ∀ i < n, ∀ j < n, nrmU n U i = nrmU n U j → |nrmS n U S i| = |nrmS n U S j| := by
    intro i hi j hj hij
    have : U i = U j := by
      funext k
      have := congrFun hij k
      unfold nrmU at this
      field_simp at this
      linarith
    unfold nrmS
    rw [abs_div, abs_div, hcons i hi j hj this]
  rcases hR with rfl | ⟨hm, C, c1, c2, c3, c4, recon, hR⟩
  · rw [hP, hN]; simp
  have hA : AtMost a.maxP C := fun i => (c3 i).trans hm
  unfold fineTune at hR
  split at hR
  · simp at hR
  obtain ⟨b1, b2, b3⟩ := tune_spec n (nrmU n U) (nrmS n U S) recon env.sort env.sortC a.maxP a.nLocal a.iters a.lt a.tol _ he.sort he.sortC htol hcons' (tuneEnv env n a.bs)
    (tuneEnv_ok env he n hn a.bs) (fun i x => rel (pnorm (x - nrmU n U i)) |nrmS n U S i|) (fun i x hx => by rw [hx]; exact hrel _)
    (fun i p q hp φ => harc (nrmU n U) (nrmS n U S) i p q hp φ) hm _ _ C R (fun r hr => ⟨(c1 r hr).1, (c1 r hr).2.1, by rw [(c1 r hr).2.2]; exact hrel _⟩) hA hR
  have hgood : GoodNormals (nrmU n U) (nrmS n U S) R := by
    rcases b3 with rfl | ⟨k, -, -, -, k4⟩
    · exact c2
    · exact k4
  have hout : a.bs ≤ 0 ∨ (n : Int) ≤ a.bs → ∀ r ∈ R, ∀ j < n, j ≠ r.index → (nrmS n U S j < 0 ↔ nrmS n U S r.index < 0) → |nrmS n U S j| - a.tol ≤ pnorm (r.point - nrmU n U j) := by
    intro hbs r hr j hj hji hjs
    rcases b3 with rfl | ⟨k, -, -, k3, -⟩
    · exact c4 hbs r hr j hj hjs
    · refine k3 r hr j ?_ hji
      show j ∈ batchOf _ _ _ _
      unfold batchOf
      rw [if_neg (by omega)]
      exact (he.shuffle k _).mem_iff.mpr (List.mem_range.mpr hj)
  rw [hP, hN, List.length_map, List.length_map]
  refine ⟨rfl, ?_, ?_⟩
  · have := length_le_count n a.maxP.toNat (R.map Row.index) (by
      intro i hi
      obtain ⟨r, hr, rfl⟩ := List.mem_map.mp hi
      exact (b1 r hr).1) (fun i => by have := b2 i; omega)
    rwa [List.length_map] at this
  · intro x hx
    rw [List.zip_map'] at hx
    obtain ⟨r, hr, rfl⟩ := List.mem_map.mp hx
    dsimp only
    obtain ⟨r1, r2, r3⟩ := b1 r hr
    obtain ⟨g1, g2⟩ := hgood r hr
    refine ⟨r.index, r1, ?_, ?_, g1, ?_, ?_⟩
    · rw [← abs_nrmS n U S hs]
      have := (lt_div_iff₀ hs).mp r2
      linarith
    · rw [back_dist n U hs, ← abs_nrmS n U S hs]
      exact hscale _ _ _ hs r3
    · intro e1 e2
      rw [back_dist n U hs, ← abs_nrmS n U S hs] at e1
      have e3 := g2 (mul_left_cancel₀ hs.ne' e1) (by
        rw [← abs_nrmS n U S hs, mul_comm] at e2
        exact lt_of_mul_lt_mul_left e2 hs.le)
      funext j
      have e4 := congrFun e3 j
      simp only [Pi.sub_apply, Pi.smul_apply, smul_eq_mul] at e4 ⊢
      unfold backPt
      rw [e4]
      unfold nrmU nrmS
      field_simp
      ring
    · intro hbs j hj hji hjs
      have := hout hbs r hr j hj hji (by rw [nrmS_neg n U S hs, nrmS_neg n U S hs]; exact hjs)
      rw [back_dist n U hs, ← abs_nrmS n U S hs]
      nlinarith

include he in
/-- In the plane or in space: the points and normals returned are as many, at most `max_points_per_sphere` for each sample; each belongs to a sample below the clamp and is within its
distance; normals have length one and point outwards for the shape; with a batch of all samples no point is inside the sphere of another sample of the same sign by more than `tol` times
the longest side of the bounding box.  The full property, with points at exactly the distance in space, fails: `C106_antipodal_violated`. -/
theorem C108_cloud_partial (htol : 0 ≤ a.tol) (hcons : ∀ i < n, ∀ j < n, U i = U j → |S i| = |S j|) (s : ℝ) (hside : LongestSide n U s) (out : ArcOut d) (h : reachArcs env a n U S = some out) :
    out.P.length = out.N.length ∧ out.P.length ≤ n * a.maxP.toNat ∧ ∀ x ∈ out.P.zip out.N, ∃ i < n, |S i| < a.clamp ∧ pnorm (x.1 - U i) ≤ |S i| ∧ pnorm x.2 = 1 ∧
      (pnorm (x.1 - U i) = |S i| → eps * s < |S i| → x.1 = U i - S i • x.2) ∧
      (a.bs ≤ 0 ∨ (n : Int) ≤ a.bs → ∀ j < n, j ≠ i → (S j < 0 ↔ S i < 0) → |S j| - a.tol * s ≤ pnorm (x.1 - U j)) :=
  cloud_gen env he a n U S (· ≤ ·) (fun _ => le_rfl) (fun s x y hs h => mul_le_mul_of_nonneg_left h hs.le) (fun U S i p q hp φ => in_arc U S p q i hp φ) htol hcons s hside out h

/-- The result scales and moves with the samples: for `a U + b` and `a S` (`a > 0`), and the clamp multiplied by `a`, mesh vertices and points are scaled and moved in the same way, faces and
normals are the same. -/
theorem C108_equivariant (c : ℝ) (hc : 0 < c) (b : Pt d) :
    reachArcs env { a with clamp := c * a.clamp } n (fun i j => c * U i j + b j) (fun i => c * S i) =
      (reachArcs env a n U S).map (fun o => ⟨o.V.map (fun p j => c * p j + b j), o.F, o.P.map (fun p j => c * p j + b j), o.N⟩) := by
  unfold reachArcs
  rw [transOf_affine n U c hc.le b, scaleOf_affine n U c hc.le b]
  split
  · rfl
  split
  · rfl
  dsimp only
  by_cases hs : scaleOf n U = 0
  · rw [if_pos (by rw [hs, mul_zero]), if_pos hs]; rfl
  rw [if_neg (mul_ne_zero hc.ne' hs), if_neg hs]
  have e1 : (fun i j => (c * U i j + b j - (c * transOf n U j + b j)) / (c * scaleOf n U)) = fun i j => (U i j - transOf n U j) / scaleOf n U := by
    funext i j
    field_simp
    ring
  have e2 : (fun i => c * S i / (c * scaleOf n U)) = fun i => S i / scaleOf n U := by
    funext i
    field_simp
  have e3 : c * a.clamp / (c * scaleOf n U) = a.clamp / scaleOf n U := by field_simp
  have e4 : (fun (p : Pt d) j => c * scaleOf n U * p j + (c * transOf n U j + b j)) = (fun (p : Pt d) j => c * p j + b j) ∘ (fun (p : Pt d) j => scaleOf n U * p j + transOf n U j) := by
    funext p j
    simp only [Function.comp]
    ring
  have e5 : (fun (r : Row d) (j : Fin d) => c * scaleOf n U * r.point j + (c * transOf n U j + b j)) =
      (fun (p : Pt d) j => c * p j + b j) ∘ (fun (r : Row d) j => scaleOf n U * r.point j + transOf n U j) := by
    funext r j
    simp only [Function.comp]
    ring
  have e6 : ∀ i, c * S i / (c * scaleOf n U) = S i / scaleOf n U := fun i => by field_simp
  simp only [e1, e2, e3, e4, e5, e6]
  rw [Option.map_bind]
  congr 1
  funext Rp
  simp only [Function.comp]
  rw [Option.map_bind]
  congr 1
  funext Rn
  simp only [Function.comp]
  split
  · rfl
  rw [Option.map_bind]
  congr 1
  funext R
  simp only [Function.comp]
  generalize (if R.length < 2 then ([], []) else env.mesh (pn R)) = VF
  split
  · rename_i hV
    simp [hV, Function.comp_def]
  · simp [Function.comp_def]

end

/-- In the plane: the points and normals returned are as many, at most `max_points_per_sphere` for each sample; each belongs to a sample below the clamp and is at exactly its distance;
normals have length one, and the point is the sample minus its signed distance times the normal; with a batch of all samples no point is inside the sphere of any sample of the same
sign by more than `tol` times the longest side of the bounding box. -/
theorem C108_cloud_2d (env : ArcEnv 2) (he : ArcEnvOk env) (a : ArcArgs) (n : ℕ) (U : ℕ → Pt 2) (S : ℕ → ℝ) (htol : 0 ≤ a.tol) (hcons : ∀ i < n, ∀ j < n, U i = U j → |S i| = |S j|)
    (s : ℝ) (hside : LongestSide n U s) (out : ArcOut 2) (h : reachArcs env a n U S = some out) :
    out.P.length = out.N.length ∧ out.P.length ≤ n * a.maxP.toNat ∧ ∀ x ∈ out.P.zip out.N, ∃ i < n, |S i| < a.clamp ∧ pnorm (x.1 - U i) = |S i| ∧ pnorm x.2 = 1 ∧
      (eps * s < |S i| → x.1 = U i - S i • x.2) ∧
      (a.bs ≤ 0 ∨ (n : Int) ≤ a.bs → ∀ j < n, (S j < 0 ↔ S i < 0) → |S j| - a.tol * s ≤ pnorm (x.1 - U j)) := by
  obtain ⟨h1, h2, h3⟩ := cloud_gen env he a n U S (· = ·) (fun _ => rfl) (fun s x y hs h => by rw [h]) (fun U S i p q hp φ => on_arc2 U S p q i hp φ) htol hcons s hside out h
  refine ⟨h1, h2, fun x hx => ?_⟩
  obtain ⟨i, hi, k1, k2, k3, k4, k5⟩ := h3 x hx
  refine ⟨i, hi, k1, k2, k3, k4 k2, fun hbs j hj hjs => ?_⟩
  by_cases hji : j = i
  · subst hji
    rw [k2]
    have : 0 ≤ s := by
      have := hside.1 0 (by omega) 0 (by omega) 0
      linarith
    nlinarith
  · exact k5 hbs j hj hji hjs

/-- the hypotheses can be met: two samples, one outside and one inside -/
noncomputable def exArcEnv : ArcEnv 2 where
  rPos := ⟨fun _ k => List.range k, fun _ => 0, fun m => [List.range m], fun _ => 0, fun _ => true, fun _ => true⟩
  rNeg := ⟨fun _ k => List.range k, fun _ => 0, fun m => [List.range m], fun _ => 0, fun _ => true, fun _ => true⟩
  fPos := exEnv
  fNeg := exEnv
  choice := fun _ _ k => List.replicate k 0
  shuffle := fun _ => id
  sh := fun _ => id
  slices := fun _ n => [List.range n]
  sched := fun _ n => (List.range n).map (fun p => (p, 0))
  sort := id
  sortC := id
  mesh := fun _ => ([], [])
  recon := fun _ => ⟨fun _ => 0, fun _ => 0, fun _ => 0, fun _ => 0, fun _ => 0⟩

theorem exArcEnv_ok : ArcEnvOk exArcEnv where
  rPos := ⟨fun n k hk => ⟨List.length_range, List.nodup_range, fun i hi => lt_of_lt_of_le (List.mem_range.mp hi) hk⟩, fun _ => ⟨le_rfl, one_pos⟩, fun m => by simp [exArcEnv]⟩
  rNeg := ⟨fun n k hk => ⟨List.length_range, List.nodup_range, fun i hi => lt_of_lt_of_le (List.mem_range.mp hi) hk⟩, fun _ => ⟨le_rfl, one_pos⟩, fun m => by simp [exArcEnv]⟩
  fPos := exEnv_ok
  fNeg := exEnv_ok
  choice := fun _ n k hn => ⟨List.length_replicate, fun j hj => by rw [List.eq_of_mem_replicate hj]; exact hn⟩
  shuffle := fun _ _ => .refl _
  sh := fun _ _ => .refl _
  slices := fun _ n => by simp [exArcEnv]
  sched := fun _ n => exEnv_ok.sched n
  sort := fun _ => .refl _
  sortC := fun _ => .refl _

example : ArcEnvOk exArcEnv ∧ (∀ i < 2, ∀ j < 2, exU i = exU j → |(![1 / 4, -1 / 4] : Fin 2 → ℝ) (Fin.ofNat 2 i)| = |(![1 / 4, -1 / 4] : Fin 2 → ℝ) (Fin.ofNat 2 j)|) ∧ LongestSide 2 exU 1 ∧
    ∃ out, reachArcs exArcEnv ⟨3, 10000, 0, 64, 3, 3, 20, 1 / 100, 1 / 10000, 10⟩ 2 exU (fun i => (![1 / 4, -1 / 4] : Fin 2 → ℝ) (Fin.ofNat 2 i)) = some out := by
  have h0 : exU 0 = ![0, 0] := if_pos rfl
  have h1 : exU 1 = ![1, 0] := if_neg one_ne_zero
  refine ⟨exArcEnv_ok, ?_, ⟨?_, 1, by norm_num, 0, by norm_num, 0, ?_⟩, C108_returns exArcEnv exArcEnv_ok _ 2 exU _ (Or.inl rfl) (by norm_num) (by norm_num) ⟨0, by norm_num, 1, by norm_num, ?_⟩⟩
  · intro i hi j hj _
    have h : ∀ k : Fin 2, |(![1 / 4, -1 / 4] : Fin 2 → ℝ) k| = 1 / 4 := by
      intro k
      fin_cases k
      · simp [abs_of_pos]
      · simp [abs_of_neg, neg_div]
    rw [h, h]
  · intro i hi i' hi' j
    unfold exU
    split <;> split <;> fin_cases j <;> norm_num
  · rw [h0, h1]; norm_num
  · rw [h0, h1]
    intro h
    have := congrFun h 0
    norm_num at this

end Gpy.Arcs
