import Verif.Proofs.FineTune
import Verif.Spec.FineTune

/-!
# C106: fine tuning of the point cloud (`reach_for_the_arcs`)
-/

set_option autoImplicit false
namespace Gpy.Arcs
open Classical

variable {d : ℕ}

theorem rowOf_normal [NeZero d] (U : ℕ → Pt d) (S : ℕ → ℝ) (i : ℕ) (x : Pt d) : pnorm (rowOf U S i x).normal = 1 ∧ (pnorm (x - U i) = |S i| → eps < |S i| → x = U i - S i • (rowOf U S i x).normal) := by
  constructor
  · unfold rowOf
    dsimp only
    split
    · exact pnorm_direction _
    · rw [pnorm_neg]; exact pnorm_direction _
  · intro hd1 hs'
    have hpos : 0 < |S i| := lt_trans (by unfold eps; norm_num) hs'
    unfold rowOf direction
    dsimp only
    rw [hd1, if_pos hs']
    funext j
    split
    · rename_i hneg
      rw [abs_of_neg hneg] at hpos ⊢
      simp only [Pi.sub_apply, Pi.smul_apply, smul_eq_mul]
      have : S i ≠ 0 := by linarith
      field_simp
      ring
    · rename_i hneg
      rw [abs_of_nonneg (not_lt.mp hneg)] at hpos ⊢
      simp only [Pi.sub_apply, Pi.smul_apply, smul_eq_mul, Pi.neg_apply]
      have : S i ≠ 0 := by linarith
      field_simp
      ring

theorem filterMap_map_sublist {α β γ : Type} (L : List α) (f : α → Option β) (g : β → γ) (h : α → γ) (hf : ∀ x r, f x = some r → g r = h x) : ((L.filterMap f).map g).Sublist (L.map h) := by
  induction L with
  | nil => exact List.Sublist.slnil
  | cons a L ih =>
    rw [List.filterMap_cons]
    cases e : f a with
    | none => exact ih.cons _
    | some r => rw [List.map_cons, List.map_cons, hf a r e]; exact ih.cons₂ _

theorem count_flatMap {α : Type} (sh : List ℕ) (hn : sh.Nodup) (f : ℕ → List α) (i : ℕ) : ((sh.flatMap (fun k => (f k).map (fun x => (x, k)))).map Prod.snd).count i ≤ (f i).length := by
  induction sh with
  | nil => simp
  | cons k sh ih =>
    rw [List.nodup_cons] at hn
    have e : ((f k).map (fun x => (x, k))).map Prod.snd = List.replicate (f k).length k := by
      rw [List.map_map]
      exact List.map_const' ..
    rw [List.flatMap_cons, List.map_append, List.count_append, e, List.count_replicate]
    by_cases hk : k = i
    · subst hk
      have : ((sh.flatMap (fun k => (f k).map (fun x => (x, k)))).map Prod.snd).count k = 0 := by
        rw [List.count_eq_zero]
        intro hm
        obtain ⟨y, hy, rfl⟩ := List.mem_map.mp hm
        obtain ⟨k', hk', hy⟩ := List.mem_flatMap.mp hy
        obtain ⟨x, _, rfl⟩ := List.mem_map.mp hy
        exact hn.1 hk'
      rw [this]
      simp
    · simpa [hk] using ih hn.2

section
variable [NeZero d] (n : ℕ) (U : ℕ → Pt d) (S : ℕ → ℝ) (recon : List (Row d) → Option (Recon d)) (sort : List ℕ → List ℕ) (sortC : List (ℕ × Pt d) → List (ℕ × Pt d)) (maxP nLocal iters : Int)
  (lt tol clamp : ℝ)

theorem iter_eq (rc : Recon d) (e : IterEnv d) (he : IterOk n e) (C R : List (Row d)) (h : fineTuneIter U S rc sort sortC e maxP nLocal iters lt tol clamp C = some R) :
    ∃ t, build tol e.batch.length (e.batch.map (sphereOf U S)) = some t ∧ ∃ M, M = e.sh.flatMap (fun i => (movePts U S rc sortC t tol lt maxP C i).map (fun x => (x, i))) ∧
      R = M.zipIdx.filterMap (fun x => (oneG U S sort t (nSearch nLocal e.batch) iters tol clamp M x.2).map (rowOf U S x.1.2)) := by
  unfold fineTuneIter at h
  dsimp only at h
  rw [List.length_map] at h
  obtain ⟨t, e1, e2⟩ := Option.map_eq_some_iff.mp h
  refine ⟨t, e1, _, rfl, ?_⟩
  rw [← e2, ← moved_eq U S rc sortC t tol lt maxP C e.sh e.slices (by rw [he.slices, he.sh.length_eq, List.length_range])]
  exact rowsG_spec U S sort t _ iters tol clamp _ _ (he.sched _)

/-- one iteration, for a property `Q` of points -/
theorem iter_spec (hsort : ∀ l, (sort l).Perm l) (hsortC : ∀ l, (sortC l).Perm l) (htol : 0 ≤ tol) (hcons : ∀ i < n, ∀ j < n, U i = U j → |S i| = |S j|) (rc : Recon d) (e : IterEnv d)
    (he : IterOk n e) (C R : List (Row d)) (h : fineTuneIter U S rc sort sortC e maxP nLocal iters lt tol clamp C = some R) (Q : ℕ → Pt d → Prop)
    (hQ : ∀ i x, pnorm (x - U i) = |S i| → Q i x) (hC : ∀ r ∈ C, Q r.index r.point)
    (harc : ∀ r ∈ C, ∀ z, (z = rc.near r.index ∨ ∃ (a : ℕ) (r' : Row d), C[a]? = some r' ∧ r'.index = r.index ∧ z = rc.nearC a) →
      ¬ pnorm (r.point - projOnto U S rc.W z r.index) < tol → ∀ φ : ℝ, Q r.index (fun j => U r.index j + rotate d φ (r.point - U r.index) (projOnto U S rc.W z r.index - U r.index) j)) :
    (∀ r ∈ R, r.index < n ∧ |S r.index| < clamp ∧ Q r.index r.point) ∧ OutsideBatch U S e.batch tol R ∧ GoodNormals U S R ∧ (1 ≤ maxP → AtMost maxP C → AtMost maxP R) := by
  obtain ⟨t, ht, M, hM, rfl⟩ := iter_eq n U S sort sortC maxP nLocal iters lt tol clamp rc e he C R h
  have hrow : ∀ r ∈ M.zipIdx.filterMap (fun x => (oneG U S sort t (nSearch nLocal e.batch) iters tol clamp M x.2).map (rowOf U S x.1.2)),
      ∃ i y, r = rowOf U S i y ∧ i < n ∧ |S i| < clamp ∧ Q i y ∧ ∀ j ∈ e.batch, j ≠ i → |S j| - tol ≤ pnorm (y - U j) := by
    intro r hr
    obtain ⟨x, hx, hr⟩ := List.mem_filterMap.mp hr
    obtain ⟨y, hy, rfl⟩ := Option.map_eq_some_iff.mp hr
    have hMx := List.mem_zipIdx_iff_getElem?.mp hx
    obtain ⟨⟨x0, i⟩, k⟩ := x
    have hmem : (x0, i) ∈ M := List.mem_of_getElem? hMx
    rw [hM] at hmem
    obtain ⟨i', hi', hmem⟩ := List.mem_flatMap.mp hmem
    obtain ⟨x', hx', e'⟩ := List.mem_map.mp hmem
    simp only [Prod.mk.injEq] at e'
    obtain ⟨rfl, rfl⟩ := e'
    have hin : i' < n := List.mem_range.mp (he.sh.mem_iff.mp hi')
    have hQ0 := movePts_pred U S rc sortC hsortC t tol lt maxP C i' (Q i') (hQ i') (fun r hr hri => hri ▸ hC r hr)
      (fun r hrC hri z hz => by subst hri; exact harc r hrC z hz) x' hx'
    unfold oneG at hy
    dsimp only at hMx hy
    rw [hMx] at hy
    dsimp only at hy
    split at hy
    · simp at hy
    rename_i hcl
    split at hy
    · rename_i hok
      have := search_ok U S sort (nSearch nLocal e.batch) tol (Q i') hsort htol e.batch he.batch0 t ht i' (hQ i') (fun j hj hji => hcons j (he.batch j hj) i' hin hji) _ [] x' hQ0 hok
      rw [← Option.some.inj hy]
      exact ⟨i', _, rfl, hin, not_le.mp hcl, this.1, this.2⟩
    · simp at hy
  refine ⟨fun r hr => ?_, fun r hr => ?_, fun r hr => ?_, fun hm hA i => ?_⟩
  · obtain ⟨i, y, rfl, h1, h2, h3, -⟩ := hrow r hr
    exact ⟨h1, h2, h3⟩
  · obtain ⟨i, y, rfl, -, -, -, h4⟩ := hrow r hr
    exact h4
  · obtain ⟨i, y, rfl, -, -, -, -⟩ := hrow r hr
    exact rowOf_normal U S i y
  · have hsub := filterMap_map_sublist M.zipIdx (fun x => (oneG U S sort t (nSearch nLocal e.batch) iters tol clamp M x.2).map (rowOf U S x.1.2)) Row.index (fun x => x.1.2) (by
      intro x r hr
      obtain ⟨y, -, rfl⟩ := Option.map_eq_some_iff.mp hr
      rfl)
    have h1 := hsub.count_le i
    have h2 : M.zipIdx.map (fun x => x.1.2) = M.map Prod.snd := by
      have : (fun x : (Pt d × ℕ) × ℕ => x.1.2) = Prod.snd ∘ Prod.fst := rfl
      rw [this, ← List.map_map, List.zipIdx_map_fst]
    rw [h2, hM] at h1
    rw [hM]
    have h3 := count_flatMap e.sh (he.sh.nodup_iff.mpr List.nodup_range) (movePts U S rc sortC t tol lt maxP C) i
    have h4 := movePts_length U S rc sortC t tol lt maxP hm C i (hA i)
    have h5 := h1.trans h3
    exact le_trans (by exact_mod_cast h5) h4

/-- The fine tuning returns whenever its assertions hold. -/
theorem C106_returns (e : ℕ → IterEnv d) (he : ∀ it, IterOk n (e it)) (tuneIters : Int) (hd : d = 2 ∨ d = 3) (hm : 1 ≤ maxP) (C : List (Row d)) :
    ∃ R, fineTune U S recon sort sortC e tuneIters maxP nLocal iters lt tol clamp C = some R := by
  unfold fineTune
  rw [if_neg (not_not_intro hd), if_neg (not_not_intro hm)]
  generalize (0 : ℕ) = it
  induction tuneIters.toNat generalizing it C with
  | zero => exact ⟨C, rfl⟩
  | succ m ih =>
    rw [tuneLoop]
    split
    · exact ⟨C, rfl⟩
    · split
      · exact ⟨C, rfl⟩
      · unfold fineTuneIter
        dsimp only
        obtain ⟨t, ht, -⟩ := build_some tol ((e it).batch.map (sphereOf U S)).length ((e it).batch.map (sphereOf U S)) (by simpa using (he it).batch0) (by simp)
        rw [ht]
        exact ih _ _

/-- the loop, for a property `Q` of points that moving preserves -/
theorem tune_spec (hsort : ∀ l, (sort l).Perm l) (hsortC : ∀ l, (sortC l).Perm l) (htol : 0 ≤ tol) (hcons : ∀ i < n, ∀ j < n, U i = U j → |S i| = |S j|) (e : ℕ → IterEnv d)
    (he : ∀ it, IterOk n (e it)) (Q : ℕ → Pt d → Prop) (hQ : ∀ i x, pnorm (x - U i) = |S i| → Q i x)
    (harc : ∀ i p q, Q i p → ∀ φ : ℝ, Q i (fun j => U i j + rotate d φ (p - U i) (q - U i) j)) (hm : 1 ≤ maxP) (m it : ℕ) (C R : List (Row d))
    (hC : ∀ r ∈ C, r.index < n ∧ |S r.index| < clamp ∧ Q r.index r.point) (hA : AtMost maxP C)
    (h : tuneLoop U S recon sort sortC e maxP nLocal iters lt tol clamp m it C = some R) :
    (∀ r ∈ R, r.index < n ∧ |S r.index| < clamp ∧ Q r.index r.point) ∧ AtMost maxP R ∧
      (R = C ∨ ∃ k, it ≤ k ∧ k < it + m ∧ OutsideBatch U S (e k).batch tol R ∧ GoodNormals U S R) := by
  induction m generalizing it C with
  | zero =>
    rw [tuneLoop] at h
    rw [← Option.some.inj h]
    exact ⟨hC, hA, Or.inl rfl⟩
  | succ m ih =>
    rw [tuneLoop] at h
    split at h
    · rw [← Option.some.inj h]; exact ⟨hC, hA, Or.inl rfl⟩
    split at h
    · rw [← Option.some.inj h]; exact ⟨hC, hA, Or.inl rfl⟩
    rename_i rc _
    obtain ⟨C', h1, h2⟩ := Option.bind_eq_some_iff.mp h
    obtain ⟨a1, a2, a3, a4⟩ := iter_spec n U S sort sortC maxP nLocal iters lt tol clamp hsort hsortC htol hcons rc (e it) (he it) C C' h1 Q hQ (fun r hr => (hC r hr).2.2)
      (fun r hr z _ _ φ => harc r.index r.point _ (hC r hr).2.2 φ)
    obtain ⟨b1, b2, b3⟩ := ih (it + 1) C' a1 (a4 hm hA) h2
    refine ⟨b1, b2, Or.inr ?_⟩
    rcases b3 with rfl | ⟨k, k1, k2, k3⟩
    · exact ⟨it, le_rfl, by omega, a2, a3⟩
    · exact ⟨k, by omega, by omega, k3⟩

/-- In the plane or in space: every row of the result belongs to a sample below the clamp and is within its distance, no sphere gets more than `max_points_per_sphere` rows, and unless
the cloud is returned unchanged, no point is inside another sphere of the last batch by more than `tol` and the normals are unit normals.  In space the points of the full property
are at exactly the distance; `C106_antipodal_violated` shows that this fails. -/
theorem C106_tune_partial (hsort : ∀ l, (sort l).Perm l) (hsortC : ∀ l, (sortC l).Perm l) (htol : 0 ≤ tol) (hcons : ∀ i < n, ∀ j < n, U i = U j → |S i| = |S j|) (e : ℕ → IterEnv d)
    (he : ∀ it, IterOk n (e it)) (tuneIters : Int) (C R : List (Row d)) (hC : InSpheres n U S clamp C) (hA : AtMost maxP C)
    (h : fineTune U S recon sort sortC e tuneIters maxP nLocal iters lt tol clamp C = some R) :
    InSpheres n U S clamp R ∧ AtMost maxP R ∧ (R = C ∨ ∃ k : ℕ, (k : Int) < tuneIters ∧ OutsideBatch U S (e k).batch tol R ∧ GoodNormals U S R) := by
  unfold fineTune at h
  split at h
  · simp at h
  split at h
  · simp at h
  rename_i hm
  obtain ⟨b1, b2, b3⟩ := tune_spec n U S recon sort sortC maxP nLocal iters lt tol clamp hsort hsortC htol hcons e he (fun i x => pnorm (x - U i) ≤ |S i|) (fun i x hx => hx.le)
    (fun i p q hp φ => in_arc U S p q i hp φ) (not_not.mp hm) _ _ C R hC hA h
  refine ⟨b1, b2, b3.imp_right ?_⟩
  rintro ⟨k, -, k2, k3⟩
  exact ⟨k, by omega, k3⟩

/-- One iteration in space, when no target is diametrically opposite to the point that is moved towards it: every row is at exactly the distance of its sample, and inside no other
sphere of the batch by more than `tol`. -/
theorem C106_iter_3d (n : ℕ) (U : ℕ → Pt 3) (S : ℕ → ℝ) (sort : List ℕ → List ℕ) (sortC : List (ℕ × Pt 3) → List (ℕ × Pt 3)) (maxP nLocal iters : Int) (lt tol clamp : ℝ)
    (hsort : ∀ l, (sort l).Perm l) (hsortC : ∀ l, (sortC l).Perm l) (htol : 0 < tol) (hcons : ∀ i < n, ∀ j < n, U i = U j → |S i| = |S j|) (rc : Recon 3) (e : IterEnv 3)
    (he : IterOk n e) (C R : List (Row 3)) (hC : OnSpheres n U S clamp C)
    (hanti : ∀ r ∈ C, ∀ z, (z = rc.near r.index ∨ ∃ a, z = rc.nearC a) → projOnto U S rc.W z r.index - U r.index ≠ -(r.point - U r.index))
    (h : fineTuneIter U S rc sort sortC e maxP nLocal iters lt tol clamp C = some R) : OnSpheres n U S clamp R ∧ OutsideBatch U S e.batch tol R ∧ GoodNormals U S R := by
  obtain ⟨a1, a2, a3, -⟩ := iter_spec n U S sort sortC maxP nLocal iters lt tol clamp hsort hsortC htol.le hcons rc e he C R h (fun i x => pnorm (x - U i) = |S i|) (fun i x hx => hx)
    (fun r hr => (hC r hr).2.2) (by
      intro r hr z hz hfar φ
      refine on_arc3 U S r.point (projOnto U S rc.W z r.index) r.index (hC r hr).2.2 (on_projOnto U S rc.W z r.index) ?_ (hanti r hr z ?_) φ
      · intro heq
        apply hfar
        rw [← heq, sub_self]
        have : pnorm (0 : Pt 3) = 0 := by unfold pnorm psq; simp
        rw [this]; exact htol
      · rcases hz with hz | ⟨a, r', -, -, hz⟩
        · exact Or.inl hz
        · exact Or.inr ⟨a, hz⟩)
  exact ⟨a1, a2, a3⟩

/-- The result of an iteration depends neither on how the ranges of the first loop are cut, nor on the order and the threads of the second. -/
theorem C106_threads (rc : Recon d) (e e' : IterEnv d) (he : IterOk n e) (he' : IterOk n e') (h1 : e'.batch = e.batch) (h2 : e'.sh = e.sh) (C : List (Row d)) :
    fineTuneIter U S rc sort sortC e' maxP nLocal iters lt tol clamp C = fineTuneIter U S rc sort sortC e maxP nLocal iters lt tol clamp C := by
  unfold fineTuneIter
  dsimp only
  rw [h1]
  congr 1
  funext t
  rw [moved_eq U S rc sortC t tol lt maxP C e.sh e.slices (by rw [he.slices, he.sh.length_eq, List.length_range]),
    moved_eq U S rc sortC t tol lt maxP C e'.sh e'.slices (by rw [he'.slices, he'.sh.length_eq, List.length_range]), h2]
  exact (rowsG_spec U S sort t _ iters tol clamp _ _ (he'.sched _)).trans (rowsG_spec U S sort t _ iters tol clamp _ _ (he.sched _)).symm

end

/-- In the plane: every row of the result belongs to a sample below the clamp and is at exactly the distance of the sample, no sphere gets more than `max_points_per_sphere` rows, and
unless the cloud is returned unchanged, no point is inside another sphere of the last batch by more than `tol` and the normals are right. -/
theorem C106_tune_2d (n : ℕ) (U : ℕ → Pt 2) (S : ℕ → ℝ) (recon : List (Row 2) → Option (Recon 2)) (sort : List ℕ → List ℕ) (sortC : List (ℕ × Pt 2) → List (ℕ × Pt 2))
    (maxP nLocal iters : Int) (lt tol clamp : ℝ) (hsort : ∀ l, (sort l).Perm l) (hsortC : ∀ l, (sortC l).Perm l) (htol : 0 ≤ tol)
    (hcons : ∀ i < n, ∀ j < n, U i = U j → |S i| = |S j|) (e : ℕ → IterEnv 2) (he : ∀ it, IterOk n (e it)) (tuneIters : Int) (C R : List (Row 2)) (hC : OnSpheres n U S clamp C)
    (hA : AtMost maxP C) (h : fineTune U S recon sort sortC e tuneIters maxP nLocal iters lt tol clamp C = some R) :
    OnSpheres n U S clamp R ∧ AtMost maxP R ∧ (R = C ∨ ∃ k : ℕ, (k : Int) < tuneIters ∧ OutsideBatch U S (e k).batch tol R ∧ GoodNormals U S R) := by
  unfold fineTune at h
  split at h
  · simp at h
  split at h
  · simp at h
  rename_i hm
  obtain ⟨b1, b2, b3⟩ := tune_spec n U S recon sort sortC maxP nLocal iters lt tol clamp hsort hsortC htol hcons e he (fun i x => pnorm (x - U i) = |S i|) (fun i x hx => hx)
    (fun i p q hp φ => on_arc2 U S p q i hp φ) (not_not.mp hm) _ _ C R hC hA h
  refine ⟨b1, b2, b3.imp_right ?_⟩
  rintro ⟨k, -, k2, k3⟩
  exact ⟨k, by omega, k3⟩

/-- the hypotheses can be met: a circle with two points, three rounds -/
example : ∃ (e : ℕ → IterEnv 2) (C : List (Row 2)), (∀ it, IterOk 1 (e it)) ∧ OnSpheres 1 (fun _ => ![1 / 2, 1 / 2]) (fun _ => 1 / 4) 1 C ∧ AtMost 3 C ∧ 2 ≤ C.length ∧
    ∃ R, fineTune (fun _ => ![1 / 2, 1 / 2]) (fun _ => 1 / 4) (fun _ => some ⟨fun _ => 0, fun _ => ![1 / 2, 1 / 2], fun _ => 0, fun _ => 0, fun _ => 0⟩) id id e 3 3 3 20 (1 / 100) (1 / 10000) 1 C =
      some R := by
  have hok : ∀ _ : ℕ, IterOk 1 (⟨[0], [0], [[0]], fun m => (List.range m).map (fun k => (k, 0))⟩ : IterEnv 2) := fun _ =>
    { batch0 := by simp
      batch := by simp
      sh := .refl _
      slices := rfl
      sched := fun m => by
        show List.Perm ((List.map _ _).map _) _
        rw [List.map_map]
        have : (Prod.fst ∘ fun p : ℕ => (p, 0)) = (id : ℕ → ℕ) := rfl
        rw [this, List.map_id] }
  refine ⟨fun _ => ⟨[0], [0], [[0]], fun m => (List.range m).map (fun k => (k, 0))⟩, [⟨![3 / 4, 1 / 2], ![-1, 0], 0⟩, ⟨![1 / 2, 1 / 4], ![0, 1], 0⟩], hok, ?_, ?_, by simp, ?_⟩
  · intro r hr
    simp only [List.mem_cons, List.not_mem_nil, or_false] at hr
    rcases hr with rfl | rfl
    · refine ⟨by norm_num, by norm_num [abs_of_pos], ?_⟩
      unfold pnorm
      rw [psq2]
      simp only [Pi.sub_apply, Matrix.cons_val_zero, Matrix.cons_val_one]
      rw [show ((3 / 4 : ℝ) - 1 / 2) ^ 2 + (1 / 2 - 1 / 2) ^ 2 = (1 / 4) ^ 2 by norm_num, Real.sqrt_sq_eq_abs]
    · refine ⟨by norm_num, by norm_num [abs_of_pos], ?_⟩
      unfold pnorm
      rw [psq2]
      simp only [Pi.sub_apply, Matrix.cons_val_zero, Matrix.cons_val_one]
      rw [show ((1 / 2 : ℝ) - 1 / 2) ^ 2 + (1 / 4 - 1 / 2) ^ 2 = (1 / 4) ^ 2 by norm_num, Real.sqrt_sq_eq_abs]
  · intro i
    simp only [List.map_cons, List.map_nil, List.count_cons, List.count_nil]
    split <;> norm_num
  · exact C106_returns 1 _ _ _ _ _ _ _ _ _ _ _ _ hok 3 (Or.inl rfl) (by norm_num) _

/-! ## a point that leaves its sphere -/

/-- one sphere around the middle of the box, its point on the right, and a mesh whose nearest point is also on the right, with the sample inside (so that the target is on the left) -/
noncomputable def exU3 : ℕ → Pt 3 := fun _ => ![1 / 2, 1 / 2, 1 / 2]
noncomputable def exRow : Row 3 := ⟨![3 / 4, 1 / 2, 1 / 2], ![-1, 0, 0], 0⟩
noncomputable def exRc : Recon 3 := ⟨fun _ => 1 / 4, fun _ => ![1, 1 / 2, 1 / 2], fun _ => 1, fun _ => 0, fun _ => 0⟩
def exIt : IterEnv 3 := ⟨[0], [0], [[0]], fun m => (List.range m).map (fun k => (k, 0))⟩

theorem exIt_ok : IterOk 1 exIt where
  batch0 := by simp [exIt]
  batch := by simp [exIt]
  sh := .refl _
  slices := rfl
  sched := fun m => by
    show List.Perm ((List.map _ _).map _) _
    rw [List.map_map]
    have : (Prod.fst ∘ fun p : ℕ => (p, 0)) = (id : ℕ → ℕ) := rfl
    rw [this, List.map_id]

theorem pnorm_axis (a : ℝ) : pnorm (![a, 0, 0] : Pt 3) = |a| := by
  unfold pnorm
  rw [psq3]
  simp [Real.sqrt_sq_eq_abs]

/-- In space, a point whose target is diametrically opposite is moved off its sphere, into the ball, and kept. -/
theorem C106_antipodal_violated : OnSpheres 1 exU3 (fun _ => 1 / 4) 1 [exRow] ∧ IterOk 1 exIt ∧
    ∃ R, fineTuneIter exU3 (fun _ => 1 / 4) exRc id id exIt 3 3 20 (1 / 100) (1 / 10000) 1 [exRow] = some R ∧ ∃ r ∈ R, r.index = 0 ∧ pnorm (r.point - exU3 0) < 1 / 4 := by
  have hc : exRow.point - exU3 0 = ![1 / 4, 0, 0] := by
    funext j
    unfold exRow exU3
    fin_cases j <;> norm_num
  refine ⟨?_, exIt_ok, ?_⟩
  · intro r hr
    rw [List.mem_singleton.mp hr]
    refine ⟨by show 0 < 1; norm_num, by show |(1 / 4 : ℝ)| < 1; norm_num [abs_of_pos], ?_⟩
    show pnorm (exRow.point - exU3 0) = |(1 / 4 : ℝ)|
    rw [hc, pnorm_axis]
  · have ht : build (1 / 10000) 1 [sphereOf exU3 (fun _ => (1 / 4 : ℝ)) 0] = some (.leaf (sphereOf exU3 (fun _ => (1 / 4 : ℝ)) 0)) := by rw [build]
    have hfree : ∀ (x : Pt 3) (prims : List ℕ), spheresContaining (.leaf (sphereOf exU3 (fun _ => (1 / 4 : ℝ)) 0)) x 1 (-(1 / 10000)) 0 prims = [] := by
      intro x prims
      unfold spheresContaining
      rw [if_neg (by norm_num), bfs, if_pos (show (sphereOf exU3 (fun _ => (1 / 4 : ℝ)) 0).idx = 0 from rfl), bfs]
    have hq : projOnto exU3 (fun _ => (1 / 4 : ℝ)) exRc.W (exRc.near 0) 0 = ![1 / 4, 1 / 2, 1 / 2] := by
      have hd : exRc.near 0 - exU3 0 = ![1 / 2, 0, 0] := by
        funext j
        unfold exRc exU3
        fin_cases j <;> norm_num
      unfold projOnto direction
      rw [hd, pnorm_axis, if_pos (by unfold eps; norm_num [abs_of_pos])]
      funext j
      unfold exRc exU3
      fin_cases j <;> norm_num [abs_of_pos]
    have hqc : (![1 / 4, 1 / 2, 1 / 2] : Pt 3) - exU3 0 = ![-(1 / 4), 0, 0] := by
      funext j
      unfold exU3
      fin_cases j <;> norm_num
    have hpq : pnorm (exRow.point - ![1 / 4, 1 / 2, 1 / 2]) = 1 / 2 := by
      have : exRow.point - ![1 / 4, 1 / 2, 1 / 2] = (![1 / 2, 0, 0] : Pt 3) := by
        funext j
        unfold exRow
        fin_cases j <;> norm_num
      rw [this, pnorm_axis]
      norm_num [abs_of_pos]
    have hmv : movePts exU3 (fun _ => (1 / 4 : ℝ)) exRc id (.leaf (sphereOf exU3 (fun _ => (1 / 4 : ℝ)) 0)) (1 / 10000) (1 / 100) 3 [exRow] 0 =
        [fun j => exU3 0 j + Real.cos (1 / 25) * (exRow.point - exU3 0) j] := by
      unfold movePts
      dsimp only
      rw [if_neg (by unfold exRc; norm_num [abs_of_pos]), if_pos (by unfold exRc; norm_num [abs_of_pos]), hq]
      have hfi : feasInv [exRow] 0 = [(0, exRow.point)] := by unfold feasInv exRow; simp
      rw [hfi]
      show [movePQ exU3 (fun _ => (1 / 4 : ℝ)) _ (1 / 10000) (1 / 100) (closest _ (0, exRow.point) []).2 _ 0] = _
      have hcl : (closest (![1 / 4, 1 / 2, 1 / 2] : Pt 3) (0, exRow.point) []).2 = exRow.point := rfl
      rw [hcl]
      unfold movePQ
      dsimp only
      rw [hpq, hc, hqc, pnorm_axis, if_neg (by norm_num [abs_of_pos])]
      have harc : min ((1 / 100 : ℝ) / |1 / 4|) (2 * Real.arcsin (min 1 (1 / 2 * (1 / 2) / |(1 / 4 : ℝ)|))) = 1 / 25 := by
        rw [abs_of_pos (by norm_num : (0 : ℝ) < 1 / 4)]
        have : min (1 : ℝ) (1 / 2 * (1 / 2) / (1 / 4)) = 1 := by norm_num
        rw [this, Real.arcsin_one]
        have := Real.two_le_pi
        rw [min_eq_left (by linarith)]
        norm_num
      rw [harc, lineSearch]
      rw [if_pos (hfree _ _)]
      have hcr : cross (![1 / 4, 0, 0] : Pt 3) ![-(1 / 4), 0, 0] = 0 := by
        unfold cross
        funext j
        fin_cases j <;> simp
      rw [rotate3_zero _ _ _ hcr]
    obtain ⟨R, hR⟩ : ∃ R, fineTuneIter exU3 (fun _ => (1 / 4 : ℝ)) exRc id id exIt 3 3 20 (1 / 100) (1 / 10000) 1 [exRow] = some R := by
      unfold fineTuneIter
      dsimp only
      show ∃ R, Option.map _ (build (1 / 10000) 1 [sphereOf exU3 (fun _ => (1 / 4 : ℝ)) 0]) = some R
      rw [ht]
      exact ⟨_, rfl⟩
    refine ⟨R, hR, ?_⟩
    obtain ⟨t, ht', M, hM, rfl⟩ := iter_eq 1 exU3 (fun _ => (1 / 4 : ℝ)) id id 3 3 20 (1 / 100) (1 / 10000) 1 exRc exIt exIt_ok [exRow] R hR
    have e1 : some t = some (.leaf (sphereOf exU3 (fun _ => (1 / 4 : ℝ)) 0)) := ht'.symm.trans ht
    obtain rfl := Option.some.inj e1
    have hM' : M = [(fun j => exU3 0 j + Real.cos (1 / 25) * (exRow.point - exU3 0) j, 0)] := by
      rw [hM]
      show List.flatMap _ [0] = _
      rw [List.flatMap_cons, List.flatMap_nil, List.append_nil, hmv]
      rfl
    set y : Pt 3 := fun j => exU3 0 j + Real.cos (1 / 25) * (exRow.point - exU3 0) j with hy
    refine ⟨rowOf exU3 (fun _ => 1 / 4) 0 y, List.mem_filterMap.mpr ⟨((y, 0), 0), ?_, ?_⟩, rfl, ?_⟩
    · rw [hM']; simp
    · unfold oneG
      rw [hM']
      dsimp only [List.getElem?_cons_zero]
      rw [if_neg (by norm_num [abs_of_pos])]
      have : ((20 : Int) + 1).toNat = 20 + 1 := rfl
      rw [this, search]
      dsimp only
      rw [if_pos (hfree _ _)]
      rfl
    · show pnorm (y - exU3 0) < 1 / 4
      have hyc : y - exU3 0 = ![Real.cos (1 / 25) * (1 / 4), 0, 0] := by
        rw [hy, hc]
        funext j
        fin_cases j <;> simp
      have h1 : Real.cos (1 / 25) < 1 := by
        have := Real.cos_lt_cos_of_nonneg_of_le_pi_div_two (x := 0) (y := 1 / 25) le_rfl (by have := Real.two_le_pi; linarith) (by norm_num)
        rwa [Real.cos_zero] at this
      have h0 : 0 < Real.cos (1 / 25) := Real.cos_pos_of_mem_Ioo ⟨by have := Real.two_le_pi; linarith, by have := Real.two_le_pi; linarith⟩
      rw [hyc, pnorm_axis, abs_of_pos (by positivity)]
      linarith

end Gpy.Arcs
