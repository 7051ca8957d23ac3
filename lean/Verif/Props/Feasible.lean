import Verif.Proofs.Feasible
import Verif.Spec.Feasible

/-!
# C105: points of the spheres that no other sphere contains (`reach_for_the_arcs`)
-/

set_option autoImplicit false
namespace Gpy.Arcs
open Classical

variable {d : ℕ}

section
variable [NeZero d] (env : Env d) (he : EnvOk env) (n : ℕ) (U : ℕ → Pt d) (S : ℕ → ℝ) (P : List (Pt d)) (nLocal iters bs : Int) (tol clamp : ℝ)
include he

theorem batch_ok (hn : 0 < n) : batchOf env.choice env.shuffle n bs ≠ [] ∧ ∀ j ∈ batchOf env.choice env.shuffle n bs, j < n := by
  unfold batchOf
  split
  · rename_i h
    obtain ⟨h1, h2⟩ := he.choice n bs.toNat hn
    refine ⟨fun h0 => ?_, h2⟩
    rw [h0] at h1
    simp at h1
    omega
  · refine ⟨fun h0 => ?_, fun j hj => List.mem_range.mp ((he.shuffle _).mem_iff.mp hj)⟩
    have := (he.shuffle (List.range n)).length_eq
    rw [h0] at this
    simp at this
    omega

theorem py_spec (R : List (Row d)) (h : pyFeasible env n U S P nLocal iters bs tol clamp = some R) : 0 < n ∧ P ≠ [] ∧ ∃ t,
    build tol (batchOf env.choice env.shuffle n bs).length ((batchOf env.choice env.shuffle n bs).map (sphereOf U S)) = some t ∧
    R = (List.range n).filterMap (fun i => (one U S (env.near P) env.sort t (nSearch nLocal (batchOf env.choice env.shuffle n bs)) iters tol clamp i).map (rowOf U S i)) := by
  unfold pyFeasible at h
  split at h
  · simp at h
  rename_i h1
  push Not at h1
  split at h
  · simp at h
  rename_i h2
  split at h
  · simp at h
  unfold locallyMakeFeasible at h
  dsimp only at h
  rw [List.length_map] at h
  obtain ⟨t, e1, e2⟩ := Option.map_eq_some_iff.mp h
  refine ⟨Nat.pos_of_ne_zero h1.1, h2, t, e1, ?_⟩
  rw [← e2]
  exact rows_spec U S (env.near P) env.sort t _ iters tol clamp n (env.shuffle' (List.range n)) (he.shuffle' _) (env.sched n) (he.sched n)

/-- The call returns whenever its assertions hold. -/
theorem C105_returns (hn : 0 < n) (hU : ∀ i < n, ∀ j, 0 ≤ U i j ∧ U i j ≤ 1) (hP : P ≠ []) (hd : d = 2 ∨ d = 3) : ∃ R, pyFeasible env n U S P nLocal iters bs tol clamp = some R := by
  unfold pyFeasible
  rw [if_neg (by push Not; exact ⟨hn.ne', hU⟩), if_neg hP, if_neg (not_not_intro hd)]
  unfold locallyMakeFeasible
  dsimp only
  obtain ⟨hb, -⟩ := batch_ok env he n bs hn
  obtain ⟨t, ht, -⟩ := build_some tol ((batchOf env.choice env.shuffle n bs).map (sphereOf U S)).length ((batchOf env.choice env.shuffle n bs).map (sphereOf U S)) (by simpa using hb) (by simp)
  rw [ht]
  exact ⟨_, rfl⟩

/-- Every point returned with index `i` is at distance exactly `|S[i]|` from `U[i]`, is inside none of the spheres of the batch by more than `tol`, and `|S[i]|` is below the
clamp; the normals have length one and point from the sample to the point or back, outwards for the shape; the indices increase.  Samples at the same place are supposed to
have the same distance. -/
theorem C105_feasible (htol : 0 ≤ tol) (hcons : ∀ i < n, ∀ j < n, U i = U j → |S i| = |S j|) (R : List (Row d)) (h : pyFeasible env n U S P nLocal iters bs tol clamp = some R) :
    (R.map Row.index).Pairwise (· < ·) ∧
    ∀ r ∈ R, r.index < n ∧ |S r.index| < clamp ∧ Feasible U S (batchOf env.choice env.shuffle n bs) tol r.index r.point ∧ pnorm r.normal = 1 ∧
      (eps < |S r.index| → r.point = U r.index - S r.index • r.normal) := by
  obtain ⟨hn, -, t, ht, rfl⟩ := py_spec env he n U S P nLocal iters bs tol clamp R h
  obtain ⟨hb0, hb⟩ := batch_ok env he n bs hn
  constructor
  · rw [List.map_filterMap]
    have : ∀ i ∈ List.range n, Option.map Row.index (Option.map (rowOf U S i) (one U S (env.near P) env.sort t (nSearch nLocal (batchOf env.choice env.shuffle n bs)) iters tol clamp i)) =
        if (one U S (env.near P) env.sort t (nSearch nLocal (batchOf env.choice env.shuffle n bs)) iters tol clamp i).isSome then some i else none := by
      intro i _
      cases one U S (env.near P) env.sort t (nSearch nLocal (batchOf env.choice env.shuffle n bs)) iters tol clamp i <;> rfl
    rw [List.filterMap_congr this]
    refine List.Pairwise.filterMap (R := (· < ·)) _ ?_ List.pairwise_lt_range
    intro a b hab a' ha b' hb
    split at ha <;> simp at ha
    split at hb <;> simp at hb
    omega
  · intro r hr
    obtain ⟨i, hi, hr⟩ := List.mem_filterMap.mp hr
    obtain ⟨x, hx, rfl⟩ := Option.map_eq_some_iff.mp hr
    rw [List.mem_range] at hi
    unfold one at hx
    split at hx
    · simp at hx
    rename_i hcl
    dsimp only at hx
    split at hx
    · rename_i hok
      obtain rfl := Option.some.inj hx
      have hf := search_ok U S env.sort (nSearch nLocal (batchOf env.choice env.shuffle n bs)) tol (fun x => On x (U i) |S i|) he.sort htol (batchOf env.choice env.shuffle n bs) hb0 t ht i (fun _ h => h)
        (fun j hj hji => hcons j (hb j hj) i hi hji) _ [] _ (on_start U S (env.near P) i) hok
      refine ⟨hi, not_le.mp hcl, hf, ?_, ?_⟩
      · unfold rowOf
        dsimp only
        split
        · exact pnorm_direction _
        · rw [pnorm_neg]; exact pnorm_direction _
      · intro hs
        have hs' : eps < |S i| := hs
        have hd1 := hf.1
        unfold On at hd1
        generalize (search U S env.sort t (nSearch nLocal (batchOf env.choice env.shuffle n bs)) tol i (iters + 1).toNat [] (startPt U S (env.near P) i)).2.1 = x at *
        have hpos : 0 < |S i| := lt_trans (by unfold eps; norm_num) hs'
        show x = U i - S i • (rowOf U S i x).normal
        unfold rowOf direction
        dsimp only
        rw [hd1, if_pos hs']
        funext j
        split
        · rename_i hneg
          rw [abs_of_neg hneg] at hpos ⊢
          simp only [Pi.sub_apply, Pi.smul_apply, smul_eq_mul]
          have : S i ≠ 0 := by linarith
          field_simp
          ring
        · rename_i hneg
          rw [abs_of_nonneg (not_lt.mp hneg)] at hpos ⊢
          simp only [Pi.sub_apply, Pi.smul_apply, smul_eq_mul, Pi.neg_apply]
          have : S i ≠ 0 := by linarith
          field_simp
          ring
    · simp at hx

/-- With a batch size that is not positive or at least the number of samples, no point returned is inside any of the spheres by more than `tol`. -/
theorem C105_all (htol : 0 ≤ tol) (hcons : ∀ i < n, ∀ j < n, U i = U j → |S i| = |S j|) (hbs : bs ≤ 0 ∨ (n : Int) ≤ bs) (R : List (Row d))
    (h : pyFeasible env n U S P nLocal iters bs tol clamp = some R) : ∀ r ∈ R, ∀ j < n, |S j| - tol ≤ pnorm (r.point - U j) := by
  intro r hr j hj
  obtain ⟨-, -, ⟨h1, h2⟩, -⟩ := (C105_feasible env he n U S P nLocal iters bs tol clamp htol hcons R h).2 r hr
  by_cases hji : j = r.index
  · rw [hji, h1]; linarith
  · refine h2 j ?_ hji
    unfold batchOf
    rw [if_neg (by omega)]
    exact (he.shuffle _).mem_iff.mpr (List.mem_range.mpr hj)

/-- If the projection of the nearest outside point to the sphere of a sample is feasible, it is the point returned for that sample. -/
theorem C105_projection (htol : 0 ≤ tol) (hit : 0 ≤ iters) (R : List (Row d)) (h : pyFeasible env n U S P nLocal iters bs tol clamp = some R) (i : ℕ) (hi : i < n)
    (hcl : |S i| < clamp) (hfar : eps < pnorm (env.near P (U i) - U i)) (hfeas : Feasible U S (batchOf env.choice env.shuffle n bs) tol i (projection U S i (env.near P (U i)))) :
    ∃ r ∈ R, r.index = i ∧ r.point = projection U S i (env.near P (U i)) := by
  obtain ⟨hn, -, t, ht, rfl⟩ := py_spec env he n U S P nLocal iters bs tol clamp R h
  obtain ⟨hb0, hb⟩ := batch_ok env he n bs hn
  have hst : startPt U S (env.near P) i = projection U S i (env.near P (U i)) := by
    unfold startPt projection direction
    rw [if_pos hfar]
    rfl
  obtain ⟨m, hm⟩ : ∃ m, (iters + 1).toNat = m + 1 := ⟨iters.toNat, by omega⟩
  obtain ⟨s1, s2⟩ := search_start U S env.sort (nSearch nLocal (batchOf env.choice env.shuffle n bs)) tol htol (batchOf env.choice env.shuffle n bs) hb0 t ht i m [] (startPt U S (env.near P) i)
    (by rw [hst]; exact hfeas.2)
  refine ⟨rowOf U S i (startPt U S (env.near P) i), List.mem_filterMap.mpr ⟨i, List.mem_range.mpr hi, ?_⟩, rfl, hst⟩
  unfold one
  rw [if_neg (not_le.mpr hcl), hm]
  dsimp only
  rw [if_pos s1, s2]
  rfl

/-- The result does not depend on the order of the iterations, on the number of threads, or on which thread runs which iteration, nor on the shuffled order of the samples. -/
theorem C105_schedule (env' : Env d) (he' : EnvOk env') (h1 : env'.choice = env.choice) (h2 : env'.shuffle = env.shuffle) (h3 : env'.near = env.near) (h4 : env'.sort = env.sort) :
    pyFeasible env' n U S P nLocal iters bs tol clamp = pyFeasible env n U S P nLocal iters bs tol clamp := by
  unfold pyFeasible
  refine if_congr Iff.rfl rfl (if_congr Iff.rfl rfl (if_congr Iff.rfl rfl ?_))
  rw [h1, h2, h3, h4]
  unfold locallyMakeFeasible
  dsimp only
  congr 1
  funext t
  exact (rows_spec U S (env.near P) env.sort t _ iters tol clamp n (env'.shuffle' (List.range n)) (he'.shuffle' _) (env'.sched n) (he'.sched n)).trans
    (rows_spec U S (env.near P) env.sort t _ iters tol clamp n (env.shuffle' (List.range n)) (he.shuffle' _) (env.sched n) (he.sched n)).symm

end

/-- The points of intersection that the search moves to are on all the circles or spheres concerned. -/
theorem C105_intersections :
    (∀ (c1 c2 p1 p2 : Pt 2) (r1 r2 : ℝ), 0 ≤ r1 → 0 ≤ r2 → circleCircle c1 r1 c2 r2 = some (some (p1, p2)) →
      ∀ p, p = p1 ∨ p = p2 → pnorm (p - c1) = r1 ∧ pnorm (p - c2) = r2) ∧
    (∀ (c1 c2 c3 p1 p2 : Pt 3) (r1 r2 r3 : ℝ), 0 ≤ r1 → 0 ≤ r2 → 0 ≤ r3 → sphereSphereSphere c1 r1 c2 r2 c3 r3 = some (p1, p2) →
      ∀ p, p = p1 ∨ p = p2 → pnorm (p - c1) = r1 ∧ pnorm (p - c2) = r2 ∧ pnorm (p - c3) = r3) := by
  constructor
  · intro c1 c2 p1 p2 r1 r2 h1 h2 h p hp
    obtain ⟨a1, a2, a3, a4⟩ := circleCircle_on h1 h2 h
    rcases hp with rfl | rfl
    · exact ⟨a1, a3⟩
    · exact ⟨a2, a4⟩
  · intro c1 c2 c3 p1 p2 r1 r2 r3 h1 h2 h3 h p hp
    obtain ⟨a, b⟩ := sphereSphereSphere_on h1 h2 h3 h
    rcases hp with rfl | rfl
    · exact a
    · exact b

/-- two circles of radius 1/2 at distance one, and an outside point above -/
noncomputable def exU : ℕ → Pt 2 := fun i => if i = 0 then ![0, 0] else ![1, 0]
noncomputable def exEnv : Env 2 where
  choice := fun n k => List.replicate k 0
  shuffle := id
  shuffle' := id
  near := fun P _ => P.headD 0
  sort := id
  sched := fun n => (List.range n).map (fun p => (p, 0))

theorem exEnv_ok : EnvOk exEnv where
  choice := fun n k hn => ⟨List.length_replicate, fun j hj => by rw [List.eq_of_mem_replicate hj]; exact hn⟩
  shuffle := fun _ => .refl _
  shuffle' := fun _ => .refl _
  sort := fun _ => .refl _
  sched := fun n => by
    show List.Perm ((List.map _ _).map _) _
    rw [List.map_map]
    have : (Prod.fst ∘ fun p : ℕ => (p, 0)) = (id : ℕ → ℕ) := rfl
    rw [this, List.map_id]

/-- the hypotheses can be met, and a point is found -/
example : ∃ R, pyFeasible exEnv 2 exU (fun _ => 1 / 2) [![0, 1]] 3 20 10000 0 1 = some R ∧ ∃ r ∈ R, r.index = 0 ∧ r.point = ![0, 1 / 2] := by
  obtain ⟨R, hR⟩ := C105_returns exEnv exEnv_ok 2 exU (fun _ => 1 / 2) [![0, 1]] 3 20 10000 0 1 (by norm_num)
    (by intro i _ j; unfold exU; split <;> fin_cases j <;> norm_num) (by simp) (Or.inl rfl)
  refine ⟨R, hR, ?_⟩
  have hnear : exEnv.near [![0, 1]] (exU 0) = ![0, 1] := rfl
  have hn1 : pnorm (![0, 1] - exU 0) = 1 := by unfold pnorm psq exU; simp
  have hproj : projection exU (fun _ => 1 / 2) 0 ![0, 1] = ![0, 1 / 2] := by
    unfold projection
    rw [hn1]
    funext j
    fin_cases j <;> simp [exU] <;> norm_num
  obtain ⟨r, hr, h1, h2⟩ := C105_projection exEnv exEnv_ok 2 exU (fun _ => 1 / 2) [![0, 1]] 3 20 10000 0 1 le_rfl (by norm_num) R hR 0 (by norm_num) (by norm_num)
    (by rw [hnear, hn1]; unfold eps; norm_num) (by
      rw [hnear, hproj]
      refine ⟨?_, fun j hj hj0 => ?_⟩
      · unfold pnorm psq exU
        simp
      · have : exU j = ![1, 0] := if_neg hj0
        rw [this]
        refine le_trans ?_ (abs_le_pnorm (![0, 1 / 2] - ![1, 0]) 0)
        norm_num [abs_of_pos])
  rw [hnear, hproj] at h2
  exact ⟨r, hr, h1, h2⟩

end Gpy.Arcs
