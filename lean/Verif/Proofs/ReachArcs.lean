import Verif.Spec.ReachArcs
import Verif.Props.Feasible
import Verif.Props.FineTune
import Verif.Props.Raster

/-!
# Lemmas for `reach_for_the_arcs`
-/

set_option autoImplicit false
namespace Gpy.Arcs
open Classical

variable {d : ℕ}

/-! ## bounding box -/

theorem fold_min_affine (a b : ℝ) (ha : 0 ≤ a) (f : ℕ → ℝ) (L : List ℕ) (x : ℝ) :
    L.foldl (fun v i => min v (a * f i + b)) (a * x + b) = a * L.foldl (fun v i => min v (f i)) x + b := by
  induction L generalizing x with
  | nil => rfl
  | cons i L ih =>
    rw [List.foldl_cons, List.foldl_cons, ← ih]
    congr 1
    rw [min_add_add_right, mul_min_of_nonneg _ _ ha]

theorem fold_max_scale {α : Type} (a : ℝ) (ha : 0 ≤ a) (f : α → ℝ) (L : List α) (x : ℝ) :
    L.foldl (fun v i => max v (a * f i)) (a * x) = a * L.foldl (fun v i => max v (f i)) x := by
  induction L generalizing x with
  | nil => rfl
  | cons i L ih =>
    rw [List.foldl_cons, List.foldl_cons, ← ih]
    congr 1
    rw [mul_max_of_nonneg _ _ ha]

theorem fold_min_attained (f : ℕ → ℝ) (L : List ℕ) (x : ℝ) : L.foldl (fun v i => min v (f i)) x = x ∨ ∃ i ∈ L, L.foldl (fun v i => min v (f i)) x = f i := by
  induction L generalizing x with
  | nil => exact Or.inl rfl
  | cons i L ih =>
    rw [List.foldl_cons]
    rcases ih (min x (f i)) with h | ⟨k, hk, h⟩
    · rw [h]
      rcases min_choice x (f i) with h' | h'
      · exact Or.inl h'
      · exact Or.inr ⟨i, List.mem_cons_self, h'⟩
    · exact Or.inr ⟨k, List.mem_cons_of_mem _ hk, h⟩

theorem fold_max_attained {α : Type} (f : α → ℝ) (L : List α) (x : ℝ) : L.foldl (fun v i => max v (f i)) x = x ∨ ∃ i ∈ L, L.foldl (fun v i => max v (f i)) x = f i := by
  induction L generalizing x with
  | nil => exact Or.inl rfl
  | cons i L ih =>
    rw [List.foldl_cons]
    rcases ih (max x (f i)) with h | ⟨k, hk, h⟩
    · rw [h]
      rcases max_choice x (f i) with h' | h'
      · exact Or.inl h'
      · exact Or.inr ⟨i, List.mem_cons_self, h'⟩
    · exact Or.inr ⟨k, List.mem_cons_of_mem _ hk, h⟩

theorem le_fold_max' {α : Type} (f : α → ℝ) (L : List α) (x : ℝ) : x ≤ L.foldl (fun v i => max v (f i)) x ∧ ∀ i ∈ L, f i ≤ L.foldl (fun v i => max v (f i)) x := by
  induction L generalizing x with
  | nil => exact ⟨le_rfl, by simp⟩
  | cons i L ih =>
    rw [List.foldl_cons]
    obtain ⟨h1, h2⟩ := ih (max x (f i))
    refine ⟨(le_max_left _ _).trans h1, fun k hk => ?_⟩
    rcases List.mem_cons.mp hk with rfl | hk
    · exact (le_max_right _ _).trans h1
    · exact h2 k hk

theorem minOver_attained (m : ℕ) (hm : 0 < m) (f : ℕ → ℝ) : ∃ i < m, Raster.minOver m f = f i := by
  rcases fold_min_attained f (List.range m) (f 0) with h | ⟨i, hi, h⟩
  · exact ⟨0, hm, h⟩
  · exact ⟨i, List.mem_range.mp hi, h⟩

theorem maxOver_attained (m : ℕ) (hm : 0 < m) (f : ℕ → ℝ) : ∃ i < m, Raster.maxOver m f = f i := by
  rcases fold_max_attained f (List.range m) (f 0) with h | ⟨i, hi, h⟩
  · exact ⟨0, hm, h⟩
  · exact ⟨i, List.mem_range.mp hi, h⟩

theorem transOf_le (n : ℕ) (U : ℕ → Pt d) (i : ℕ) (hi : i < n) (j : Fin d) : transOf n U j ≤ U i j := Raster.minOver_le n (fun i => U i j) i hi

theorem le_scaleOf [NeZero d] (n : ℕ) (U : ℕ → Pt d) (i : ℕ) (hi : i < n) (j : Fin d) : U i j - transOf n U j ≤ scaleOf n U :=
  (Raster.le_maxOver n (fun i => U i j - transOf n U j) i hi).trans
    ((le_fold_max' (fun j => Raster.maxOver n (fun i => U i j - transOf n U j)) (List.finRange d) _).2 j (List.mem_finRange j))

theorem scaleOf_nonneg [NeZero d] (n : ℕ) (hn : 0 < n) (U : ℕ → Pt d) : 0 ≤ scaleOf n U :=
  (sub_nonneg.mpr (transOf_le n U 0 hn 0)).trans (le_scaleOf n U 0 hn 0)

theorem scaleOf_longest [NeZero d] (n : ℕ) (hn : 0 < n) (U : ℕ → Pt d) : LongestSide n U (scaleOf n U) := by
  constructor
  · intro i hi i' hi' j
    have h1 := le_scaleOf n U i hi j
    have h2 := transOf_le n U i' hi' j
    linarith
  · have key : ∃ j, scaleOf n U = Raster.maxOver n (fun i => U i j - transOf n U j) := by
      rcases fold_max_attained (fun j => Raster.maxOver n (fun i => U i j - transOf n U j)) (List.finRange d) (Raster.maxOver n (fun i => U i 0 - transOf n U 0)) with h | ⟨j, -, h⟩
      · exact ⟨0, h⟩
      · exact ⟨j, h⟩
    obtain ⟨j, hj⟩ := key
    obtain ⟨i, hi, h⟩ := maxOver_attained n hn (fun i => U i j - transOf n U j)
    obtain ⟨i', hi', h'⟩ := minOver_attained n hn (fun i => U i j)
    refine ⟨i, hi, i', hi', j, ?_⟩
    rw [hj, h]
    show U i j - U i' j = U i j - transOf n U j
    unfold transOf
    rw [h']

theorem LongestSide.unique {n : ℕ} {U : ℕ → Pt d} {s s' : ℝ} (h : LongestSide n U s) (h' : LongestSide n U s') : s = s' := by
  obtain ⟨i, hi, i', hi', j, e⟩ := h.2
  obtain ⟨k, hk, k', hk', l, e'⟩ := h'.2
  apply le_antisymm
  · rw [← e]; exact h'.1 i hi i' hi' j
  · rw [← e']; exact h.1 k hk k' hk' l

theorem transOf_affine (n : ℕ) (U : ℕ → Pt d) (a : ℝ) (ha : 0 ≤ a) (b : Pt d) : transOf n (fun i j => a * U i j + b j) = fun j => a * transOf n U j + b j := by
  funext j
  exact fold_min_affine a (b j) ha (fun i => U i j) (List.range n) (U 0 j)

theorem scaleOf_affine [NeZero d] (n : ℕ) (U : ℕ → Pt d) (a : ℝ) (ha : 0 ≤ a) (b : Pt d) : scaleOf n (fun i j => a * U i j + b j) = a * scaleOf n U := by
  unfold scaleOf
  rw [transOf_affine n U a ha b]
  have h : ∀ j : Fin d, Raster.maxOver n (fun i => a * U i j + b j - (a * transOf n U j + b j)) = a * Raster.maxOver n (fun i => U i j - transOf n U j) := by
    intro j
    have : (fun i => a * U i j + b j - (a * transOf n U j + b j)) = fun i => a * (U i j - transOf n U j) := by funext i; ring
    rw [this]
    exact fold_max_scale a ha (fun i => U i j - transOf n U j) (List.range n) (U 0 j - transOf n U j)
  simp only [h]
  exact fold_max_scale a ha (fun j => Raster.maxOver n (fun i => U i j - transOf n U j)) (List.finRange d) _

/-! ## the groups -/

theorem getD_eq (G : List ℕ) (k : ℕ) (hk : k < G.length) : G.getD k 0 = G[k] := by simp [hk]

section
variable [NeZero d] (eR : Raster.Env d) (eF : Env d) (G : List ℕ) (U : ℕ → Pt d) (S : ℕ → ℝ) (res nLocal iters bs numSph : Int) (tol clamp : ℝ)

theorem group_some (heF : EnvOk eF) (hU : ∀ i ∈ G, ∀ j, 0 ≤ U i j ∧ U i j ≤ 1) (hd : d = 2 ∨ d = 3) (hres : 2 ≤ res) :
    ∃ R, group eR eF G U S res nLocal iters bs numSph tol clamp = some R := by
  unfold group
  split
  · exact ⟨_, rfl⟩
  rename_i hG
  have hlen : 0 < G.length := List.length_pos_iff.mpr hG
  have hU' : ∀ k < G.length, ∀ j, 0 ≤ U (G.getD k 0) j ∧ U (G.getD k 0) j ≤ 1 := by
    intro k hk
    rw [getD_eq _ _ hk]
    exact hU _ (List.getElem_mem hk)
  unfold sdfToCloud
  obtain ⟨P, hP⟩ := Raster.C107_returns eR G.length (fun k => U (G.getD k 0)) (fun k => S (G.getD k 0)) res numSph true hlen hU' hd hres
  rw [hP, Option.bind_some]
  split
  · exact ⟨_, rfl⟩
  rename_i hP0
  obtain ⟨R, hR⟩ := C105_returns eF heF G.length (fun k => U (G.getD k 0)) (fun k => S (G.getD k 0)) P nLocal iters bs tol clamp hlen hU' hP0 hd
  rw [hR]
  exact ⟨_, rfl⟩

theorem group_spec (heF : EnvOk eF) (hG : G.Pairwise (· < ·)) (htol : 0 ≤ tol) (hcons : ∀ i ∈ G, ∀ j ∈ G, U i = U j → |S i| = |S j|) (R : List (Row d))
    (h : group eR eF G U S res nLocal iters bs numSph tol clamp = some R) :
    (R.map Row.index).Pairwise (· < ·) ∧ ∀ r ∈ R, r.index ∈ G ∧ |S r.index| < clamp ∧ pnorm (r.point - U r.index) = |S r.index| ∧ pnorm r.normal = 1 ∧
      (eps < |S r.index| → r.point = U r.index - S r.index • r.normal) ∧ (bs ≤ 0 ∨ (G.length : Int) ≤ bs → ∀ j ∈ G, |S j| - tol ≤ pnorm (r.point - U j)) := by
  unfold group at h
  split at h
  · rw [← Option.some.inj h]; simp
  obtain ⟨R0, h0, rfl⟩ := Option.map_eq_some_iff.mp h
  unfold sdfToCloud at h0
  obtain ⟨P, hP, h0⟩ := Option.bind_eq_some_iff.mp h0
  split at h0
  · rw [← Option.some.inj h0]; simp
  have hget : ∀ k (hk : k < G.length), G.getD k 0 = G[k] := fun k hk => getD_eq _ _ hk
  have hmem : ∀ k < G.length, G.getD k 0 ∈ G := fun k hk => by rw [hget k hk]; exact List.getElem_mem hk
  have hc' : ∀ i < G.length, ∀ j < G.length, U (G.getD i 0) = U (G.getD j 0) → |S (G.getD i 0)| = |S (G.getD j 0)| := fun i hi j hj => hcons _ (hmem i hi) _ (hmem j hj)
  obtain ⟨f1, f2⟩ := C105_feasible eF heF G.length (fun k => U (G.getD k 0)) (fun k => S (G.getD k 0)) P nLocal iters bs tol clamp htol hc' R0 h0
  constructor
  · rw [List.map_map]
    have e : (Row.index ∘ fun r : Row d => { r with index := G.getD r.index 0 }) = (fun k => G.getD k 0) ∘ Row.index := rfl
    rw [e, ← List.map_map, List.pairwise_map]
    refine List.Pairwise.imp_of_mem ?_ f1
    intro a b ha hb hab
    obtain ⟨ra, hra, rfl⟩ := List.mem_map.mp ha
    obtain ⟨rb, hrb, rfl⟩ := List.mem_map.mp hb
    rw [hget _ (f2 ra hra).1, hget _ (f2 rb hrb).1]
    exact List.pairwise_iff_getElem.mp hG _ _ _ _ hab
  · intro r hr
    obtain ⟨r0, hr0, rfl⟩ := List.mem_map.mp hr
    obtain ⟨g1, g2, g3, g4, g5⟩ := f2 r0 hr0
    refine ⟨hmem _ g1, g2, g3.1, g4, g5, fun hbs j hj => ?_⟩
    obtain ⟨k, hk, rfl⟩ := List.mem_iff_getElem.mp hj
    have := C105_all eF heF G.length (fun k => U (G.getD k 0)) (fun k => S (G.getD k 0)) P nLocal iters bs tol clamp htol hc' hbs R0 h0 r0 hr0 k hk
    rw [hget k hk] at this
    exact this

end

/-! ## counting -/

theorem length_le_count (n : ℕ) (m : ℕ) (L : List ℕ) (hL : ∀ i ∈ L, i < n) (hc : ∀ i, L.count i ≤ m) : L.length ≤ n * m := by
  induction n generalizing L with
  | zero =>
    cases L with
    | nil => simp
    | cons a L => exact absurd (hL a List.mem_cons_self) (by omega)
  | succ n ih =>
    have h1 : L.length = L.count n + (L.filter (fun i => ¬ i = n)).length := by
      have := List.length_eq_length_filter_add (l := L) (fun i => decide (i = n))
      rw [this, List.count_eq_length_filter]
      congr 1
      · congr 1
        apply List.filter_congr
        intro x _
        simp [beq_iff_eq, eq_comm]
    have h2 := ih (L.filter (fun i => ¬ i = n)) (by
      intro i hi
      obtain ⟨h, h'⟩ := List.mem_filter.mp hi
      have := hL i h
      simp at h'
      omega) (fun i => (List.filter_sublist.count_le i).trans (hc i))
    have := hc n
    rw [h1, Nat.succ_mul]
    omega

theorem pnorm_scale (a : ℝ) (x : Pt d) : pnorm (fun j => a * x j) = |a| * pnorm x := by
  unfold pnorm psq
  rw [← Real.sqrt_sq_eq_abs, ← Real.sqrt_mul (sq_nonneg a)]
  congr 1
  rw [Finset.mul_sum]
  exact Finset.sum_congr rfl (fun j _ => by ring)

theorem tuneEnv_ok (env : ArcEnv d) (he : ArcEnvOk env) (n : ℕ) (hn : 0 < n) (bs : Int) (it : ℕ) : IterOk n (tuneEnv env n bs it) where
  batch0 := by
    show batchOf _ _ _ _ ≠ []
    unfold batchOf
    split
    · rename_i h
      intro h0
      have := (he.choice it n bs.toNat hn).1
      rw [h0] at this
      simp at this
      omega
    · intro h0
      have := (he.shuffle it (List.range n)).length_eq
      rw [h0] at this
      simp at this
      omega
  batch := by
    show ∀ j ∈ batchOf _ _ _ _, j < n
    unfold batchOf
    split
    · exact (he.choice it n bs.toNat hn).2
    · exact fun j hj => List.mem_range.mp ((he.shuffle it _).mem_iff.mp hj)
  sh := he.sh it _
  slices := he.slices it n
  sched := he.sched it

end Gpy.Arcs
