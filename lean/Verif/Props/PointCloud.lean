import Verif.Model.PointCloud
import Verif.Proofs.Aabb
import Mathlib.Data.Fin.VecNotation
import Mathlib.Tactic.FinCases
import Mathlib.Tactic.NormNum

/-!
# C125: `point_cloud_to_mesh` works in the coordinates of the caller

The reconstruction of Kazhdan and Hoppe, `R`, is an arbitrary function.
-/

set_option autoImplicit false
namespace Gpy.PointCloud

variable {d : ℕ} {R : Recon d} {method boundary : String} {weight : ℝ} {depth : ℤ} {P N : List (Pt d)}

private theorem max_spec (f : Fin d → ℝ) (hd : 0 < d) : ∃ k, ((List.ofFn f).max?).getD 0 = f k ∧ ∀ j, f j ≤ f k := by
  cases h : (List.ofFn f).max? with
  | none =>
    rw [List.max?_eq_none_iff, List.ofFn_eq_nil_iff] at h
    omega
  | some m =>
    rw [List.max?_eq_some_iff] at h
    obtain ⟨h1, h2⟩ := h
    rw [List.mem_ofFn] at h1
    obtain ⟨k, hk⟩ := h1
    refine ⟨k, by simp [hk], fun j => ?_⟩
    rw [hk]
    exact h2 _ (by rw [List.mem_ofFn]; exact ⟨j, rfl⟩)

private theorem side (lo hi : Pt d) (k : Fin d) : maxs lo hi k - mins lo hi k = 3.2 * (hi k - lo k + 1 / 10 ^ 6) + 1 / 10 ^ 6 := by
  unfold maxs mins
  ring

private theorem returns_iff : (∃ r, pointCloudToMesh R method weight depth boundary P N = some r) ↔
    P.length = N.length ∧ 2 ≤ P.length ∧ (d = 2 ∨ d = 3) ∧ method = "PSR" ∧ 0 < depth ∧ 0 ≤ weight := by
  unfold pointCloudToMesh
  constructor
  · rintro ⟨r, hr⟩
    split_ifs at hr with h1 h2 h3 h4 h5 h6
    refine ⟨by simpa using h1, by omega, by omega, by simpa using h4, by omega, by linarith⟩
  · rintro ⟨h1, h2, h3, h4, h5, h6⟩
    rw [if_neg (by simpa using h1), if_neg (by omega), if_neg (by omega), if_neg (by simpa using h4), if_neg (by omega), if_neg (by linarith)]
    have hne : P ≠ [] := by rintro rfl; simp at h2
    obtain ⟨lo, e1, -⟩ := npAmin_spec hne
    obtain ⟨hi, e2, -⟩ := npAmax_spec hne
    unfold reconstruct
    rw [e1, e2]
    exact ⟨_, rfl⟩

/-- **C125** (exceptions).  The call returns exactly for two or more points in the plane or in space with one normal each, the method 'PSR', a positive depth and a nonnegative screening weight. -/
theorem C125_returns : (∃ r, pointCloudToMesh R method weight depth boundary P N = some r) ↔
    P.length = N.length ∧ 2 ≤ P.length ∧ (d = 2 ∨ d = 3) ∧ method = "PSR" ∧ 0 < depth ∧ 0 ≤ weight := returns_iff

/-- the points as the reconstruction sees them -/
private theorem unfold_some {V : List (Pt d)} {F : List (Fin d → ℤ)} (h : pointCloudToMesh R method weight depth boundary P N = some (V, F)) :
    0 < d ∧ ∃ lo hi, npAmin P = some lo ∧ npAmax P = some hi ∧ P ≠ [] ∧
      V = (R ⟨min 12 depth, weight, boundary = "Dirichlet" ∨ boundary = "dirichlet"⟩ (P.map (normalise lo hi)) N).1.map (denormalise lo hi) ∧
      F = (R ⟨min 12 depth, weight, boundary = "Dirichlet" ∨ boundary = "dirichlet"⟩ (P.map (normalise lo hi)) N).2 := by
  obtain ⟨g1, g2, g3, g4, g5, g6⟩ := returns_iff.mp ⟨_, h⟩
  have hne : P ≠ [] := by rintro rfl; simp at g2
  obtain ⟨lo, e1, -⟩ := npAmin_spec hne
  obtain ⟨hi, e2, -⟩ := npAmax_spec hne
  unfold pointCloudToMesh at h
  rw [if_neg (by simpa using g1), if_neg (by omega), if_neg (by omega), if_neg (by simpa using g4), if_neg (by omega), if_neg (by linarith)] at h
  unfold reconstruct at h
  rw [e1, e2] at h
  simp only [Option.some.injEq, Prod.mk.injEq] at h
  exact ⟨by omega, lo, hi, e1, e2, hne, h.1.symm, h.2.symm⟩

/-- **C125** (coordinates).  The reconstruction is run on a translated and uniformly scaled copy of the points, with the normals unchanged and the depth limited to 12, and the result is moved back: the
faces are those of the reconstruction, the vertices its vertices under the inverse of the same map.  The copy lies inside the unit cube, in one coordinate between 11/32 and 21/32; if two of the points differ by
`1e-6` or more in some coordinate, two points of the copy differ by at least 5/37 in some coordinate. -/
theorem C125_similarity {V : List (Pt d)} {F : List (Fin d → ℤ)} (h : pointCloudToMesh R method weight depth boundary P N = some (V, F)) :
    ∃ s : ℝ, 0 < s ∧ ∃ t : Pt d, ∃ Q : List (Pt d), Q = P.map (fun p k => (p k - t k) / s) ∧
      (∃ W, R ⟨min 12 depth, weight, boundary = "Dirichlet" ∨ boundary = "dirichlet"⟩ Q N = (W, F) ∧ V = W.map (fun v k => v k * s + t k)) ∧
      (∀ q ∈ Q, ∀ k, 0 < q k ∧ q k ≤ 21 / 32) ∧ (∃ k, ∀ q ∈ Q, 11 / 32 ≤ q k) ∧
      ((∃ p ∈ P, ∃ p' ∈ P, ∃ k, 1 / 10 ^ 6 ≤ p k - p' k) → ∃ q ∈ Q, ∃ q' ∈ Q, ∃ k, 5 / 37 ≤ q k - q' k) := by
  obtain ⟨hd, lo, hi, e1, e2, hne, rfl, rfl⟩ := unfold_some h
  obtain ⟨lo', e1', l1, l2⟩ := npAmin_spec hne
  obtain ⟨hi', e2', u1, u2⟩ := npAmax_spec hne
  obtain rfl : lo = lo' := Option.some.inj (e1.symm.trans e1')
  obtain rfl : hi = hi' := Option.some.inj (e2.symm.trans e2')
  obtain ⟨m, hm, hmax⟩ := max_spec (fun k => maxs lo hi k - mins lo hi k) hd
  have hs : scale lo hi = 3.2 * (hi m - lo m + 1 / 10 ^ 6) + 1 / 10 ^ 6 := by unfold scale; rw [hm]; exact side lo hi m
  have hge : ∀ k, hi k - lo k ≤ hi m - lo m := by
    intro k
    have := hmax k
    simp only [side] at this
    linarith
  have hlh : ∀ k, lo k ≤ hi k := by
    intro k
    obtain ⟨p, hp, e⟩ := l2 k
    rw [← e]
    exact u1 p hp k
  have hpos : 0 < scale lo hi := by
    rw [hs]
    have := hlh m
    norm_num
    linarith
  refine ⟨scale lo hi, hpos, mins lo hi, P.map (normalise lo hi), rfl, ⟨_, rfl, rfl⟩, ?_, ⟨m, ?_⟩, ?_⟩
  · intro q hq k
    rw [List.mem_map] at hq
    obtain ⟨p, hp, rfl⟩ := hq
    have a1 := l1 p hp k
    have a2 := u1 p hp k
    have a3 := hge k
    have a4 := hlh k
    unfold normalise
    constructor
    · refine div_pos ?_ hpos
      unfold mins
      norm_num
      linarith
    · rw [div_le_iff₀ hpos, hs]
      unfold mins
      norm_num
      linarith
  · intro q hq
    rw [List.mem_map] at hq
    obtain ⟨p, hp, rfl⟩ := hq
    have a1 := l1 p hp m
    have a4 := hlh m
    unfold normalise
    rw [le_div_iff₀ hpos, hs]
    unfold mins
    norm_num
    linarith
  · rintro ⟨p, hp, p', hp', k, hk⟩
    obtain ⟨x, hx, ex⟩ := u2 m
    obtain ⟨y, hy, ey⟩ := l2 m
    refine ⟨_, List.mem_map_of_mem hx, _, List.mem_map_of_mem hy, m, ?_⟩
    have a1 := l1 p' hp' k
    have a2 := u1 p hp k
    have a3 := hge k
    unfold normalise
    rw [← sub_div, le_div_iff₀ hpos, hs, ex, ey]
    norm_num at hk ⊢
    linarith

/-- **C125** (translation).  Moving all points by `t` moves the vertices by `t` and keeps the faces, whatever the reconstruction does. -/
theorem C125_translation (t : Pt d) : pointCloudToMesh R method weight depth boundary (P.map (fun p k => p k + t k)) N =
    (pointCloudToMesh R method weight depth boundary P N).map (fun r => (r.1.map (fun v k => v k + t k), r.2)) := by
  unfold pointCloudToMesh
  rw [List.length_map]
  split_ifs with h1 h2 h3 h4 h5 h6
  · rfl
  · rfl
  · rfl
  · rfl
  · rfl
  · rfl
  have hne : P ≠ [] := by rintro rfl; simp at h2
  have hne' : P.map (fun p k => p k + t k) ≠ [] := by simpa using hne
  obtain ⟨lo, e1, l1, l2⟩ := npAmin_spec hne
  obtain ⟨hi, e2, u1, u2⟩ := npAmax_spec hne
  obtain ⟨lo', e1', l1', l2'⟩ := npAmin_spec hne'
  obtain ⟨hi', e2', u1', u2'⟩ := npAmax_spec hne'
  have elo : lo' = fun k => lo k + t k := by
    funext k
    obtain ⟨x, hx, ex⟩ := l2 k
    obtain ⟨y, hy, ey⟩ := l2' k
    rw [List.mem_map] at hy
    obtain ⟨z, hz, rfl⟩ := hy
    have a := l1 z hz k
    have b := l1' _ (List.mem_map_of_mem hx) k
    simp only at ey b
    linarith
  have ehi : hi' = fun k => hi k + t k := by
    funext k
    obtain ⟨x, hx, ex⟩ := u2 k
    obtain ⟨y, hy, ey⟩ := u2' k
    rw [List.mem_map] at hy
    obtain ⟨z, hz, rfl⟩ := hy
    have a := u1 z hz k
    have b := u1' _ (List.mem_map_of_mem hx) k
    simp only at ey b
    linarith
  have es : scale lo' hi' = scale lo hi := by
    unfold scale
    simp only [side]
    rw [elo, ehi]
    simp only [add_sub_add_right_eq_sub]
  have em : ∀ k, mins lo' hi' k = mins lo hi k + t k := by
    intro k
    unfold mins
    rw [elo, ehi]
    ring
  have eQ : (P.map (fun p k => p k + t k)).map (normalise lo' hi') = P.map (normalise lo hi) := by
    rw [List.map_map]
    refine List.map_congr_left (fun p _ => ?_)
    funext k
    simp only [Function.comp, normalise]
    rw [es, em]
    congr 1
    ring
  unfold reconstruct
  rw [e1, e2, e1', e2']
  simp only [eQ, Option.map_some, List.map_map, Option.some.injEq, Prod.mk.injEq, and_true]
  refine List.map_congr_left (fun v _ => ?_)
  funext k
  simp only [Function.comp, denormalise]
  rw [es, em]
  ring

/-- **C125** (options).  All depths of 12 and more give the same result, and every boundary type except 'Dirichlet' and 'dirichlet' - also a misspelled one - gives that of 'Neumann'. -/
theorem C125_options : (12 ≤ depth → pointCloudToMesh R method weight depth boundary P N = pointCloudToMesh R method weight 12 boundary P N) ∧
    (boundary ≠ "Dirichlet" → boundary ≠ "dirichlet" → pointCloudToMesh R method weight depth boundary P N = pointCloudToMesh R method weight depth "Neumann" P N) := by
  constructor
  · intro h
    unfold pointCloudToMesh
    rw [min_eq_left h, min_self]
    have : (depth ≤ 0) = ((12 : ℤ) ≤ 0) := by
      rw [eq_iff_iff]
      constructor <;> intro <;> omega
    simp only [this]
  · intro h1 h2
    unfold pointCloudToMesh
    simp [h1, h2]

/-- **C125** (small clouds).  If the coordinates of the points differ by at most `a`, those of the points given to the reconstruction differ by at most `a/4.2e-6`: clouds that are small compared with `1e-6` look
like a single point. -/
theorem C125_small {V : List (Pt d)} {F : List (Fin d → ℤ)} {a : ℝ} (h : pointCloudToMesh R method weight depth boundary P N = some (V, F)) (ha : ∀ p ∈ P, ∀ p' ∈ P, ∀ k, p k - p' k ≤ a) :
    ∃ Q W, R ⟨min 12 depth, weight, boundary = "Dirichlet" ∨ boundary = "dirichlet"⟩ Q N = (W, F) ∧ Q.length = P.length ∧ W.length = V.length ∧
      ∀ q ∈ Q, ∀ q' ∈ Q, ∀ k, q k - q' k ≤ a / (42 / 10 ^ 7) := by
  obtain ⟨hd, lo, hi, e1, e2, hne, rfl, rfl⟩ := unfold_some h
  obtain ⟨lo', e1', l1, l2⟩ := npAmin_spec hne
  obtain ⟨hi', e2', u1, u2⟩ := npAmax_spec hne
  obtain rfl : lo = lo' := Option.some.inj (e1.symm.trans e1')
  obtain rfl : hi = hi' := Option.some.inj (e2.symm.trans e2')
  obtain ⟨m, hm, hmax⟩ := max_spec (fun k => maxs lo hi k - mins lo hi k) hd
  have hs : scale lo hi = 3.2 * (hi m - lo m + 1 / 10 ^ 6) + 1 / 10 ^ 6 := by unfold scale; rw [hm]; exact side lo hi m
  have hlh : lo m ≤ hi m := by
    obtain ⟨p, hp, e⟩ := l2 m
    rw [← e]
    exact u1 p hp m
  have ha0 : 0 ≤ a := by
    obtain ⟨p, hp⟩ := List.exists_mem_of_ne_nil _ hne
    have := ha p hp p hp m
    linarith
  have h0 : 42 / 10 ^ 7 ≤ scale lo hi := by
    rw [hs]
    norm_num
    linarith
  refine ⟨P.map (normalise lo hi), _, rfl, by simp, by simp, ?_⟩
  intro q hq q' hq' k
  rw [List.mem_map] at hq hq'
  obtain ⟨p, hp, rfl⟩ := hq
  obtain ⟨p', hp', rfl⟩ := hq'
  unfold normalise
  rw [← sub_div]
  have h1 := ha p hp p' hp' k
  have hpos : 0 < scale lo hi := lt_of_lt_of_le (by norm_num) h0
  calc (p k - mins lo hi k - (p' k - mins lo hi k)) / scale lo hi ≤ a / scale lo hi := by
        refine (div_le_div_iff_of_pos_right hpos).mpr ?_
        linarith
    _ ≤ a / (42 / 10 ^ 7) := div_le_div_of_nonneg_left ha0 (by norm_num) h0

/-- **C125** (violated: scaling).  Scaling the points does not just scale the result: there are a reconstruction (one that tells apart only points that differ by more than 1/10), two points and a factor such
that the scaled points give other faces. -/
theorem C125_scale_violated : ∃ (R : Recon 2) (P N : List (Pt 2)) (s : ℝ), 0 < s ∧ ∃ V F V' F', pointCloudToMesh R "PSR" 10 10 "Neumann" P N = some (V, F) ∧
    pointCloudToMesh R "PSR" 10 10 "Neumann" (P.map (fun p k => s * p k)) N = some (V', F') ∧ F ≠ [] ∧ F' = [] := by
  classical
  refine ⟨fun _ Q _ => ([], if ∃ q ∈ Q, ∃ q' ∈ Q, ∃ k, 1 / 10 < q k - q' k then [![0, 1]] else []), [![0, 0], ![1, 0]], [![1, 0], ![1, 0]], 1 / 10 ^ 8, by norm_num, ?_⟩
  obtain ⟨⟨V, F⟩, hr⟩ := (returns_iff (R := fun _ Q _ => ([], if ∃ q ∈ Q, ∃ q' ∈ Q, ∃ k, 1 / 10 < q k - q' k then [![0, 1]] else [])) (method := "PSR") (weight := 10) (depth := 10) (boundary := "Neumann")
    (P := [![0, 0], ![1, 0]]) (N := [![1, 0], ![1, 0]])).mpr ⟨by simp, by simp, by simp, rfl, by norm_num, by norm_num⟩
  obtain ⟨⟨V', F'⟩, hr'⟩ := (returns_iff (R := fun _ Q _ => ([], if ∃ q ∈ Q, ∃ q' ∈ Q, ∃ k, 1 / 10 < q k - q' k then [![0, 1]] else [])) (method := "PSR") (weight := 10) (depth := 10) (boundary := "Neumann")
    (P := [![0, 0], ![1, 0]].map (fun p k => (1 / 10 ^ 8 : ℝ) * p k)) (N := [![1, 0], ![1, 0]])).mpr ⟨by simp, by simp, by simp, rfl, by norm_num, by norm_num⟩
  refine ⟨V, F, V', F', hr, hr', ?_, ?_⟩
  · obtain ⟨s, hs, t, Q, hQ, ⟨W, e, -⟩, -, -, hex⟩ := C125_similarity hr
    obtain ⟨q, hq, q', hq', k, hk⟩ := hex ⟨![1, 0], by simp, ![0, 0], by simp, 0, by norm_num⟩
    simp only [Prod.mk.injEq] at e
    rw [← e.2, if_pos ⟨q, hq, q', hq', k, lt_of_lt_of_le (by norm_num) hk⟩]
    simp
  · obtain ⟨Q, W, e, -, -, hsm⟩ := C125_small (a := 1 / 10 ^ 8) hr' (by
      intro p hp p' hp' k
      simp only [List.map_cons, List.map_nil, List.mem_cons, List.not_mem_nil, or_false] at hp hp'
      rcases hp with rfl | rfl <;> rcases hp' with rfl | rfl <;> fin_cases k <;> norm_num)
    simp only [Prod.mk.injEq] at e
    rw [← e.2, if_neg]
    rintro ⟨q, hq, q', hq', k, hk⟩
    have := hsm q hq q' hq' k
    norm_num at this hk
    linarith

/-- there are such calls, for every reconstruction -/
example (R : Recon 3) : ∃ V F, pointCloudToMesh R "PSR" 10 20 "Neumann" [![0, 0, 0], ![1, 2, 3]] [![0, 0, 1], ![1, 0, 0]] = some (V, F) := by
  obtain ⟨r, hr⟩ := (C125_returns (R := R) (P := [![0, 0, 0], ![1, 2, 3]]) (N := [![0, 0, 1], ![1, 0, 0]]) (method := "PSR") (weight := 10) (depth := 20) (boundary := "Neumann")).mpr
    ⟨rfl, by simp, by simp, rfl, by norm_num, by norm_num⟩
  exact ⟨r.1, r.2, hr⟩

end Gpy.PointCloud
