import Verif.Proofs.UpperEnvelope3

/-!
# C99: `upper_envelope`
-/

set_option autoImplicit false
namespace Gpy

variable {m : ℕ}

theorem getD_pos (V : List (UVert m)) (c : ℕ) : (V.map (fun x => x.1)).getD c (fun _ => 0) = uPos V c := by
  simp [uPos, List.getD_eq_getElem?_getD]

theorem signedVol_eq (V : List (UVert m)) (t : UTet) : signedVol (V.map (fun x => x.1)) t = uVol V t := by
  simp only [signedVol, uVol, getD_pos]

theorem totalVol_eq (V : List (UVert m)) (G : List UTet) : totalVol (V.map (fun x => x.1)) G = volSum V G := by
  unfold totalVol volSum
  congr 1
  refine List.map_congr_left (fun t _ => ?_)
  simp only [getD_pos, uVol]
  rw [abs_div, abs_of_pos (by norm_num : (0 : ℝ) < 6)]

/-- Every returned tet but the first has exactly one label, has four different corners, and lies inside one input tet in which the labels, interpolated at any of its points,
are largest for its material up to the threshold. -/
theorem C99_pieces (amax : Pt m → Fin m) (hamax : ∀ (f : Pt m) j, f j ≤ f (amax f)) (V : List (UVert m)) (T : List UTet) (hT : ∀ t ∈ T, t.corners.Nodup)
    (U : List (Pt 3)) (G : List UTet) (L : List (Fin m → Bool)) (h : upperEnvelope amax V T = some (U, G, L)) :
    L.length = G.length ∧ ∀ k t l, 1 ≤ k → G[k]? = some t → L[k]? = some l →
      t.corners.Nodup ∧ ∃ mid : Fin m, (∀ j, l j = true ↔ j = mid) ∧ ∃ t0 ∈ T, ∃ q : Fin 4 → Pt 3, (∀ i, U[t.at i]? = some (q i)) ∧
        ∀ w, Bary w → ∃ lab, PointOf V t0 (bary w q) lab ∧ Wins mid lab := by
  obtain ⟨V', ts, hpre, rfl, rfl, rfl, hts, -, -, -⟩ := upperEnvelope_run hT h
  refine ⟨by simp, ?_⟩
  intro k t l hk ht hl
  obtain ⟨k, rfl⟩ : ∃ j, k = j + 1 := ⟨k - 1, by omega⟩
  have ht := List.getElem?_eq_some_iff.mp ht
  have hl := List.getElem?_eq_some_iff.mp hl
  obtain ⟨hkt, ht⟩ := ht
  obtain ⟨hkl, hl⟩ := hl
  rw [List.getElem_dropLast, List.getElem_cons_succ, List.getElem_map] at ht
  rw [List.getElem_dropLast, List.getElem_cons_succ, List.getElem_map] at hl
  have hkn : k < ts.length := by simp at hkt; omega
  obtain ⟨⟨⟨t0, ht0, hh⟩, -⟩, xs, hxs, hc⟩ := hts ts[k] (List.getElem_mem _)
  rw [ht] at hh hxs
  refine ⟨hh.1, ts[k].2, fun j => by rw [← hl]; simp, t0, ht0, ?_⟩
  have hz : ∀ i, ∃ x, V'[t.at i]? = some x ∧ PointOf V t0 x.1 x.2 ∧ Wins ts[k].2 x.2 := by
    intro i
    obtain ⟨x, hx, hp⟩ := hh.2 _ (uat_mem' t i)
    exact ⟨x, hx, hp, uCarved_wins hamax hc x (cornerRows_mem hxs (uat_mem' t i) hx)⟩
  choose z hz1 hz2 hz3 using hz
  refine ⟨fun i => (z i).1, fun i => by rw [List.getElem?_map, hz1]; rfl, ?_⟩
  intro w hw
  exact ⟨_, pointOf_comb hw hz2, wins_comb hw hz3⟩

/-- The input vertices come first. -/
theorem C99_vertices (amax : Pt m → Fin m) (V : List (UVert m)) (T : List UTet) (hT : ∀ t ∈ T, t.corners.Nodup)
    (U : List (Pt 3)) (G : List UTet) (L : List (Fin m → Bool)) (h : upperEnvelope amax V T = some (U, G, L)) : V.map (fun x => x.1) <+: U := by
  obtain ⟨V', ts, hpre, rfl, -⟩ := upperEnvelope_run hT h
  exact hpre.map _

/-- The returned tets never have more volume than the input tets, and none is inverted if no input tet is. -/
theorem C99_volume (amax : Pt m → Fin m) (V : List (UVert m)) (T : List UTet) (hT : ∀ t ∈ T, t.corners.Nodup)
    (U : List (Pt 3)) (G : List UTet) (L : List (Fin m → Bool)) (h : upperEnvelope amax V T = some (U, G, L)) :
    totalVol U G ≤ totalVol (V.map (fun x => x.1)) T ∧ ((∀ t ∈ T, 0 ≤ signedVol (V.map (fun x => x.1)) t) → ∀ t ∈ G, 0 ≤ signedVol U t) := by
  obtain ⟨V', ts, hpre, rfl, rfl, -, hts, hv, -, -⟩ := upperEnvelope_run hT h
  constructor
  · rw [totalVol_eq, totalVol_eq]
    refine le_trans ?_ hv
    have h1 : volSum V' (UTet.zero :: ts.map Prod.fst) = volSum V' (ts.map Prod.fst) := by simp [volSum, uVol_zero]
    rw [← h1]
    have hne : (UTet.zero :: ts.map Prod.fst) ≠ [] := by simp
    conv_rhs => rw [← List.dropLast_append_getLast hne]
    rw [volSum_append]
    have := volSum_nonneg V' [(UTet.zero :: ts.map Prod.fst).getLast hne]
    linarith
  · intro hpos t ht
    rw [signedVol_eq]
    rcases List.mem_cons.mp (List.mem_of_mem_dropLast ht) with rfl | ht
    · rw [uVol_zero]
    · obtain ⟨p, hp, rfl⟩ := List.mem_map.mp ht
      exact (hts p hp).1.2 (fun t0 ht0 => by rw [← signedVol_eq]; exact hpos t0 ht0)

/-- But the first row is never a tet: whenever anything is returned, row 0 is `[0,0,0,0]` and has no label. -/
theorem C99_first_row_violated (amax : Pt m → Fin m) (V : List (UVert m)) (T : List UTet) (hT : ∀ t ∈ T, t.corners.Nodup)
    (U : List (Pt 3)) (G : List UTet) (L : List (Fin m → Bool)) (h : upperEnvelope amax V T = some (U, G, L)) (hne : G ≠ []) :
    G[0]? = some ⟨0, 0, 0, 0⟩ ∧ L[0]? = some (fun _ => false) := by
  obtain ⟨V', ts, hpre, rfl, rfl, rfl, -⟩ := upperEnvelope_run hT h
  cases ts with
  | nil => exact absurd rfl hne
  | cons p ts => exact ⟨rfl, rfl⟩

/-- With two materials of which the first wins at every vertex up to the threshold, so that no tet has to be cut, the last two tets of the mesh are missing from the
result. -/
theorem C99_lost_tets_violated (amax : Pt 2 → Fin 2) (V : List (UVert 2)) (T : List UTet) (hn : ∀ t ∈ T, t.corners.Nodup) (hin : ∀ t ∈ T, ∀ c ∈ t.corners, c < V.length)
    (h : ∀ x ∈ V, x.2 1 - x.2 0 < 1 / 10 ^ 5) (t1 : UTet) (ht1 : t1 ∈ T) (c c' : ℕ) (hc : c ∈ t1.corners) (hc' : c' ∈ t1.corners) (x x' : UVert 2)
    (hx : V[c]? = some x) (hx' : V[c']? = some x') (hxx : amax x.2 ≠ amax x'.2) (h2 : 2 ≤ T.length) :
    upperEnvelope amax V T = some (V.map (fun x => x.1), ⟨0, 0, 0, 0⟩ :: T.take (T.length - 2), (fun _ => false) :: List.replicate (T.length - 2) (fun j => decide (j = 0))) := by
  rw [upperEnvelope_quiet hn (fun t ht c hc => ⟨_, List.getElem?_eq_getElem (hin t ht c hc)⟩) h ht1 hc hc' hx hx' hxx]
  have e1 : (UTet.zero :: T.take (T.length - 1)).dropLast = ⟨0, 0, 0, 0⟩ :: T.take (T.length - 2) := by
    rw [List.dropLast_eq_take, List.length_cons, List.length_take, show min (T.length - 1) T.length + 1 - 1 = (T.length - 2) + 1 by omega, List.take_succ_cons, List.take_take]
    congr 2; omega
  have e2 : ((fun _ => false) :: List.replicate (T.length - 1) (fun j => decide (j = 0)) : List (Fin 2 → Bool)).dropLast = (fun _ => false) :: List.replicate (T.length - 2) (fun j => decide (j = 0)) := by
    rw [List.dropLast_eq_take, List.length_cons, List.length_replicate, show T.length - 1 + 1 - 1 = (T.length - 2) + 1 by omega, List.take_succ_cons, List.take_replicate]
    congr 2; omega
  rw [e1, e2]

/-- A mesh of one tet that belongs to one material: nothing is returned. -/
theorem C99_single_tet_violated (amax : Pt m → Fin m) (hm : 2 ≤ m) (V : List (UVert m)) (i0 : Fin m) (t : UTet) (hn : t.corners.Nodup)
    (h : ∀ c ∈ t.corners, ∃ x, V[c]? = some x ∧ amax x.2 = i0) : upperEnvelope amax V [t] = some (V.map (fun x => x.1), [], []) :=
  upperEnvelope_single hm hn h

/-- Three or more tets that all belong to the first material: an array is read out of range. -/
theorem C99_out_of_range_violated (amax : Pt (m + 2) → Fin (m + 2)) (V : List (UVert (m + 2))) (T : List UTet) (h3 : 3 ≤ T.length) (hn : ∀ t ∈ T, t.corners.Nodup)
    (h : ∀ t ∈ T, ∀ c ∈ t.corners, ∃ x, V[c]? = some x ∧ amax x.2 = 0) : upperEnvelope amax V T = none :=
  upperEnvelope_stale h3 hn h

/-! ### Instances -/

/-- An `amax` for two materials. -/
noncomputable def amax2 (f : Pt 2) : Fin 2 := open Classical in if f 1 ≤ f 0 then 0 else 1

example : ∀ (f : Pt 2) j, f j ≤ f (amax2 f) := by
  intro f j
  unfold amax2
  split_ifs with h
  · fin_cases j
    · exact le_refl _
    · exact h
  · push Not at h
    fin_cases j
    · exact h.le
    · exact le_refl _

/-- Five vertices, three tets; one vertex slightly prefers material 1. -/
noncomputable def ueV : List (UVert 2) :=
  [(![0, 0, 0], ![1, 0]), (![1, 0, 0], ![1, 0]), (![0, 1, 0], ![1, 0]), (![0, 0, 1], ![0, 1 / 10 ^ 6]), (![1, 1, 1], ![1, 0])]

/-- Three tets around vertex 3. -/
def ueT : List UTet := [⟨0, 1, 2, 3⟩, ⟨1, 2, 3, 4⟩, ⟨0, 1, 3, 4⟩]

/-- The hypotheses are met, and a proper tet (row 1) is returned. -/
example : upperEnvelope amax2 ueV ueT = some (ueV.map (fun x => x.1), [⟨0, 0, 0, 0⟩, ⟨0, 1, 2, 3⟩], [fun _ => false, fun j => decide (j = 0)]) :=
  C99_lost_tets_violated amax2 ueV ueT (by decide) (by decide) (by
    intro x hx
    simp only [ueV, List.mem_cons, List.not_mem_nil, or_false] at hx
    rcases hx with rfl | rfl | rfl | rfl | rfl <;> norm_num) ⟨0, 1, 2, 3⟩ (by decide) 0 3 (by decide) (by decide) _ _ rfl rfl (by
      simp only [amax2]
      norm_num) (by decide)

/-- One tet of material 0, as in the hypotheses of the second failure. -/
example : upperEnvelope amax2 ([(![0, 0, 0], ![1, 0]), (![1, 0, 0], ![1, 0]), (![0, 1, 0], ![1, 0]), (![0, 0, 1], ![1, 0])] : List (UVert 2)) [⟨0, 1, 2, 3⟩] =
    some ([![0, 0, 0], ![1, 0, 0], ![0, 1, 0], ![0, 0, 1]], [], []) :=
  C99_single_tet_violated amax2 (le_refl _) _ 0 ⟨0, 1, 2, 3⟩ (by decide) (by
    intro c hc
    simp only [UTet.corners, List.mem_cons, List.not_mem_nil, or_false] at hc
    rcases hc with rfl | rfl | rfl | rfl <;> exact ⟨_, rfl, by simp [amax2]⟩)

end Gpy
