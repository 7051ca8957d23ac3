import Verif.Model.SampleSdf
import Mathlib.Tactic.Linarith
import Mathlib.Data.List.MinMax
import Mathlib.Data.List.Nodup
import Mathlib.Data.List.Range
import Mathlib.Data.Fin.VecNotation

/-!
# C113: choosing new samples
-/

set_option autoImplicit false
namespace Gpy.SampleSdf
open Classical

variable {d : ℕ}

/-- `order` sorts: `np.argsort` -/
def Sorts (order : List ℝ → List ℕ) : Prop := ∀ l, (order l).Perm (List.range l.length) ∧ (order l).Pairwise (fun i j => l.getD i 0 ≤ l.getD j 0)

/-- The value that guides the choice is negative exactly outside all spheres around the samples (with their distances as radii); there its negative is the least power (squared distance to the
centre minus squared radius) with respect to the spheres.  It is never positive. -/
theorem C113_vdf (sdf : Pt d → ℝ) (U : List (Pt d)) (hU : U ≠ []) (x : Pt d) :
    ∃ v, vdf sdf U x = some v ∧ v ≤ 0 ∧ (v = 0 ↔ ∃ u ∈ U, psq (x - u) ≤ sdf u ^ 2) ∧ (v < 0 → (∀ u ∈ U, -v ≤ psq (x - u) - sdf u ^ 2) ∧ ∃ u ∈ U, -v = psq (x - u) - sdf u ^ 2) := by
  cases hm : (U.map (fun u => sdf u ^ 2 - psq (x - u))).max? with
  | none =>
    rw [List.max?_eq_none_iff, List.map_eq_nil_iff] at hm
    exact absurd hm hU
  | some w =>
    rw [List.max?_eq_some_iff] at hm
    obtain ⟨h1, h2⟩ := hm
    obtain ⟨u0, hu0, e0⟩ := List.mem_map.mp h1
    have h3 : ∀ u ∈ U, sdf u ^ 2 - psq (x - u) ≤ w := fun u hu => h2 _ (List.mem_map.mpr ⟨u, hu, rfl⟩)
    refine ⟨min w 0, ?_, min_le_right _ _, ⟨?_, ?_⟩, fun hv => ?_⟩
    · unfold vdf
      rw [show (U.map (fun u => sdf u ^ 2 - psq (x - u))).max? = some w from List.max?_eq_some_iff.mpr ⟨h1, h2⟩]
      rfl
    · intro h
      have : 0 ≤ w := by
        by_contra hw
        rw [min_eq_left (by linarith)] at h
        linarith
      exact ⟨u0, hu0, by linarith⟩
    · rintro ⟨u, hu, h⟩
      exact min_eq_right (by linarith [h3 u hu])
    · have hw : w < 0 := by
        by_contra hw
        rw [min_eq_right (by linarith)] at hv
        linarith
      rw [min_eq_left hw.le]
      exact ⟨fun u hu => by linarith [h3 u hu], u0, hu0, by linarith⟩

/-! ### The worst trial point of each face -/

/-- what holds of the dictionary after the first `n` trial points -/
structure WInv (I : List ℕ) (val : ℕ → ℝ) (n : ℕ) (m : List (ℕ × ℕ)) : Prop where
  nodup : (m.map (·.1)).Nodup
  keys : ∀ f, f ∈ m.map (·.1) ↔ ∃ j < n, I.getD j 0 = f
  idx : ∀ p ∈ m, p.2 < n ∧ I.getD p.2 0 = p.1 ∧ ∀ j < n, I.getD j 0 = p.1 → val p.2 ≤ val j

theorem worst_step (I : List ℕ) (val : ℕ → ℝ) (n : ℕ) (m : List (ℕ × ℕ)) (h : WInv I val n m) : WInv I val (n + 1) (worstStep I val m n) := by
  unfold worstStep
  cases hf : m.find? (fun p => p.1 == I.getD n 0) with
  | none =>
    have hno : ∀ p ∈ m, p.1 ≠ I.getD n 0 := by
      intro p hp
      have := List.find?_eq_none.mp hf p hp
      simpa using this
    have hany : m.any (fun p => p.1 == I.getD n 0) = false := by
      rw [List.any_eq_false]
      intro p hp
      simpa using hno p hp
    dsimp only
    unfold dictSet
    rw [hany]
    simp only [Bool.false_eq_true, if_false]
    refine ⟨?_, ?_, ?_⟩
    · rw [List.map_append, List.nodup_append]
      refine ⟨h.nodup, by simp, ?_⟩
      intro a ha b hb
      obtain ⟨p, hp, rfl⟩ := List.mem_map.mp ha
      simp only [List.map_cons, List.map_nil, List.mem_singleton] at hb
      rw [hb]
      exact hno p hp
    · intro f
      rw [List.map_append, List.mem_append, h.keys]
      simp only [List.map_cons, List.map_nil, List.mem_singleton]
      constructor
      · rintro (⟨j, hj, e⟩ | rfl)
        · exact ⟨j, by omega, e⟩
        · exact ⟨n, by omega, rfl⟩
      · rintro ⟨j, hj, e⟩
        rcases Nat.lt_succ_iff_lt_or_eq.mp hj with hj | rfl
        · exact Or.inl ⟨j, hj, e⟩
        · exact Or.inr e.symm
    · intro p hp
      rcases List.mem_append.mp hp with hp' | hp
      · obtain ⟨h1, h2, h3⟩ := h.idx p hp'
        refine ⟨by omega, h2, fun j hj e => ?_⟩
        rcases Nat.lt_succ_iff_lt_or_eq.mp hj with hj | rfl
        · exact h3 j hj e
        · exact absurd e.symm (hno p hp')
      · rw [List.mem_singleton] at hp
        subst hp
        refine ⟨by simp, rfl, fun j hj e => ?_⟩
        rcases Nat.lt_succ_iff_lt_or_eq.mp hj with hj | rfl
        · have : I.getD n 0 ∈ m.map (·.1) := (h.keys _).mpr ⟨j, hj, e⟩
          obtain ⟨p, hp, e'⟩ := List.mem_map.mp this
          exact absurd e' (hno p hp)
        · exact le_rfl
  | some p =>
    have hpm := List.mem_of_find?_eq_some hf
    have hpk : p.1 = I.getD n 0 := by simpa using List.find?_some hf
    obtain ⟨p1, p2, p3⟩ := h.idx p hpm
    have huniq : ∀ q ∈ m, q.1 = p.1 → q = p := fun q hq e => List.inj_on_of_nodup_map h.nodup hq hpm e
    have hkeys : ∀ f, (∃ j < n + 1, I.getD j 0 = f) ↔ ∃ j < n, I.getD j 0 = f := by
      intro f
      constructor
      · rintro ⟨j, hj, e⟩
        rcases Nat.lt_succ_iff_lt_or_eq.mp hj with hj | rfl
        · exact ⟨j, hj, e⟩
        · exact ⟨p.2, p1, by rw [p2, hpk, e]⟩
      · rintro ⟨j, hj, e⟩
        exact ⟨j, by omega, e⟩
    dsimp only
    split
    · rename_i hlt
      have hany : m.any (fun p => p.1 == I.getD n 0) = true := by
        rw [List.any_eq_true]
        exact ⟨p, hpm, by simp [hpk]⟩
      unfold dictSet
      rw [if_pos hany]
      have hmap : (m.map (fun p => if p.1 = I.getD n 0 then (I.getD n 0, n) else p)).map (·.1) = m.map (·.1) := by
        rw [List.map_map]
        refine List.map_congr_left (fun q _ => ?_)
        simp only [Function.comp]
        split
        · rename_i e; exact e.symm
        · rfl
      refine ⟨by rw [hmap]; exact h.nodup, fun f => by rw [hmap, h.keys, hkeys], fun q hq => ?_⟩
      obtain ⟨r, hr, rfl⟩ := List.mem_map.mp hq
      split
      · rename_i e
        refine ⟨by simp, rfl, fun j hj e' => ?_⟩
        rcases Nat.lt_succ_iff_lt_or_eq.mp hj with hj | rfl
        · exact hlt.le.trans (p3 j hj (by rw [e', hpk]))
        · exact le_rfl
      · rename_i e
        obtain ⟨r1, r2, r3⟩ := h.idx r hr
        refine ⟨by omega, r2, fun j hj e' => ?_⟩
        rcases Nat.lt_succ_iff_lt_or_eq.mp hj with hj | rfl
        · exact r3 j hj e'
        · exact absurd e'.symm e
    · rename_i hge
      refine ⟨h.nodup, fun f => by rw [h.keys, hkeys], fun q hq => ?_⟩
      obtain ⟨q1, q2, q3⟩ := h.idx q hq
      refine ⟨by omega, q2, fun j hj e' => ?_⟩
      rcases Nat.lt_succ_iff_lt_or_eq.mp hj with hj | rfl
      · exact q3 j hj e'
      · rw [huniq q hq (e'.symm.trans hpk.symm)]
        exact not_lt.mp hge

theorem worst_inv (I : List ℕ) (val : ℕ → ℝ) : WInv I val I.length (worst I val) := by
  unfold worst
  have key : ∀ n, WInv I val n ((List.range n).foldl (worstStep I val) []) := by
    intro n
    induction n with
    | zero => exact ⟨by simp, by simp, by simp⟩
    | succ n ih =>
      rw [List.range_succ, List.foldl_append]
      exact worst_step I val n _ ih
  exact key I.length

/-- The new samples: they come after the old ones; there are at most `new_n` of them, and fewer only if fewer faces were hit; no two are on the same face; each is the worst trial point of its
face; and no trial point on a face without new sample is worse than a chosen one. -/
theorem C113_new (order : List ℝ → List ℕ) (ho : Sorts order) (val : ℕ → ℝ) (U0 P : List (Pt d)) (I : List ℕ) (hI : I.length = P.length) (newN : ℕ) :
    ∃ chosen : List ℕ, extend order val U0 P I newN = U0 ++ chosen.map (fun i => P.getD i 0) ∧ (∀ c ∈ chosen, c < P.length) ∧ chosen.length = min newN I.dedup.length ∧
      (chosen.map (fun c => I.getD c 0)).Nodup ∧ (∀ c ∈ chosen, ∀ j < P.length, I.getD j 0 = I.getD c 0 → val c ≤ val j) ∧
      (∀ c ∈ chosen, ∀ j < P.length, I.getD j 0 ∉ chosen.map (fun c => I.getD c 0) → val c ≤ val j) := by
  have hw := worst_inv I val
  generalize hm : worst I val = m at hw
  set w := m.map (·.2) with hwd
  obtain ⟨hperm, hsort⟩ := ho (w.map val)
  rw [List.length_map] at hperm
  set o := order (w.map val) with hod
  have hol : ∀ k ∈ o, k < w.length := fun k hk => by
    have := hperm.mem_iff.mp hk
    rwa [List.mem_range] at this
  have honod : o.Nodup := hperm.nodup_iff.mpr List.nodup_range
  have hwget : ∀ k (hk : k < w.length), w.getD k 0 = w[k] := fun k hk => by rw [List.getD_eq_getElem?_getD, List.getElem?_eq_getElem hk]; rfl
  have hval : ∀ k, k < w.length → (w.map val).getD k 0 = val (w.getD k 0) := by
    intro k hk
    rw [hwget k hk]
    clear_value w
    rw [List.getD_eq_getElem?_getD, List.getElem?_map, List.getElem?_eq_getElem hk]; rfl
  have hwi : ∀ k (hk : k < w.length), w.getD k 0 < I.length ∧ (∃ hk' : k < m.length, I.getD (w.getD k 0) 0 = m[k].1) ∧ ∀ j < I.length, I.getD j 0 = I.getD (w.getD k 0) 0 → val (w.getD k 0) ≤ val j := by
    intro k hk
    have hk' : k < m.length := by rwa [hwd, List.length_map] at hk
    have e : w.getD k 0 = m[k].2 := by rw [hwget k hk]; simp [hwd]
    obtain ⟨h1, h2, h3⟩ := hw.idx m[k] (List.getElem_mem hk')
    rw [e]
    exact ⟨h1, ⟨hk', h2⟩, fun j hj e' => h3 j hj (e'.trans h2)⟩
  have hface : ∀ k (hk : k < w.length), ∀ k' (hk' : k' < w.length), I.getD (w.getD k 0) 0 = I.getD (w.getD k' 0) 0 → k = k' := by
    intro k hk k' hk' e
    obtain ⟨-, ⟨g1, e1⟩, -⟩ := hwi k hk
    obtain ⟨-, ⟨g2, e2⟩, -⟩ := hwi k' hk'
    rw [e1, e2] at e
    have := (hw.nodup.getElem_inj_iff (i := k) (j := k') (hi := by rwa [List.length_map]) (hj := by rwa [List.length_map])).mp (by simpa using e)
    exact this
  have hcount : w.length = I.dedup.length := by
    rw [hwd, List.length_map, ← List.length_map (f := (·.1)) (as := m)]
    refine List.Perm.length_eq ((List.perm_ext_iff_of_nodup hw.nodup (List.nodup_dedup I)).mpr (fun f => ?_))
    rw [hw.keys, List.mem_dedup, List.mem_iff_getElem]
    constructor
    · rintro ⟨j, hj, e⟩
      exact ⟨j, hj, by rw [← e, List.getD_eq_getElem?_getD, List.getElem?_eq_getElem hj]; rfl⟩
    · rintro ⟨j, hj, e⟩
      exact ⟨j, hj, by rw [← e, List.getD_eq_getElem?_getD, List.getElem?_eq_getElem hj]; rfl⟩
  have htk : ∀ k ∈ o.take newN, k < w.length := fun k hk => hol k (List.mem_of_mem_take hk)
  refine ⟨(o.take newN).map (fun k => w.getD k 0), ?_, ?_, ?_, ?_, ?_, ?_⟩
  · unfold extend
    dsimp only
    rw [hm]
    conv_rhs => rw [List.map_map]
    rfl
  · intro c hc
    obtain ⟨k, hk, rfl⟩ := List.mem_map.mp hc
    rw [← hI]
    exact (hwi k (htk k hk)).1
  · rw [List.length_map, List.length_take, hperm.length_eq, List.length_range, hcount]
  · rw [List.map_map]
    refine (List.nodup_map_iff_inj_on (honod.sublist (List.take_sublist _ _))).mpr (fun k hk k' hk' e => hface k (htk k hk) k' (htk k' hk') e)
  · intro c hc j hj e
    obtain ⟨k, hk, rfl⟩ := List.mem_map.mp hc
    exact (hwi k (htk k hk)).2.2 j (by omega) e
  · intro c hc j hj hno
    obtain ⟨k, hk, rfl⟩ := List.mem_map.mp hc
    -- the face of `j` has a worst point, at a later place of the order
    have hjf : I.getD j 0 ∈ m.map (·.1) := (hw.keys _).mpr ⟨j, by omega, rfl⟩
    obtain ⟨q, hq, hq1⟩ := List.mem_map.mp hjf
    obtain ⟨k', hk', rfl⟩ := List.mem_iff_getElem.mp hq
    have hk'w : k' < w.length := by rw [hwd, List.length_map]; exact hk'
    obtain ⟨-, ⟨g1, e1⟩, h3⟩ := hwi k' hk'w
    have hle := h3 j (by omega) (by rw [e1, hq1])
    have hk'o : k' ∈ o := hperm.mem_iff.mpr (List.mem_range.mpr hk'w)
    have hk'd : k' ∈ o.drop newN := by
      rw [← List.take_append_drop newN o, List.mem_append] at hk'o
      refine hk'o.resolve_left (fun h => hno ?_)
      rw [List.map_map]
      exact List.mem_map.mpr ⟨k', h, by simp only [Function.comp]; rw [e1, hq1]⟩
    have hs := hsort
    rw [← List.take_append_drop newN o, List.pairwise_append] at hs
    have h4 := hs.2.2 k hk k' hk'd
    rw [hval k (htk k hk), hval k' hk'w] at h4
    exact h4.trans hle

/-! ### The limit on the number of samples -/

variable (order : List ℝ → List ℕ) (ho : Sorts order) (sdf : Pt d → ℝ) (U0 P : List (Pt d)) (I : List ℕ) (newN maxN : ℕ)

/-- Never more than `max_n` samples; all old samples are there, in order, when there is room for the new ones, and without removal always. -/
theorem C113_limit (remove : Bool) (keep : Option (List ℕ)) (U : List (Pt d)) (h : sampleSdf order sdf U0 P I newN maxN remove keep = some U) :
    U.length ≤ maxN ∧ (remove = false ∨ (extend order (fun i => (vdf sdf U0 (P.getD i 0)).getD 0) U0 P I newN).length ≤ maxN → U0 <+: U) := by
  unfold sampleSdf at h
  split at h
  · simp at h
  rename_i hno
  split at h
  · simp at h
  dsimp only at h
  split at h
  · rename_i hle
    obtain rfl := Option.some.inj h
    exact ⟨hle, fun _ => ⟨_, rfl⟩⟩
  · rename_i hgt
    split at h
    · rename_i hr
      obtain rfl := Option.some.inj h
      refine ⟨by rw [List.length_map, List.length_take]; omega, ?_⟩
      rintro (h | h)
      · rw [hr] at h; simp at h
      · exact absurd h hgt
    · rename_i hr
      have hr' : remove = false := by simpa using hr
      obtain rfl := Option.some.inj h
      refine ⟨by rw [List.length_take]; omega, fun _ => ?_⟩
      have hlen : U0.length ≤ maxN := by
        by_contra hc
        exact hno ⟨hr', by omega⟩
      have hp : U0 <+: extend order (fun i => (vdf sdf U0 (P.getD i 0)).getD 0) U0 P I newN := ⟨_, rfl⟩
      exact List.prefix_take_iff.mpr ⟨hp, hlen⟩

/-- Removal: of the samples before removal (numbered), exactly `max_n` stay, each once; no sample that stays, and is not protected, is farther from the surface than one that goes; and a protected sample goes only if
`max_n` samples or more are protected or at distance zero. -/
theorem C113_removal (ho : Sorts order) (keep : List ℕ) (U : List (Pt d)) (h : sampleSdf order sdf U0 P I newN maxN true (some keep) = some U) (W : List (Pt d))
    (hW : W = extend order (fun i => (vdf sdf U0 (P.getD i 0)).getD 0) U0 P I newN) (hlong : maxN < W.length) :
    ∃ stay : List ℕ, U = stay.map (fun i => W.getD i 0) ∧ stay.Nodup ∧ stay.length = maxN ∧ (∀ i ∈ stay, i < W.length) ∧
      (∀ i ∈ stay, ∀ j < W.length, j ∉ stay → i ∉ keep → |sdf (W.getD i 0)| ≤ |sdf (W.getD j 0)|) ∧
      (∀ j ∈ keep, j < W.length → j ∉ stay → ∀ i ∈ stay, i ∈ keep ∨ sdf (W.getD i 0) = 0) := by
  unfold sampleSdf at h
  split at h
  · simp at h
  split at h
  · simp at h
  dsimp only at h
  rw [← hW, if_neg (by omega), if_pos rfl] at h
  obtain rfl := Option.some.inj h
  obtain ⟨hperm, hsort⟩ := ho (sortValues sdf (some keep) W)
  set o := order (sortValues sdf (some keep) W) with hod
  have hsl : (sortValues sdf (some keep) W).length = W.length := by unfold sortValues; simp
  rw [hsl] at hperm
  have hval : ∀ i < W.length, (sortValues sdf (some keep) W).getD i 0 = if i ∈ keep then 0 else |sdf (W.getD i 0)| := by
    intro i hi
    unfold sortValues
    rw [List.getD_eq_getElem?_getD, List.getElem?_map, List.getElem?_eq_getElem (by simpa using hi), List.getElem_range]
    simp
  have hmem : ∀ i ∈ o, i < W.length := fun i hi => by
    have := hperm.mem_iff.mp hi
    rwa [List.mem_range] at this
  have hsep : ∀ i ∈ o.take maxN, ∀ j < W.length, j ∉ o.take maxN → (sortValues sdf (some keep) W).getD i 0 ≤ (sortValues sdf (some keep) W).getD j 0 := by
    intro i hi j hj hjn
    have hjo : j ∈ o := hperm.mem_iff.mpr (List.mem_range.mpr hj)
    rw [← List.take_append_drop maxN o, List.mem_append] at hjo
    have hs := hsort
    rw [← List.take_append_drop maxN o, List.pairwise_append] at hs
    exact hs.2.2 i hi j (hjo.resolve_left hjn)
  refine ⟨o.take maxN, rfl, (hperm.nodup_iff.mpr List.nodup_range).sublist (List.take_sublist _ _), ?_, fun i hi => hmem i (List.mem_of_mem_take hi), ?_, ?_⟩
  · rw [List.length_take, hperm.length_eq, List.length_range]; omega
  · intro i hi j hj hjn hik
    have := hsep i hi j hj hjn
    rw [hval i (hmem i (List.mem_of_mem_take hi)), hval j hj, if_neg hik] at this
    split at this
    · exact this.trans (abs_nonneg _)
    · exact this
  · intro j hj hjl hjn i hi
    have := hsep i hi j hjl hjn
    rw [hval i (hmem i (List.mem_of_mem_take hi)), hval j hjl, if_pos hj] at this
    by_cases hik : i ∈ keep
    · exact Or.inl hik
    · rw [if_neg hik] at this
      exact Or.inr (abs_nonpos_iff.mp this)

/-- As called from `reach_for_the_spheres`, where all present samples are protected and there is room for them: they all stay, unless as many samples as there is room for are protected or on the surface. -/
theorem C113_old_stay (ho : Sorts order) (U : List (Pt d)) (h : sampleSdf order sdf U0 P I newN maxN true (some (List.range U0.length)) = some U) (hroom : U0.length ≤ maxN)
    (hzero : ∀ p ∈ P, sdf p ≠ 0) (hI : I.length = P.length) : ∀ u ∈ U0, u ∈ U := by
  intro u hu
  by_cases hlong : (extend order (fun i => (vdf sdf U0 (P.getD i 0)).getD 0) U0 P I newN).length ≤ maxN
  · obtain ⟨l, hl⟩ := (C113_limit order sdf U0 P I newN maxN true _ U h).2 (Or.inr hlong)
    rw [← hl]; exact List.mem_append_left _ hu
  · obtain ⟨stay, e, hnd, hlen, hlt, -, hk⟩ := C113_removal order sdf U0 P I newN maxN ho _ U h _ rfl (not_le.mp hlong)
    obtain ⟨chosen, hext, hc, -⟩ := C113_new order ho (fun i => (vdf sdf U0 (P.getD i 0)).getD 0) U0 P I hI newN
    set W := extend order (fun i => (vdf sdf U0 (P.getD i 0)).getD 0) U0 P I newN with hW
    obtain ⟨j, hj, rfl⟩ := List.mem_iff_getElem.mp hu
    have hWj : ∀ i (hi : i < U0.length), W.getD i 0 = U0[i] := by
      intro i hi
      rw [hext, List.getD_eq_getElem?_getD, List.getElem?_append_left hi, List.getElem?_eq_getElem hi]; rfl
    have hjW : j < W.length := by rw [hext, List.length_append]; omega
    by_cases hjs : j ∈ stay
    · rw [e]
      exact List.mem_map.mpr ⟨j, hjs, hWj j hj⟩
    · exfalso
      have h1 := hk j (List.mem_range.mpr hj) hjW hjs
      have h2 : ∀ i ∈ stay, i < U0.length := by
        intro i hi
        rcases h1 i hi with h | h
        · exact List.mem_range.mp h
        · by_contra hge
          have hiW := hlt i hi
          rw [hext, List.length_append, List.length_map] at hiW
          rw [hext, List.getD_eq_getElem?_getD, List.getElem?_append_right (by omega), List.getElem?_map, List.getElem?_eq_getElem (by omega)] at h
          simp only [Option.map_some, Option.getD_some] at h
          have hcl := hc _ (List.getElem_mem (by omega : i - U0.length < chosen.length))
          rw [List.getD_eq_getElem?_getD, List.getElem?_eq_getElem hcl] at h
          exact hzero _ (List.getElem_mem hcl) h
      -- `stay` and `j` are below the number of old samples, without repetition
      have h3 : (j :: stay).Nodup := List.nodup_cons.mpr ⟨hjs, hnd⟩
      have h4 : (j :: stay) ⊆ List.range U0.length := by
        intro i hi
        rcases List.mem_cons.mp hi with rfl | hi
        · exact List.mem_range.mpr hj
        · exact List.mem_range.mpr (h2 i hi)
      have h5 := (List.subperm_of_subset h3 h4).length_le
      simp only [List.length_cons, List.length_range] at h5
      omega

/-- Without samples and without permission to remove any (as `reach_for_the_spheres` calls it when the caller gives a function but no samples) an exception is raised, although the code below has a case for it. -/
theorem C113_no_samples_violated (start : List (Pt d)) (keep : Option (List ℕ)) : sampleSdf' order sdf none start P I newN maxN false keep = none := rfl

/-- the hypotheses can be met: one sample at the origin of the plane with distance one, three trial points on two faces; the trial point far away is the first one chosen -/
example : ∃ order, Sorts order ∧ ∃ U, sampleSdf order (fun _ => 1) [(![0, 0] : Pt 2)] [![2, 0], ![3, 0], ![0, 5]] [0, 0, 1] 1 10 true (some [0]) = some U ∧ [(![0, 0] : Pt 2)] <+: U := by
  have ho : Sorts (fun l => (List.range l.length).insertionSort (fun i j => l.getD i 0 ≤ l.getD j 0)) := by
    intro l
    refine ⟨List.perm_insertionSort _ _, ?_⟩
    haveI : Std.Total (fun i j : ℕ => l.getD i 0 ≤ l.getD j 0) := ⟨fun i j => le_total _ _⟩
    haveI : IsTrans ℕ (fun i j : ℕ => l.getD i 0 ≤ l.getD j 0) := ⟨fun i j k => le_trans⟩
    exact List.pairwise_insertionSort _ _
  refine ⟨_, ho, ?_⟩
  obtain ⟨chosen, hext, -, hl, -⟩ := C113_new _ ho (fun i => (vdf (fun _ => 1) [(![0, 0] : Pt 2)] (([![2, 0], ![3, 0], ![0, 5]] : List (Pt 2)).getD i 0)).getD 0) [(![0, 0] : Pt 2)] [![2, 0], ![3, 0], ![0, 5]] [0, 0, 1] rfl 1
  have hle : (chosen.length : ℕ) ≤ 1 := by rw [hl]; exact Nat.min_le_left _ _
  refine ⟨_, ?_, ⟨_, hext.symm⟩⟩
  unfold sampleSdf
  rw [if_neg (by simp), if_neg (by simp)]
  dsimp only
  rw [if_pos]
  rw [hext, List.length_append, List.length_map]
  simp
  omega

end Gpy.SampleSdf
