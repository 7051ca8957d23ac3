import Verif.Model.Raster
import Verif.Proofs.SquaredDistance
import Mathlib.Algebra.BigOperators.Fin
import Mathlib.Algebra.Order.Floor.Semiring

/-!
# Rasterising spheres: proofs
-/

set_option autoImplicit false
namespace Gpy.Raster
open Classical

variable {d : ℕ}

/-! ## loops and arrays -/

theorem mem_nested (d : ℕ) (L : Fin d → List ℕ) (c : Fin d → ℕ) : c ∈ nested d L ↔ ∀ j, c j ∈ L j := by
  induction d with
  | zero => simp [nested]; exact Subsingleton.elim _ _
  | succ d ih =>
    rw [nested]
    constructor
    · intro h
      obtain ⟨z, hz, h⟩ := List.mem_flatMap.mp h
      obtain ⟨c', hc', rfl⟩ := List.mem_map.mp h
      intro j
      refine Fin.lastCases ?_ (fun j => ?_) j
      · rw [Fin.snoc_last]; exact hz
      · rw [Fin.snoc_castSucc]; exact (ih _ c').mp hc' j
    · intro h
      refine List.mem_flatMap.mpr ⟨c (Fin.last d), h _, List.mem_map.mpr ⟨fun j => c j.castSucc, (ih _ _).mpr (fun j => h _), ?_⟩⟩
      funext j
      refine Fin.lastCases ?_ (fun j => ?_) j
      · rw [Fin.snoc_last]
      · rw [Fin.snoc_castSucc]

theorem nodup_nested (d : ℕ) (L : Fin d → List ℕ) (h : ∀ j, (L j).Nodup) : (nested d L).Nodup := by
  induction d with
  | zero => simp [nested]
  | succ d ih =>
    rw [nested, List.nodup_flatMap]
    constructor
    · intro z _
      refine List.Nodup.map ?_ (ih _ (fun j => h _))
      intro a b hab
      have := congrArg (fun f : Fin (d + 1) → ℕ => fun j : Fin d => f j.castSucc) hab
      funext j
      have := congrFun this j
      simpa using this
    · refine (h (Fin.last d)).imp ?_
      intro a b hab x hx hy
      obtain ⟨c, _, rfl⟩ := List.mem_map.mp hx
      obtain ⟨c', _, e⟩ := List.mem_map.mp hy
      apply hab
      have := congrFun e (Fin.last d)
      simpa using this.symm

theorem mem_cells (lo hi c : Fin d → ℕ) : c ∈ cells lo hi ↔ ∀ j, lo j ≤ c j ∧ c j < hi j := by
  unfold cells
  rw [mem_nested]
  refine forall_congr' (fun j => ?_)
  rw [List.mem_range'_1]
  omega

theorem nodup_cells (lo hi : Fin d → ℕ) : (cells lo hi).Nodup := nodup_nested d _ (fun _ => List.nodup_range')

theorem emb_inj (n : ℕ) (c c' : Fin d → ℕ) (h : ∀ j, c j < n) (h' : ∀ j, c' j < n) (e : emb n c = emb n c') : c = c' := by
  have := finFunctionFinEquiv (m := n) (n := d) |>.injective (a₁ := fun j => ⟨c j, h j⟩) (a₂ := fun j => ⟨c' j, h' j⟩) (by
    apply Fin.ext
    rw [finFunctionFinEquiv_apply, finFunctionFinEquiv_apply]
    exact e)
  funext j
  exact Fin.mk.inj_iff.mp (congrFun this j)

theorem fold_update {α β : Type} (key : α → ℕ) (f : α → β) (L : List α) (a0 : ℕ → β) (x : α) (hx : x ∈ L) (hinj : ∀ y ∈ L, key y = key x → y = x) :
    L.foldl (fun a y => Function.update a (key y) (f y)) a0 (key x) = f x := by
  induction L using List.reverseRecOn with
  | nil => simp at hx
  | append_singleton L y ih =>
    rw [List.foldl_append, List.foldl_cons, List.foldl_nil]
    by_cases hy : key x = key y
    · have : y = x := hinj y (by simp) hy.symm
      rw [hy, Function.update_self, this]
    · rw [Function.update_of_ne hy]
      refine ih ?_ (fun z hz => hinj z (by simp [hz]))
      rcases List.mem_append.mp hx with h | h
      · exact h
      · rw [List.mem_singleton.mp h] at hy; exact absurd rfl hy

theorem gridPts_spec (n : ℕ) (lo hi : Fin d → ℕ) (hhi : ∀ j, hi j ≤ n) (rnd : ℕ → ℝ) (junk : ℕ → Pt d) (c : Fin d → ℕ) (k : ℕ) (hk : (cells lo hi)[k]? = some c) :
    gridPts n lo hi rnd junk (emb n c) = fun j => (c j + rnd (k * d + j)) / n := by
  unfold gridPts
  have hlt : ∀ c ∈ cells lo hi, ∀ j, c j < n := fun c hc j => lt_of_lt_of_le ((mem_cells lo hi c).mp hc j).2 (hhi j)
  refine fold_update (fun x : (Fin d → ℕ) × ℕ => emb n x.1) (fun x => fun j => ((x.1 j : ℝ) + rnd (x.2 * d + j)) / n) (cells lo hi).zipIdx junk (c, k) (List.mem_zipIdx_iff_getElem?.mpr hk) ?_
  rintro ⟨c', k'⟩ hm he
  have hk' := List.mem_zipIdx_iff_getElem?.mp hm
  have e : c' = c := emb_inj n c' c (hlt c' (List.mem_of_getElem? hk')) (hlt c (List.mem_of_getElem? hk)) he
  subst e
  dsimp only at hk'
  have hl := (List.getElem?_eq_some_iff.mp hk).1
  have hkk : k = k' := (List.getElem?_inj hl (nodup_cells lo hi)).mp (hk.trans hk'.symm)
  rw [hkk]

/-! ## rasterising -/

theorem rasterize_spec (n : ℕ) (pts : ℕ → Pt d) (p : Pt d) (s : ℝ) (g : ℕ → Bool) (k : ℕ) :
    rasterize n pts p s g k = true ↔ g k = true ∨ ∃ c ∈ cells (boxLo n p s) (boxHi n p s), emb n c = k ∧ InSphere n pts c p s := by
  unfold rasterize
  generalize cells (boxLo n p s) (boxHi n p s) = L
  induction L generalizing g with
  | nil => simp
  | cons c L ih =>
    rw [List.foldl_cons, ih]
    by_cases h : InSphere n pts c p s
    · rw [if_pos h]
      by_cases hk : emb n c = k
      · have : (if g (emb n c) = false then Function.update g (emb n c) true else g) k = true := by
          split
          · rw [hk]; exact Function.update_self ..
          · rename_i hg; rw [← hk]; simpa using hg
        rw [this]
        simp only [true_or, true_iff]
        exact Or.inr ⟨c, by simp, hk, h⟩
      · have : (if g (emb n c) = false then Function.update g (emb n c) true else g) k = g k := by
          split
          · exact Function.update_of_ne (fun e => hk e.symm) _ _
          · rfl
        rw [this]
        simp [hk]
    · rw [if_neg h]
      simp [h]

theorem thread_spec (n : ℕ) (U : ℕ → Pt d) (r : ℕ → ℝ) (pts : ℕ → Pt d) (l : List ℕ) (g : ℕ → Bool) (k : ℕ) :
    l.foldl (fun g i => rasterize n pts (U i) (r i) g) g k = true ↔ g k = true ∨ ∃ i ∈ l, ∃ c ∈ cells (boxLo n (U i) (r i)) (boxHi n (U i) (r i)), emb n c = k ∧ InSphere n pts c (U i) (r i) := by
  induction l generalizing g with
  | nil => simp
  | cons i l ih =>
    rw [List.foldl_cons, ih, rasterize_spec]
    simp only [List.mem_cons, exists_eq_or_imp, or_assoc]

theorem boxHi_le (n : ℕ) (p : Pt d) (s : ℝ) (j : Fin d) : boxHi n p s j ≤ n := by
  unfold boxHi
  omega

/-- the box of a sphere has all cells whose point is in the sphere -/
theorem box_covers (n : ℕ) (p x : Pt d) (s : ℝ) (hs : 0 ≤ s) (hp : ∀ j, 0 ≤ p j ∧ p j ≤ 1) (c : Fin d → ℕ) (hc : ∀ j, c j < n) (ξ : Fin d → ℝ) (hξ : ∀ j, 0 ≤ ξ j ∧ ξ j < 1)
    (hx : x = fun j => (c j + ξ j) / n) (h : psq (x - p) ≤ 19 / 20 * s ^ 2) : ∀ j, boxLo n p s j ≤ c j ∧ c j < boxHi n p s j := by
  intro j
  have hn : (0 : ℝ) < n := by
    have := hc j
    exact_mod_cast (by omega : 0 < n)
  have hsq : (x j - p j) ^ 2 ≤ s ^ 2 := by
    have h1 : (x j - p j) ^ 2 ≤ psq (x - p) := Finset.single_le_sum (f := fun i => (x - p) i ^ 2) (fun i _ => sq_nonneg _) (Finset.mem_univ j)
    nlinarith [sq_nonneg s]
  obtain ⟨h1, h2⟩ := abs_le.mp (abs_le_of_sq_le_sq hsq hs)
  have hxn : x j * n = c j + ξ j := by rw [hx]; field_simp
  have hξj := hξ j
  have hpj := hp j
  have hsn := Int.le_ceil (s * n)
  have hfl := Int.floor_le ((n : ℝ) * p j)
  have hlf := Int.lt_floor_add_one ((n : ℝ) * p j)
  have a1 : x j * n ≤ (p j + s) * n := by nlinarith
  have a2 : (p j - s) * n ≤ x j * n := by nlinarith
  have hcj := hc j
  have hcn : (c j : ℝ) + 1 ≤ n := by exact_mod_cast hcj
  have hfln : ⌊(n : ℝ) * p j⌋ ≤ n := by
    have : ((⌊(n : ℝ) * p j⌋ : Int) : ℝ) ≤ ((n : Int) : ℝ) := by push_cast; nlinarith
    exact_mod_cast this
  have hceil0 : 0 ≤ ⌈s * n⌉ := Int.ceil_nonneg (by positivity)
  -- the cell is less than one below the coordinate of the centre minus the radius
  have b1 : ⌊(n : ℝ) * p j⌋ - ⌈s * n⌉ - 1 < (c j : Int) := by
    have : (((⌊(n : ℝ) * p j⌋ - ⌈s * n⌉ - 1 : Int)) : ℝ) < ((c j : Int) : ℝ) := by push_cast; nlinarith
    exact_mod_cast this
  have b2 : (c j : Int) < ⌊(n : ℝ) * p j⌋ + 1 + ⌈s * n⌉ := by
    have : ((c j : Int) : ℝ) < (((⌊(n : ℝ) * p j⌋ + 1 + ⌈s * n⌉ : Int)) : ℝ) := by push_cast; nlinarith
    exact_mod_cast this
  unfold boxLo boxHi gridCoord
  split
  · omega
  · omega

/-- `x` is in one of the (shrunk) spheres -/
def Occ (m : ℕ) (U : ℕ → Pt d) (r : ℕ → ℝ) (x : Pt d) : Prop := ∃ i < m, psq (x - U i) ≤ 19 / 20 * r i ^ 2

theorem fold_min_le (f : ℕ → ℝ) (l : List ℕ) (a : ℝ) : l.foldl (fun a i => min a (f i)) a ≤ a ∧ ∀ i ∈ l, l.foldl (fun a i => min a (f i)) a ≤ f i := by
  induction l generalizing a with
  | nil => simp
  | cons k l ih =>
    rw [List.foldl_cons]
    obtain ⟨h1, h2⟩ := ih (min a (f k))
    refine ⟨h1.trans (min_le_left _ _), fun i hi => ?_⟩
    rcases List.mem_cons.mp hi with rfl | hi
    · exact h1.trans (min_le_right _ _)
    · exact h2 i hi

theorem le_fold_max (f : ℕ → ℝ) (l : List ℕ) (a : ℝ) : a ≤ l.foldl (fun a i => max a (f i)) a ∧ ∀ i ∈ l, f i ≤ l.foldl (fun a i => max a (f i)) a := by
  induction l generalizing a with
  | nil => simp
  | cons k l ih =>
    rw [List.foldl_cons]
    obtain ⟨h1, h2⟩ := ih (max a (f k))
    refine ⟨(le_max_left _ _).trans h1, fun i hi => ?_⟩
    rcases List.mem_cons.mp hi with rfl | hi
    · exact (le_max_right _ _).trans h1
    · exact h2 i hi

theorem minOver_le (m : ℕ) (f : ℕ → ℝ) (i : ℕ) (hi : i < m) : minOver m f ≤ f i := (fold_min_le f _ _).2 i (List.mem_range.mpr hi)
theorem le_maxOver (m : ℕ) (f : ℕ → ℝ) (i : ℕ) (hi : i < m) : f i ≤ maxOver m f := (le_fold_max f _ _).2 i (List.mem_range.mpr hi)

section
variable (n m : ℕ) (U : ℕ → Pt d) (r : ℕ → ℝ)

theorem bbLo_lt (hn : 0 < n) (hm : 0 < m) (hU : ∀ i < m, ∀ j, 0 ≤ U i j ∧ U i j ≤ 1) (hr : ∀ i < m, 0 ≤ r i) (j : Fin d) : bbLo n m U r j < n := by
  unfold bbLo
  have h1 := minOver_le m (fun i => U i j - r i) 0 hm
  have h2 := (hU 0 hm j).2
  have h3 := hr 0 hm
  have hn' : (0 : ℝ) < n := by exact_mod_cast hn
  have h4 : minOver m (fun i => U i j - r i) * n - 1 ≤ n - 1 := by nlinarith
  have h5 : ⌊minOver m (fun i => U i j - r i) * n - 1⌋ ≤ (n : Int) - 1 := by
    have := (Int.floor_le (minOver m (fun i => U i j - r i) * n - 1)).trans h4
    exact_mod_cast this
  omega

theorem bbHi_le (hn : 0 < n) (hm : 0 < m) (hU : ∀ i < m, ∀ j, 0 ≤ U i j ∧ U i j ≤ 1) (hr : ∀ i < m, 0 ≤ r i) (j : Fin d) : bbHi n m U r j ≤ n := by
  have := bbLo_lt n m U r hn hm hU hr j
  unfold bbHi
  omega

/-- the neighbours of an occupied cell are in the window -/
theorem window (hr : ∀ i < m, 0 < r i) (x : Pt d) (c c' : Fin d → ℕ) (hc' : ∀ j, c' j < n) (hcn : ∀ j, c j < n) (ξ : Fin d → ℝ) (hξ : ∀ j, 0 ≤ ξ j ∧ ξ j < 1)
    (hx : x = fun j => (c j + ξ j) / n) (hocc : Occ m U r x) (hnb : ∀ j, c' j ≤ c j + 1 ∧ c j ≤ c' j + 1) : ∀ j, bbLo n m U r j ≤ c' j ∧ c' j < bbHi n m U r j := by
  intro j
  obtain ⟨i, hi, h⟩ := hocc
  have hri := hr i hi
  have hn : (0 : ℝ) < n := by
    have := hcn j
    exact_mod_cast (by omega : 0 < n)
  have hsq : (x j - U i j) ^ 2 < r i ^ 2 := by
    have h1 : (x j - U i j) ^ 2 ≤ psq (x - U i) := Finset.single_le_sum (f := fun k => (x - U i) k ^ 2) (fun i _ => sq_nonneg _) (Finset.mem_univ j)
    nlinarith [mul_pos hri hri]
  obtain ⟨h1, h2⟩ := abs_lt.mp (abs_lt_of_sq_lt_sq hsq hri.le)
  have hxn : x j * n = c j + ξ j := by rw [hx]; field_simp
  have hξj := hξ j
  have hlo := minOver_le m (fun i => U i j - r i) i hi
  have hhi := le_maxOver m (fun i => U i j + r i) i hi
  have a1 : minOver m (fun i => U i j - r i) * n < c j + ξ j := by rw [← hxn]; nlinarith
  have a2 : c j + ξ j < maxOver m (fun i => U i j + r i) * n := by rw [← hxn]; nlinarith
  have hfl := Int.floor_le (minOver m (fun i => U i j - r i) * n - 1)
  have hce := Int.le_ceil (maxOver m (fun i => U i j + r i) * n + 1)
  have b1 : ⌊minOver m (fun i => U i j - r i) * n - 1⌋ < (c j : Int) := by
    have : ((⌊minOver m (fun i => U i j - r i) * n - 1⌋ : Int) : ℝ) < ((c j : Int) : ℝ) := by push_cast; linarith
    exact_mod_cast this
  have b2 : (c j : Int) + 1 < ⌈maxOver m (fun i => U i j + r i) * n + 1⌉ := by
    have : (((c j : Int) + 1 : Int) : ℝ) < ((⌈maxOver m (fun i => U i j + r i) * n + 1⌉ : Int) : ℝ) := by push_cast; linarith
    exact_mod_cast this
  have hnbj := hnb j
  have hc'j := hc' j
  unfold bbHi
  have e1 : bbLo n m U r j ≤ c' j := by
    unfold bbLo
    omega
  constructor
  · exact e1
  · omega

end

/-! ## the grids -/

section
variable (n m : ℕ) (U : ℕ → Pt d) (r : ℕ → ℝ) (hn : 0 < n) (hm : 0 < m) (hU : ∀ i < m, ∀ j, 0 ≤ U i j ∧ U i j ≤ 1) (hr : ∀ i < m, 0 ≤ r i) (rnd : ℕ → ℝ) (hrnd : ∀ k, 0 ≤ rnd k ∧ rnd k < 1)
  (asg : List (List ℕ)) (hasg : asg.flatten.Perm (List.range m)) (junkP : ℕ → Pt d) (junkG junkN : ℕ → Bool)

/-- the random offset of a cell -/
noncomputable def offset (lo hi : Fin d → ℕ) (rnd : ℕ → ℝ) (c : Fin d → ℕ) : Fin d → ℝ := fun j => if c ∈ cells lo hi then rnd ((cells lo hi).idxOf c * d + j) else 0

include hrnd in
theorem offset_range (lo hi : Fin d → ℕ) (c : Fin d → ℕ) (j : Fin d) : 0 ≤ offset lo hi rnd c j ∧ offset lo hi rnd c j < 1 := by
  unfold offset
  split
  · exact hrnd _
  · norm_num

include hn hm hU hr in
theorem pts_spec (c : Fin d → ℕ) (hc : c ∈ cells (bbLo n m U r) (bbHi n m U r)) :
    gridPts n (bbLo n m U r) (bbHi n m U r) rnd junkP (emb n c) = fun j => (c j + offset (bbLo n m U r) (bbHi n m U r) rnd c j) / n := by
  rw [gridPts_spec n _ _ (bbHi_le n m U r hn hm hU hr) rnd junkP c _ (List.getElem?_idxOf hc)]
  funext j
  unfold offset
  rw [if_pos hc]

include hn hm hU hr in
theorem lt_of_window (c : Fin d → ℕ) (hc : c ∈ cells (bbLo n m U r) (bbHi n m U r)) (j : Fin d) : c j < n :=
  lt_of_lt_of_le ((mem_cells _ _ c).mp hc j).2 (bbHi_le n m U r hn hm hU hr j)

include hn hm hU hr hasg hrnd in
theorem joined_spec (c : Fin d → ℕ) (hc : c ∈ cells (bbLo n m U r) (bbHi n m U r)) :
    joined n (bbLo n m U r) (bbHi n m U r) (grids n U r (gridPts n (bbLo n m U r) (bbHi n m U r) rnd junkP) asg) junkG (emb n c) = true ↔
      Occ m U r (fun j => (c j + offset (bbLo n m U r) (bbHi n m U r) rnd c j) / n) := by
  have hlt := lt_of_window n m U r hn hm hU hr
  unfold joined
  rw [fold_update (emb n) (fun c => (grids n U r (gridPts n (bbLo n m U r) (bbHi n m U r) rnd junkP) asg).any (fun h => h (emb n c))) _ junkG c hc
    (fun y hy he => emb_inj n y c (hlt y hy) (hlt c hc) he), List.any_eq_true]
  have hp := pts_spec n m U r hn hm hU hr rnd junkP c hc
  unfold grids
  constructor
  · rintro ⟨g, hg, h⟩
    obtain ⟨l, hl, rfl⟩ := List.mem_map.mp hg
    rw [thread_spec] at h
    rcases h with h | ⟨i, hi, c', hc', he, hin⟩
    · simp at h
    · have hcc : c' = c := emb_inj n c' c (fun j => lt_of_lt_of_le ((mem_cells _ _ c').mp hc' j).2 (boxHi_le _ _ _ _)) (hlt c hc) he
      subst hcc
      refine ⟨i, List.mem_range.mp (hasg.mem_iff.mp (List.mem_flatten.mpr ⟨l, hl, hi⟩)), ?_⟩
      rw [← hp]
      exact hin
  · rintro ⟨i, hi, h⟩
    obtain ⟨l, hl, hil⟩ := List.mem_flatten.mp (hasg.mem_iff.mpr (List.mem_range.mpr hi))
    refine ⟨_, List.mem_map.mpr ⟨l, hl, rfl⟩, ?_⟩
    rw [thread_spec]
    refine Or.inr ⟨i, hil, c, (mem_cells _ _ c).mpr ?_, rfl, ?_⟩
    · exact box_covers n (U i) _ (r i) (hr i hi) (hU i hi) c (hlt c hc) _ (offset_range rnd hrnd _ _ c) rfl h
    · unfold InSphere
      rw [hp]
      exact h

include hn hm hU hr in
theorem narrowed_spec (g : ℕ → Bool) (c : Fin d → ℕ) (hc : c ∈ cells (bbLo n m U r) (bbHi n m U r)) :
    narrowed n (bbLo n m U r) (bbHi n m U r) g junkN (emb n c) = false ↔
      g (emb n c) = false ∧ ∃ c' ∈ cells (bbLo n m U r) (bbHi n m U r), (∀ j, c' j ≤ c j + 1 ∧ c j ≤ c' j + 1) ∧ g (emb n c') = true := by
  have hlt := lt_of_window n m U r hn hm hU hr
  unfold narrowed
  set lo := bbLo n m U r
  set hi := bbHi n m U r
  rw [fold_update (emb n) (fun c => if g (emb n c) then true
    else (nested d (fun j => [max (lo j) (c j - 1), c j, min (hi j - 1) (c j + 1)])).all (fun c' => !g (emb n c'))) _ junkN c hc
    (fun y hy he => emb_inj n y c (hlt y hy) (hlt c hc) he)]
  have hcw := (mem_cells lo hi c).mp hc
  split
  · rename_i hg; simp [hg]
  · rename_i hg
    rw [Bool.not_eq_true] at hg
    rw [List.all_eq_false]
    constructor
    · rintro ⟨c', hc', h⟩
      rw [mem_nested] at hc'
      simp only [Bool.not_eq_true, Bool.not_eq_false'] at h
      refine ⟨hg, c', (mem_cells lo hi c').mpr (fun j => ?_), fun j => ?_, h⟩
      · have := hc' j
        have := hcw j
        simp only [List.mem_cons, List.not_mem_nil, or_false] at *
        omega
      · have := hc' j
        have := hcw j
        simp only [List.mem_cons, List.not_mem_nil, or_false] at *
        omega
    · rintro ⟨-, c', hc', hnb, h⟩
      refine ⟨c', (mem_nested d _ c').mpr (fun j => ?_), by simp [h]⟩
      have h1 := (mem_cells lo hi c').mp hc' j
      have h2 := hnb j
      have := hcw j
      simp only [List.mem_cons, List.not_mem_nil, or_false]
      omega

end

end Gpy.Raster
