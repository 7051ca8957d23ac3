import Verif.Model.RemoveUnreferenced

/-! C16: `remove_unreferenced`. -/

set_option autoImplicit false
namespace Gpy
open Np
variable {α : Type}

theorem npMaxInt_spec {F : List Int} (h : F ≠ []) : ∃ m, npMaxInt F = some m ∧ m ∈ F ∧ ∀ x ∈ F, x ≤ m := by
  cases F with
  | nil => exact absurd rfl h
  | cons a t =>
    refine ⟨t.foldl max a, rfl, ?_⟩
    clear h
    induction t generalizing a with
    | nil => simp
    | cons b t ih =>
      obtain ⟨h1, h2⟩ := ih (max a b)
      refine ⟨?_, ?_⟩
      · rw [List.foldl_cons]
        rcases List.mem_cons.mp h1 with h | h
        · rw [h]; rcases max_choice a b with h' | h' <;> rw [h'] <;> simp
        · simp [h]
      · intro x hx
        rw [List.foldl_cons]
        have hm := h2 (max a b) (by simp)
        simp only [List.mem_cons] at hx
        rcases hx with rfl | rfl | hx
        · exact le_trans (le_max_left _ _) hm
        · exact le_trans (le_max_right _ _) hm
        · exact h2 x (by simp [hx])

/-- fancy assignment at distinct non-negative in-range positions -/
theorem npPut_spec {β : Type} (I : List β) (J : List ℕ) (vals : List β) (hl : vals.length = J.length) (hn : J.Nodup)
    (hr : ∀ j ∈ J, j < I.length) :
    ∃ I', npPut I (J.map (fun k : ℕ => (k : Int))) vals = some I' ∧ I'.length = I.length ∧
      (∀ (k : ℕ) (j : ℕ), J[k]? = some j → I'[j]? = vals[k]?) ∧ ∀ j, j ∉ J → I'[j]? = I[j]? := by
  induction J generalizing I vals with
  | nil =>
    refine ⟨I, rfl, rfl, by simp, by simp⟩
  | cons a t ih =>
    cases vals with
    | nil => simp at hl
    | cons v vs =>
      obtain ⟨hat, hnt⟩ := List.nodup_cons.mp hn
      have ha : a < I.length := hr a (by simp)
      obtain ⟨I', h1, h2, h3, h4⟩ := ih (I.set a v) vs (by simpa using hl) hnt (fun j hj => by
        rw [List.length_set]; exact hr j (by simp [hj]))
      refine ⟨I', ?_, by rw [h2, List.length_set], ?_, ?_⟩
      · unfold npPut at h1 ⊢
        rw [List.map_cons, List.zip_cons_cons, List.foldlM_cons, if_pos ⟨by simp, by simpa using ha⟩]
        simpa using h1
      · intro k j hk
        cases k with
        | zero =>
          simp only [List.getElem?_cons_zero, Option.some.injEq] at hk
          subst hk
          rw [h4 a hat]
          simp [ha]
        | succ k =>
          simp only [List.getElem?_cons_succ] at hk ⊢
          exact h3 k j hk
      · intro j hj
        simp only [List.mem_cons, not_or] at hj
        rw [h4 j hj.2, List.getElem?_set_ne (Ne.symm hj.1)]


/-- the facts about `J` and `newF` after lines 83-90 -/
theorem ru_core {F : List Int} (h : ∀ x ∈ F, -1 ≤ x) :
    let m1 : Bool := (npUnique F).head? = some (-1)
    let newF : List Int := (npUniqueInverse F).map (fun k : ℕ => (k : Int))
    let J' := if m1 then (npUnique F).tail else npUnique F
    let newF' := if m1 then newF.map (fun x => x - 1) else newF
    (m1 = true ↔ (-1 : Int) ∈ F) ∧ J'.Pairwise (· < ·) ∧ (∀ v, v ∈ J' ↔ v ∈ F ∧ 0 ≤ v) ∧
      newF' = F.map (fun v => if v = -1 then -1 else (J'.idxOf v : Int)) := by
  intro m1 newF J' newF'
  have hp := npUnique_pairwise_lt F
  have hm : ∀ x, x ∈ npUnique F ↔ x ∈ F := fun x => mem_npUnique
  have hF : newF = F.map (fun v => ((npUnique F).idxOf v : Int)) := by
    simp [newF, npUniqueInverse, Function.comp_def]
  cases hU : npUnique F with
  | nil =>
    have hF0 : F = [] := npUnique_eq_nil.mp hU
    subst hF0
    have e1 : m1 = false := by simp [m1, hU]
    refine ⟨by simp [e1], ?_, ?_, ?_⟩
    · simp [J', hU]
    · simp [J', hU]
    · simp [newF', newF, e1, npUniqueInverse]
  | cons a t =>
    rw [hU] at hp hm
    obtain ⟨hp1, hp2⟩ := List.pairwise_cons.mp hp
    by_cases ha : a = -1
    · have e1 : m1 = true := by simp [m1, hU, ha]
      have e2 : J' = t := by simp [J', e1, hU]
      refine ⟨by simp only [e1, true_iff]; rw [← hm]; simp [ha], by rw [e2]; exact hp2, ?_, ?_⟩
      · intro v
        rw [e2, ← hm, List.mem_cons]
        constructor
        · intro hv
          have := hp1 v hv
          exact ⟨Or.inr hv, by omega⟩
        · rintro ⟨rfl | hv, h0⟩
          · omega
          · exact hv
      · simp only [newF', e1, if_true, hF, List.map_map]
        apply List.map_congr_left
        intro v hv
        simp only [Function.comp, hU, e2]
        by_cases hv1 : v = -1
        · subst hv1; rw [if_pos rfl, ha]; simp
        · rw [if_neg hv1, List.idxOf_cons_ne _ (by rw [ha]; exact fun h => hv1 h.symm)]
          push_cast; omega
    · have e1 : m1 = false := by simp [m1, hU, ha]
      have e2 : J' = a :: t := by simp [J', e1, hU]
      have ha1 : -1 ≤ a := h a ((hm a).mp (by simp))
      have hn1 : (-1 : Int) ∉ F := by
        rw [← hm]
        intro h'
        rcases List.mem_cons.mp h' with h' | h'
        · exact ha h'.symm
        · have := hp1 _ h'; omega
      refine ⟨by simp [e1, hn1], by rw [e2]; exact hp, ?_, ?_⟩
      · intro v
        rw [e2, hm]
        refine ⟨fun hv => ⟨hv, ?_⟩, fun hv => hv.1⟩
        have := h v hv
        by_contra h0
        have : v = -1 := by omega
        exact hn1 (this ▸ hv)
      · simp only [newF', e1, hF, e2, hU]
        apply List.map_congr_left
        intro v hv
        rw [if_neg (fun h' : v = -1 => hn1 (h' ▸ hv))]

/-- C16.  Let `F` (the flat list of entries) be non-empty with entries between `-1` and `n-1`, `n` the number of rows of `V`.
`remove_unreferenced` succeeds and returns `V2,F2,I,J` such that `J` lists the referenced vertices in increasing order, `V2` has
exactly the rows `V[J]`, every entry of `F2` addresses in `V2` the row that the entry of `F` addressed in `V` (and `-1` stays `-1`),
and `I` maps `J[k]` to `k` and every unreferenced vertex to `-1`; the entry `I[-1]` is `-1` if `F` contains `-1`. -/
theorem C16_remove_unreferenced (V : List α) (F : List Int) (hne : F ≠ []) (hlo : ∀ x ∈ F, -1 ≤ x) (hhi : ∀ x ∈ F, x < V.length) :
    ∃ (V2 : List α) (F2 I : List Int) (J : List ℕ), removeUnreferenced (some V) F = some (some V2, F2, I, J.map (fun k : ℕ => (k : Int))) ∧
      J.Pairwise (· < ·) ∧ (∀ v : ℕ, v ∈ J ↔ (v : Int) ∈ F) ∧
      V2.length = J.length ∧ (∀ k j : ℕ, J[k]? = some j → V2[k]? = V[j]?) ∧
      F2.length = F.length ∧
      (∀ k : ℕ, F[k]? = some (-1) → F2[k]? = some (-1)) ∧
      (∀ k v : ℕ, F[k]? = some (v : Int) → ∃ j : ℕ, F2[k]? = some (j : Int) ∧ J[j]? = some v ∧ ∃ x, V2[j]? = some x ∧ V[v]? = some x) ∧
      I.length = (if (-1 : Int) ∈ F then V.length + 1 else V.length) ∧
      (∀ k j : ℕ, J[k]? = some j → I[j]? = some (k : Int)) ∧
      (∀ v : ℕ, v < V.length → (v : Int) ∉ F → I[v]? = some (-1)) ∧
      ((-1 : Int) ∈ F → npGet? I (-1) = some (-1)) := by
  obtain ⟨mx, hm1, hm2, hm3⟩ := npMaxInt_spec hne
  obtain ⟨c1, c2, c3, c4⟩ := ru_core hlo
  have hall : F.all (fun x => decide (x ≥ -1)) = true := by
    rw [List.all_eq_true]; intro x hx; simpa using hlo x hx
  unfold removeUnreferenced
  rw [if_neg (by simp [hall]), hm1]
  simp only [Option.isSome_some, true_and]
  rw [if_neg (not_not.mpr (hhi mx hm2))]
  generalize hm : decide ((npUnique F).head? = some (-1)) = m1 at *
  generalize hJ : (if m1 = true then (npUnique F).tail else npUnique F) = J' at *
  rw [c4]
  generalize hK : (if m1 = true then Int.toNat (V.length : Int) + 1 else Int.toNat (V.length : Int)) = K at *
  have hJn : J' = (J'.map Int.toNat).map (fun k : ℕ => (k : Int)) := by
    rw [List.map_map]
    conv_lhs => rw [← List.map_id J']
    apply List.map_congr_left
    intro v hv
    have := ((c3 v).mp hv).2
    simp [Int.toNat_of_nonneg this]
  have hmem : ∀ v : ℕ, v ∈ J'.map Int.toNat ↔ (v : Int) ∈ F := by
    intro v
    rw [List.mem_map]
    constructor
    · rintro ⟨w, hw, rfl⟩
      obtain ⟨h1, h2⟩ := (c3 w).mp hw
      rw [Int.toNat_of_nonneg h2]; exact h1
    · intro hv
      exact ⟨v, (c3 v).mpr ⟨hv, by omega⟩, by simp⟩
  have hpw : (J'.map Int.toNat).Pairwise (· < ·) := by
    rw [List.pairwise_map]
    apply c2.imp_of_mem
    intro a b ha hb hab
    have := ((c3 a).mp ha).2
    have := ((c3 b).mp hb).2
    omega
  obtain ⟨Jn, hJe⟩ : ∃ Jn, Jn = J'.map Int.toNat := ⟨_, rfl⟩
  rw [← hJe] at hJn hmem hpw
  have hKV : V.length ≤ K := by rw [← hK]; split_ifs <;> simp
  obtain ⟨I, i1, i2, i3, i4⟩ := npPut_spec (List.replicate K (-1 : Int)) Jn ((List.range J'.length).map (fun k : ℕ => (k : Int)))
    (by rw [hJn]; simp) (hpw.imp ne_of_lt) (fun j hj => by
      have := hhi _ ((hmem j).mp hj)
      simp; omega)
  rw [← hJn] at i1
  rw [i1, Option.bind_some]
  have hlt : ∀ j ∈ Jn, j < V.length := fun j hj => by have := hhi _ ((hmem j).mp hj); omega
  have htake : npTake V J' = some (Jn.pmap (fun j (h : j < V.length) => V[j]) hlt) := by
    clear i1 i3 i4 c1 c2 c3 c4 hmem hpw hJe hJ
    rw [hJn]; clear hJn
    induction Jn with
    | nil => rfl
    | cons a t ih =>
      have := ih (fun j hj => hlt j (by simp [hj]))
      unfold npTake at this ⊢
      rw [List.map_cons, List.mapM_cons, this, npGet?_natCast, List.getElem?_eq_getElem (hlt a (by simp))]
      rfl
  rw [htake]
  have hJlen : J'.length = Jn.length := by rw [hJn]; simp
  have hV2 : ∀ k j : ℕ, Jn[k]? = some j → (Jn.pmap (fun j (h : j < V.length) => V[j]) hlt)[k]? = V[j]? := by
    intro k j hk
    obtain ⟨hk1, hk2⟩ := List.getElem?_eq_some_iff.mp hk
    subst hk2
    simp [List.getElem?_pmap, List.getElem?_eq_getElem hk1]
  have hidx : ∀ v : ℕ, (v : Int) ∈ F → ∃ j : ℕ, J'.idxOf (v : Int) = j ∧ Jn[j]? = some v := by
    intro v hv
    refine ⟨_, rfl, ?_⟩
    have h1 := (c3 v).mpr ⟨hv, by omega⟩
    have h2 := List.getElem?_idxOf h1
    conv at h2 => lhs; arg 1; rw [hJn]
    rw [List.getElem?_map] at h2
    rcases h3 : Jn[J'.idxOf (v : Int)]? with _ | w
    · rw [h3] at h2; simp at h2
    · rw [h3] at h2; simp at h2; rw [h2]
  refine ⟨_, _, I, Jn, by rw [Option.map_some, ← hJn], hpw, hmem, by simp, hV2, by simp, ?_, ?_, ?_, ?_, ?_, ?_⟩
  · intro k hk
    rw [List.getElem?_map, hk]; simp
  · intro k v hk
    have hv : (v : Int) ∈ F := List.mem_of_getElem? hk
    obtain ⟨j, hj1, hj2⟩ := hidx v hv
    refine ⟨j, ?_, hj2, V[v]'(by have := hhi _ hv; omega), ?_, ?_⟩
    · rw [List.getElem?_map, hk, Option.map_some, if_neg (by omega), hj1]
    · rw [hV2 j v hj2, List.getElem?_eq_getElem]
    · rw [List.getElem?_eq_getElem]
  · rw [i2, List.length_replicate, ← hK]
    by_cases h : m1 = true
    · rw [if_pos h, if_pos (c1.mp h)]; simp
    · rw [if_neg h, if_neg (fun h' => h (c1.mpr h'))]; simp
  · intro k j hk
    rw [i3 k j hk]
    have := (List.getElem?_eq_some_iff.mp hk).1
    rw [List.getElem?_map, List.getElem?_range (by omega)]; rfl
  · intro v hv1 hv2
    rw [i4 v (fun h => hv2 ((hmem v).mp h)), List.getElem?_replicate, if_pos (by omega)]
  · intro h1
    have hK' : K = V.length + 1 := by rw [← hK, if_pos (c1.mpr h1)]; simp
    have hI : I.length = V.length + 1 := by rw [i2, List.length_replicate, hK']
    have hI0 : I ≠ [] := by rintro rfl; simp at hI
    rw [npGet?_neg_one hI0, List.getLast_eq_getElem, ← List.getElem?_eq_getElem]
    rw [hI, Nat.add_sub_cancel, i4 _ (fun h => by have := hlt _ h; omega), List.getElem?_replicate, if_pos (by omega)]

/-- C16, rejected inputs: without faces, with an entry below `-1`, or with an entry that is not a row of `V`, the function raises. -/
theorem C16_rejects (V : List α) (F : List Int) (h : F = [] ∨ (∃ x ∈ F, x < -1) ∨ ∃ x ∈ F, (V.length : Int) ≤ x) :
    removeUnreferenced (some V) F = none := by
  unfold removeUnreferenced
  by_cases hall : F.all (fun x => decide (x ≥ -1)) = true
  · rw [if_neg (by simp [hall])]
    by_cases hne : F = []
    · subst hne; rfl
    · obtain ⟨mx, hm1, hm2, hm3⟩ := npMaxInt_spec hne
      rw [hm1]
      dsimp only
      rw [if_pos]
      refine ⟨rfl, ?_⟩
      rcases h with h | ⟨x, hx, h⟩ | ⟨x, hx, h⟩
      · exact absurd h hne
      · rw [List.all_eq_true] at hall
        have := hall x hx
        simp at this; omega
      · have := hm3 x hx; omega
  · rw [if_pos hall]

/-- C16, without vertices (`V=None`): the result is that for any vertex list of which `F` uses the last one, without the vertices; so the map `I` has as many entries as there are vertices up to the largest one used.
Without faces, or with an entry below `-1`, the function raises. -/
theorem C16_no_vertices (F : List Int) :
    (∀ V : List α, (∀ x ∈ F, x < V.length) → (V.length : Int) - 1 ∈ F → removeUnreferenced (none : Option (List α)) F = (removeUnreferenced (some V) F).map (fun r => (none, r.2))) ∧
    (F = [] ∨ (∃ x ∈ F, x < -1) → removeUnreferenced (none : Option (List α)) F = none) := by
  constructor
  · intro V hhi hlast
    have hne : F ≠ [] := by rintro rfl; simp at hlast
    by_cases hall : F.all (fun x => decide (x ≥ -1)) = true
    · have hlo : ∀ x ∈ F, -1 ≤ x := by
        intro x hx; rw [List.all_eq_true] at hall; simpa using hall x hx
      obtain ⟨V2, F2, I, J, hr, -⟩ := C16_remove_unreferenced V F hne hlo hhi
      obtain ⟨mx, hm1, hm2, hm3⟩ := npMaxInt_spec hne
      have e : mx + 1 = (V.length : Int) := by
        have h1 := hm3 _ hlast
        have h2 := hhi mx hm2
        omega
      unfold removeUnreferenced at hr ⊢
      rw [if_neg (by simp [hall]), hm1] at hr ⊢
      rw [if_neg (by simp [hall])]
      simp only [Option.isSome_some, Option.isSome_none, Bool.false_eq_true, false_and, if_false, true_and, e] at hr ⊢
      rw [if_neg (not_not.mpr (hhi mx hm2))] at hr ⊢
      simp only [Option.bind_eq_some_iff, Option.map_eq_some_iff] at hr
      obtain ⟨I', hI, V3, h3, h4⟩ := hr
      rw [hI, Option.bind_some, Option.bind_some, h3]
      rfl
    · unfold removeUnreferenced
      rw [if_pos hall, if_pos hall]
      rfl
  · intro h
    unfold removeUnreferenced
    by_cases hall : F.all (fun x => decide (x ≥ -1)) = true
    · rw [if_neg (by simp [hall])]
      rcases h with rfl | ⟨x, hx, h⟩
      · rfl
      · rw [List.all_eq_true] at hall
        have := hall x hx
        simp at this; omega
    · rw [if_pos hall]

/-- without vertices: four vertices up to the largest used one, and one more entry because of the padding -/
example : (removeUnreferenced (none : Option (List Char)) [3, 1, -1, 3]) = some (none, [1, 0, -1, 1], [-1, 0, -1, 1, -1], [1, 3]) := by
  decide +kernel

/-- five vertices of which two are used, with a padding entry `-1`: the hypotheses hold -/
example : (removeUnreferenced (some ['a', 'b', 'c', 'd', 'e']) [3, 1, -1, 3]) = some (some ['b', 'd'], [1, 0, -1, 1], [-1, 0, -1, 1, -1, -1], [1, 3]) := by
  decide +kernel

end Gpy
