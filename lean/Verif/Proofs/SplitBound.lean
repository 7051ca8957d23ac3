import Verif.Model.SplitBound
import Verif.Proofs.SplitGeom

set_option autoImplicit false
namespace Gpy

theorem Undir.symm' {e e' : Edge} (h : Undir e e') : Undir e' e := by
  obtain ⟨a, b⟩ := e
  obtain ⟨c, d⟩ := e'
  rw [undir_iff] at h ⊢
  omega

theorem Undir.trans' {e e' e'' : Edge} (h : Undir e e') (h' : Undir e' e'') : Undir e e'' := by
  obtain ⟨a, b⟩ := e
  obtain ⟨c, d⟩ := e'
  obtain ⟨x, y⟩ := e''
  rw [undir_iff] at h h' ⊢
  omega

theorem featRow_spec (fe : List Edge) (e : Edge) :
    match featRow fe e with
    | none => ∀ e' ∈ fe, ¬ Undir e e'
    | some r => ∃ h : r < fe.length, Undir e fe[r] := by
  unfold featRow
  have key : ∀ t ≤ fe.length, match (List.range t).foldl (fun o j => if Undir e (fe.getD j ⟨0, 0⟩) then some j else o) none with
      | none => ∀ j (h : j < fe.length), j < t → ¬ Undir e fe[j]
      | some r => ∃ h : r < fe.length, Undir e fe[r] := by
    intro t
    induction t with
    | zero => intro _; simp
    | succ t ih =>
      intro ht
      have ih := ih (by omega)
      rw [List.range_succ, List.foldl_append]
      simp only [List.foldl_cons, List.foldl_nil]
      have hg : fe.getD t ⟨0, 0⟩ = fe[t] := by simp [List.getD, List.getElem?_eq_getElem (show t < fe.length by omega)]
      rw [hg]
      by_cases hu : Undir e fe[t]
      · rw [if_pos hu]; exact ⟨by omega, hu⟩
      · rw [if_neg hu]
        split
        · rename_i he
          rw [he] at ih
          intro j hj hjt
          rcases Nat.lt_or_ge j t with h | h
          · exact ih j hj h
          · obtain rfl : j = t := by omega
            exact hu
        · rename_i r he
          rw [he] at ih
          exact ih
  have := key fe.length (le_refl _)
  split
  · rename_i he
    rw [he] at this
    intro e' he'
    obtain ⟨j, hj, rfl⟩ := List.getElem_of_mem he'
    exact this j hj hj
  · rename_i r he
    rw [he] at this
    exact this

theorem featRow_isSome (fe : List Edge) (e : Edge) : (featRow fe e).isSome = true ↔ ∃ e' ∈ fe, Undir e e' := by
  have := featRow_spec fe e
  cases h : featRow fe e with
  | none => rw [h] at this; simpa using this
  | some r =>
    rw [h] at this
    obtain ⟨hr, hu⟩ := this
    simp only [Option.isSome_some, true_iff]
    exact ⟨_, List.getElem_mem hr, hu⟩

/-- what becomes of a feature edge -/
def newFeat (uE : IMat) (n : ℕ) (done : List ℕ) (e : Edge) : Edge :=
  match done.findIdx? (fun u => decide (Undir (edgeRow uE u) e)) with
  | none => e
  | some j => ⟨(edgeRow uE (done.getD j 0)).s, n + j⟩

/-- the second halves -/
def newFeat2 (uE : IMat) (n : ℕ) (fe : List Edge) (done : List ℕ) : List Edge :=
  done.zipIdx.filterMap (fun p => if (featRow fe (edgeRow uE p.1)).isSome then some ⟨n + p.2, (edgeRow uE p.1).t⟩ else none)

theorem updateFeat_eq (uE : IMat) (n : ℕ) (fe : List Edge) (todo : List ℕ) (hfe : fe.Pairwise (fun e e' => ¬ Undir e e')) (hnd : todo.Nodup)
    (huq : ∀ u ∈ todo, ∀ u' ∈ todo, Undir (edgeRow uE u) (edgeRow uE u') → u = u') :
    updateFeat uE n fe todo = fe.map (newFeat uE n todo) ++ newFeat2 uE n fe todo := by
  unfold updateFeat
  have key : ∀ t ≤ todo.length, ((todo.take t).zipIdx).foldl (fun L p => match featRow fe (edgeRow uE p.1) with
      | none => L
      | some row => L.set row ⟨(edgeRow uE p.1).s, n + p.2⟩ ++ [⟨n + p.2, (edgeRow uE p.1).t⟩]) fe =
      fe.map (newFeat uE n (todo.take t)) ++ newFeat2 uE n fe (todo.take t) := by
    intro t
    induction t with
    | zero =>
      intro _
      simp only [List.take_zero, List.zipIdx_nil, List.foldl_nil, newFeat2, List.filterMap_nil, List.append_nil]
      have : newFeat uE n [] = id := by funext e; rfl
      rw [this, List.map_id]
    | succ t ih =>
      intro ht
      have htl : t < todo.length := by omega
      have hlen : (todo.take t).length = t := by rw [List.length_take]; omega
      have htake : todo.take (t + 1) = todo.take t ++ [todo[t]] := by rw [List.take_succ_eq_append_getElem htl]
      rw [htake, List.zipIdx_append, List.foldl_append, ih (by omega)]
      simp only [List.zipIdx_cons, List.zipIdx_nil, List.foldl_cons, List.foldl_nil, Nat.zero_add, hlen]
      have nf2 : newFeat2 uE n fe (todo.take t ++ [todo[t]]) = newFeat2 uE n fe (todo.take t) ++
          (if (featRow fe (edgeRow uE todo[t])).isSome then [⟨n + t, (edgeRow uE todo[t]).t⟩] else []) := by
        unfold newFeat2
        rw [List.zipIdx_append, List.filterMap_append]
        simp only [List.zipIdx_cons, List.zipIdx_nil, Nat.zero_add, hlen]
        congr 1
        cases hb : (featRow fe (edgeRow uE todo[t])).isSome
        · rw [List.filterMap_cons_none (by simp [hb])]; simp
        · rw [List.filterMap_cons_some (b := ⟨n + t, (edgeRow uE todo[t]).t⟩) (by simp [hb])]; simp
      have fnd : ∀ e, newFeat uE n (todo.take t ++ [todo[t]]) e =
          if Undir (edgeRow uE todo[t]) e then ⟨(edgeRow uE todo[t]).s, n + t⟩ else newFeat uE n (todo.take t) e := by
        intro e
        unfold newFeat
        rw [List.findIdx?_append]
        by_cases hu : Undir (edgeRow uE todo[t]) e
        · rw [if_pos hu]
          have hnone : (todo.take t).findIdx? (fun u => decide (Undir (edgeRow uE u) e)) = none := by
            rw [List.findIdx?_eq_none_iff]
            intro u hu'
            simp only [decide_eq_false_iff_not]
            intro hue
            have h1 : u = todo[t] := huq u (List.mem_of_mem_take hu') _ (List.getElem_mem htl) (hue.trans' hu.symm')
            rw [List.mem_take_iff_getElem] at hu'
            obtain ⟨j, hj, hj'⟩ := hu'
            have : j = t := by
              have := (List.Nodup.getElem_inj_iff hnd (hi := by omega) (hj := htl)).mp (hj'.trans h1)
              exact this
            omega
          have hsome : [todo[t]].findIdx? (fun u => decide (Undir (edgeRow uE u) e)) = some 0 := by
            simp [List.findIdx?_cons, hu]
          rw [hnone, hsome]
          simp only [Option.map_some, hlen, Nat.zero_add, Option.none_or]
          simp [List.getD, hlen, List.getElem?_eq_getElem htl]
        · rw [if_neg hu]
          have hnone : [todo[t]].findIdx? (fun u => decide (Undir (edgeRow uE u) e)) = none := by
            simp [List.findIdx?_cons, hu]
          rw [hnone]
          simp only [Option.map_none, Option.or_none]
          cases hf : (todo.take t).findIdx? (fun u => decide (Undir (edgeRow uE u) e)) with
          | none => rfl
          | some j =>
            have hj : j < (todo.take t).length := (List.findIdx?_eq_some_iff_getElem.mp hf).1
            simp only [List.getD, List.getElem?_append_left hj]
      have spec := featRow_spec fe (edgeRow uE todo[t])
      cases hr : featRow fe (edgeRow uE todo[t]) with
      | none =>
        rw [hr] at spec nf2
        simp only at spec
        rw [nf2]
        simp only [Option.isSome_none, Bool.false_eq_true, if_false, List.append_nil]
        congr 1
        refine List.map_congr_left ?_
        intro e he
        rw [fnd, if_neg (spec e he)]
      | some r =>
        rw [hr] at spec nf2
        simp only at spec
        obtain ⟨hrl, hru⟩ := spec
        rw [nf2]
        simp only [Option.isSome_some, if_true]
        rw [List.set_append_left _ _ (by simpa using hrl), List.append_assoc]
        congr 1
        refine List.ext_getElem (by simp) ?_
        intro i h1 h2
        rw [List.getElem_set, List.getElem_map, List.getElem_map, fnd]
        have hi : i < fe.length := by simpa using h2
        split_ifs with c1 c2 c2
        · rfl
        · subst c1; exact absurd hru c2
        · exfalso
          have hrr : Undir fe[r] fe[i] := hru.symm'.trans' c2
          rw [List.pairwise_iff_getElem] at hfe
          rcases Nat.lt_or_gt_of_ne c1 with h | h
          · exact hfe r i hrl hi h hrr
          · exact hfe i r hi hrl h hrr.symm'
        · rfl
  have := key todo.length (le_refl _)
  rw [List.take_length] at this
  exact this

/-- the feature edges after the split -/
theorem mem_updateFeat (uE : IMat) (n : ℕ) (fe : List Edge) (todo : List ℕ) (hfe : fe.Pairwise (fun e e' => ¬ Undir e e')) (hnd : todo.Nodup)
    (huq : ∀ u ∈ todo, ∀ u' ∈ todo, Undir (edgeRow uE u) (edgeRow uE u') → u = u') (e : Edge) :
    e ∈ updateFeat uE n fe todo ↔ (e ∈ fe ∧ ∀ u ∈ todo, ¬ Undir (edgeRow uE u) e) ∨
      ∃ j, ∃ h : j < todo.length, (∃ e' ∈ fe, Undir (edgeRow uE todo[j]) e') ∧ (e = ⟨(edgeRow uE todo[j]).s, n + j⟩ ∨ e = ⟨n + j, (edgeRow uE todo[j]).t⟩) := by
  rw [updateFeat_eq uE n fe todo hfe hnd huq, List.mem_append, List.mem_map]
  have fidx : ∀ (e0 : Edge) (j : ℕ) (hj : j < todo.length), Undir (edgeRow uE todo[j]) e0 → newFeat uE n todo e0 = ⟨(edgeRow uE todo[j]).s, n + j⟩ := by
    intro e0 j hj hu
    unfold newFeat
    have hf : todo.findIdx? (fun u => decide (Undir (edgeRow uE u) e0)) = some j := by
      rw [List.findIdx?_eq_some_iff_getElem]
      refine ⟨hj, by simpa using hu, ?_⟩
      intro i hi
      simp only [decide_eq_true_eq]
      intro hui
      have h1 := huq _ (List.getElem_mem (by omega)) _ (List.getElem_mem hj) (hui.trans' hu.symm')
      have := (List.Nodup.getElem_inj_iff hnd (hi := by omega) (hj := hj)).mp h1
      omega
    rw [hf]
    simp [List.getD, List.getElem?_eq_getElem hj]
  have fnone : ∀ e0, (∀ u ∈ todo, ¬ Undir (edgeRow uE u) e0) → newFeat uE n todo e0 = e0 := by
    intro e0 h
    unfold newFeat
    have : todo.findIdx? (fun u => decide (Undir (edgeRow uE u) e0)) = none := by
      rw [List.findIdx?_eq_none_iff]
      intro u hu
      simpa using h u hu
    rw [this]
  constructor
  · rintro (⟨e0, he0, rfl⟩ | h)
    · by_cases h : ∃ u ∈ todo, Undir (edgeRow uE u) e0
      · obtain ⟨u, hu, hue⟩ := h
        obtain ⟨j, hj, rfl⟩ := List.getElem_of_mem hu
        right
        exact ⟨j, hj, ⟨e0, he0, hue⟩, Or.inl (fidx e0 j hj hue)⟩
      · push Not at h
        left
        rw [fnone e0 h]
        exact ⟨he0, h⟩
    · right
      unfold newFeat2 at h
      rw [List.mem_filterMap] at h
      obtain ⟨⟨u, j⟩, hp, h⟩ := h
      obtain ⟨hj, hu⟩ := List.mem_zipIdx' hp
      split_ifs at h with hs
      cases h
      simp only at hu hs ⊢
      rw [hu] at hs ⊢
      exact ⟨j, hj, (featRow_isSome _ _).mp hs, Or.inr rfl⟩
  · rintro (⟨he, h⟩ | ⟨j, hj, ⟨e', he', hu⟩, h⟩)
    · left; exact ⟨e, he, fnone e h⟩
    · rcases h with rfl | rfl
      · left; exact ⟨e', he', fidx e' j hj hu⟩
      · right
        unfold newFeat2
        rw [List.mem_filterMap]
        refine ⟨(todo[j], j), ?_, ?_⟩
        · rw [List.mem_zipIdx_iff_getElem?]
          simp [List.getElem?_eq_getElem hj]
        · simp only
          rw [if_pos ((featRow_isSome _ _).mpr ⟨e', he', hu⟩)]

end Gpy

namespace Gpy

theorem updateFeat_pairwise (uE : IMat) (n : ℕ) (fe : List Edge) (todo : List ℕ) (hfe : fe.Pairwise (fun e e' => ¬ Undir e e')) (hnd : todo.Nodup)
    (huq : ∀ u ∈ todo, ∀ u' ∈ todo, Undir (edgeRow uE u) (edgeRow uE u') → u = u')
    (hlt : ∀ u ∈ todo, (edgeRow uE u).s < n ∧ (edgeRow uE u).t < n ∧ (edgeRow uE u).s ≠ (edgeRow uE u).t) (hfl : ∀ e ∈ fe, e.s < n ∧ e.t < n) :
    (updateFeat uE n fe todo).Pairwise (fun e e' => ¬ Undir e e') := by
  rw [updateFeat_eq uE n fe todo hfe hnd huq, List.pairwise_append]
  -- forms of the entries
  have form : ∀ e ∈ fe, (newFeat uE n todo e = e) ∨ ∃ j, ∃ h : j < todo.length, Undir (edgeRow uE todo[j]) e ∧ newFeat uE n todo e = ⟨(edgeRow uE todo[j]).s, n + j⟩ := by
    intro e he
    unfold newFeat
    cases hf : todo.findIdx? (fun u => decide (Undir (edgeRow uE u) e)) with
    | none => left; rfl
    | some j =>
      right
      obtain ⟨hj, hu, _⟩ := List.findIdx?_eq_some_iff_getElem.mp hf
      refine ⟨j, hj, by simpa using hu, ?_⟩
      simp [List.getD, List.getElem?_eq_getElem hj]
  have form2 : ∀ e ∈ newFeat2 uE n fe todo, ∃ j, ∃ h : j < todo.length, e = ⟨n + j, (edgeRow uE todo[j]).t⟩ := by
    intro e he
    unfold newFeat2 at he
    rw [List.mem_filterMap] at he
    obtain ⟨⟨u, j⟩, hp, h⟩ := he
    obtain ⟨hj, hu⟩ := List.mem_zipIdx' hp
    split_ifs at h with hs
    cases h
    simp only at hu ⊢
    exact ⟨j, hj, by rw [hu]⟩
  refine ⟨?_, ?_, ?_⟩
  · rw [List.pairwise_map]
    refine hfe.imp_of_mem ?_
    intro e e' he he' hne hu
    have l1 := hfl e he
    have l2 := hfl e' he'
    rcases form e he with h1 | ⟨j, hj, u1, h1⟩ <;> rcases form e' he' with h2 | ⟨j', hj', u2, h2⟩ <;> rw [h1, h2] at hu
    · exact hne hu
    · have l3 := hlt _ (List.getElem_mem hj')
      obtain ⟨a, b⟩ := e
      rw [undir_iff] at hu
      simp only at l1
      omega
    · have l3 := hlt _ (List.getElem_mem hj)
      obtain ⟨a, b⟩ := e'
      rw [undir_iff] at hu
      simp only at l2
      omega
    · have l3 := hlt _ (List.getElem_mem hj)
      have l4 := hlt _ (List.getElem_mem hj')
      rw [undir_iff] at hu
      have : j = j' := by omega
      subst this
      exact hne (u1.symm'.trans' u2)
  · unfold newFeat2
    rw [List.pairwise_filterMap, List.pairwise_iff_getElem]
    intro i j hi hj hij e he e' he' hu
    simp only [List.length_zipIdx] at hi hj
    simp only [List.getElem_zipIdx, Nat.zero_add] at he he'
    split_ifs at he with hs
    split_ifs at he' with hs'
    cases he
    cases he'
    rw [undir_iff] at hu
    have l3 := hlt _ (List.getElem_mem hi)
    have l4 := hlt _ (List.getElem_mem hj)
    omega
  · intro e he e' he' hu
    obtain ⟨e0, he0, rfl⟩ := List.mem_map.mp he
    obtain ⟨j', hj', rfl⟩ := form2 e' he'
    have l4 := hlt _ (List.getElem_mem hj')
    have l1 := hfl e0 he0
    rcases form e0 he0 with h1 | ⟨j, hj, u1, h1⟩ <;> rw [h1] at hu
    · obtain ⟨a, b⟩ := e0
      rw [undir_iff] at hu
      simp only at l1
      omega
    · have l3 := hlt _ (List.getElem_mem hj)
      rw [undir_iff] at hu
      have : j = j' := by omega
      subst this
      omega

end Gpy
