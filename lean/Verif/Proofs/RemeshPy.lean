import Verif.Model.RemeshPy
import Verif.Props.Remesh
import Verif.Props.Normals
import Verif.Props.Edges

/-! Lemmas about the Python wrapper of the remesher. -/

set_option autoImplicit false
namespace Gpy
open Np

theorem argsortNat_perm (l : List ℕ) : (argsortNat l).Perm (List.range l.length) := List.perm_insertionSort _ _

theorem argsortNat_sorted (l : List ℕ) : (argsortNat l).Pairwise (fun i j => l.getD i 0 ≤ l.getD j 0) := by
  unfold argsortNat
  haveI : Std.Total (fun i j : ℕ => l.getD i 0 ≤ l.getD j 0) := ⟨fun i j => le_total _ _⟩
  haveI : IsTrans ℕ (fun i j : ℕ => l.getD i 0 ≤ l.getD j 0) := ⟨fun i j k h1 h2 => le_trans h1 h2⟩
  exact List.pairwise_insertionSort _ _

theorem uniqueInOrder_perm (l : List ℕ) : (uniqueInOrder l).Perm (npUnique l) := by
  unfold uniqueInOrder
  refine ((argsortNat_perm _).map _).trans (List.Perm.of_eq ?_)
  unfold npUniqueIndex
  rw [List.length_map]
  apply List.ext_getElem
  · simp
  · intro i h1 h2
    simp [List.getElem?_eq_getElem h2]

/-- the distinct members of the list, in the order of first occurrence -/
theorem uniqueInOrder_spec (l : List ℕ) : (uniqueInOrder l).Nodup ∧ (∀ v, v ∈ uniqueInOrder l ↔ v ∈ l) ∧ (uniqueInOrder l).Pairwise (fun a b => l.idxOf a < l.idxOf b) := by
  have hp := uniqueInOrder_perm l
  have hn : (uniqueInOrder l).Nodup := hp.nodup_iff.2 (nodup_npUnique l)
  have hm : ∀ v, v ∈ uniqueInOrder l ↔ v ∈ l := fun v => by rw [hp.mem_iff, mem_npUnique]
  refine ⟨hn, hm, ?_⟩
  have hle : (uniqueInOrder l).Pairwise (fun a b => l.idxOf a ≤ l.idxOf b) := by
    unfold uniqueInOrder
    rw [List.pairwise_map]
    refine (argsortNat_sorted _).imp_of_mem ?_
    intro i j hi hj h
    have hi' := (argsortNat_perm _).mem_iff.1 hi
    have hj' := (argsortNat_perm _).mem_iff.1 hj
    rw [List.mem_range] at hi' hj'
    have hI : ∀ k, k < (npUniqueIndex l).length → (npUniqueIndex l).getD k 0 = l.idxOf ((npUnique l).getD k 0) := by
      intro k hk
      have hk' : k < (npUnique l).length := by simpa [npUniqueIndex] using hk
      rw [List.getD, List.getElem?_eq_getElem hk, List.getD, List.getElem?_eq_getElem hk']
      simp [npUniqueIndex]
    rw [hI i hi', hI j hj'] at h
    exact h
  refine (hle.and hn).imp_of_mem ?_
  intro a b ha hb h
  refine lt_of_le_of_ne h.1 ?_
  intro he
  exact h.2 ((List.idxOf_inj ((hm a).1 ha)).1 he)

theorem uniqueInOrder_self {l : List ℕ} (h : l.Nodup) : uniqueInOrder l = l := by
  obtain ⟨h1, h2, h3⟩ := uniqueInOrder_spec l
  have hp : (uniqueInOrder l).Perm l := (List.perm_ext_iff_of_nodup h1 h).2 h2
  refine hp.eq_of_pairwise (fun a b _ _ x y => absurd y (lt_asymm x)) h3 ?_
  rw [List.pairwise_iff_getElem]
  intro i j hi hj hij
  rw [h.idxOf_getElem i hi, h.idxOf_getElem j hj]
  exact hij

theorem newOrder_ok {n : ℕ} {fs : List ℕ} (hn : fs.Nodup) (hl : ∀ v ∈ fs, v < n) :
    newOrder n fs = some (fs ++ (List.range n).filter (fun v => v ∉ fs)) ∧ (fs ++ (List.range n).filter (fun v => v ∉ fs)).Perm (List.range n) := by
  refine ⟨by unfold newOrder; rw [if_pos hl], ?_⟩
  rw [List.perm_ext_iff_of_nodup ?_ List.nodup_range]
  · intro v
    simp only [List.mem_append, List.mem_filter, List.mem_range, decide_eq_true_eq]
    constructor
    · rintro (h | h)
      · exact hl v h
      · exact h.1
    · intro h
      by_cases hv : v ∈ fs
      · exact Or.inl hv
      · exact Or.inr ⟨h, hv⟩
  · rw [List.nodup_append]
    refine ⟨hn, List.nodup_range.filter _, ?_⟩
    intro a ha b hb hab
    subst hab
    simp only [List.mem_filter, decide_eq_true_eq] at hb
    exact hb.2 ha

theorem write_fold (n : ℕ) (L : List ℕ) : ∀ (k : ℕ) (B : Arr ℕ), B.size = n → L.Nodup → (∀ i ∈ L, i < n) →
    ∃ B', (L.zip (List.range' k L.length)).foldlM (fun (B : Arr ℕ) p => B.wr p.1 p.2) B = some B' ∧ B'.size = n ∧
      ∀ i, B'.val i = if i ∈ L then k + L.idxOf i else B.val i := by
  induction L with
  | nil => intro k B hB _ _; exact ⟨B, rfl, hB, fun i => by simp⟩
  | cons a L ih =>
    intro k B hB hn hl
    rw [List.nodup_cons] at hn
    have ha : a < n := hl a (by simp)
    obtain ⟨B', q1, q2, q3⟩ := ih (k + 1) ⟨n, Function.update B.val a k⟩ rfl hn.2 (fun i hi => hl i (by simp [hi]))
    refine ⟨B', ?_, q2, ?_⟩
    · rw [List.length_cons, List.range'_succ, List.zip_cons_cons, List.foldlM_cons]
      simp only [Arr.wr, hB, ha, if_true, Option.bind_eq_bind, Option.bind_some]
      exact q1
    · intro i
      rw [q3]
      by_cases hi : i = a
      · subst hi
        rw [if_neg hn.1, if_pos (by simp)]
        simp
      · by_cases hiL : i ∈ L
        · rw [if_pos hiL, if_pos (by simp [hiL]), List.idxOf_cons_ne _ (Ne.symm hi)]
          omega
        · rw [if_neg hiL, if_neg (by simp [hi, hiL])]
          simp [Function.update_of_ne hi]

theorem look_ok {t : Arr ℕ} {f : Tri} (ha : f.a < t.size) (hb : f.b < t.size) (hc : f.c < t.size) : Tri.look t f = some (f.map t.val) := by
  simp [Tri.look, Arr.rd, ha, hb, hc, Tri.map]

theorem elook_ok {t : Arr ℕ} {e : Edge} (ha : e.s < t.size) (hb : e.t < t.size) : Edge.look t e = some ⟨t.val e.s, t.val e.t⟩ := by
  simp [Edge.look, Arr.rd, ha, hb]

/-- What moving the fixed vertices to the front does: `f` is the renumbering. -/
theorem moveToFront_ok (junk : ℕ → ℕ) {V : List (V3 ℝ)} {F : List Tri} {feature : List ℕ} {fe : List Edge} (hF : InRange F V.length) (hf : ∀ v ∈ feature, v < V.length)
    (hfe : ∀ e ∈ fe, e.s < V.length ∧ e.t < V.length) :
    ∃ (P : PyMesh) (f : ℕ → ℕ), moveToFront junk V F feature fe = some P ∧ P.V.length = V.length ∧ (∀ v < V.length, f v < V.length) ∧
      (∀ v < V.length, ∀ w < V.length, f v = f w → v = w) ∧ (∀ v < V.length, P.V.getD (f v) 0 = V.getD v 0) ∧ P.F = F.map (Tri.map f) ∧
      P.fe = fe.map (fun e => (⟨f e.s, f e.t⟩ : Edge)) ∧ P.feature = List.range (uniqueInOrder feature).length ∧
      (∀ (j : ℕ) (h : j < (uniqueInOrder feature).length), f (uniqueInOrder feature)[j] = j) := by
  obtain ⟨h1, h2, h3⟩ := uniqueInOrder_spec feature
  set fs := uniqueInOrder feature with hfs
  have hl : ∀ v ∈ fs, v < V.length := fun v hv => hf v ((h2 v).1 hv)
  obtain ⟨o1, o2⟩ := newOrder_ok h1 hl
  set order := fs ++ (List.range V.length).filter (fun v => v ∉ fs) with ho
  have hlen : order.length = V.length := by rw [o2.length_eq, List.length_range]
  have hnd : order.Nodup := o2.nodup_iff.2 List.nodup_range
  have hmem : ∀ v, v ∈ order ↔ v < V.length := fun v => by rw [o2.mem_iff, List.mem_range]
  obtain ⟨B, b1, b2, b3⟩ := write_fold V.length order 0 ⟨V.length, junk⟩ rfl hnd (fun i hi => (hmem i).1 hi)
  have hBv : ∀ v < V.length, B.val v = order.idxOf v := fun v hv => by rw [b3, if_pos ((hmem v).2 hv), Nat.zero_add]
  have hV : order.mapM (fun v => V[v]?) = some (order.map (fun v => V.getD v 0)) := by
    apply mapM_eq_some_map
    intro v hv
    have := (hmem v).1 hv
    rw [List.getD, List.getElem?_eq_getElem this]; rfl
  have hFm : F.mapM (Tri.look B) = some (F.map (Tri.map B.val)) := by
    apply mapM_eq_some_map
    intro t ht
    obtain ⟨a, b, c⟩ := hF t ht
    exact look_ok (by rw [b2]; exact a) (by rw [b2]; exact b) (by rw [b2]; exact c)
  have hfem : fe.mapM (Edge.look B) = some (fe.map (fun e => (⟨B.val e.s, B.val e.t⟩ : Edge))) := by
    apply mapM_eq_some_map
    intro e he
    obtain ⟨a, b⟩ := hfe e he
    exact elook_ok (by rw [b2]; exact a) (by rw [b2]; exact b)
  have hb : (order.zip (List.range V.length)).foldlM (fun (t : Arr ℕ) p => t.wr p.1 p.2) ⟨V.length, junk⟩ = some B := by
    rw [← b1, hlen, List.range_eq_range']
  have hfl : fs.length ≤ V.length := by rw [← hlen, ho, List.length_append]; omega
  refine ⟨⟨order.map (fun v => V.getD v 0), F.map (Tri.map B.val), (List.range V.length).take fs.length, fe.map (fun e => (⟨B.val e.s, B.val e.t⟩ : Edge))⟩, B.val, ?_, ?_, ?_, ?_, ?_, rfl, rfl, ?_, ?_⟩
  · unfold moveToFront
    simp only [← hfs, o1, hb, hV, hFm, hfem, Option.bind_eq_bind, Option.bind_some]
  · simp [hlen]
  · intro v hv
    rw [hBv v hv]
    have := List.idxOf_lt_length_iff.2 ((hmem v).2 hv)
    omega
  · intro v hv w hw h
    rw [hBv v hv, hBv w hw] at h
    exact (List.idxOf_inj ((hmem v).2 hv)).1 h
  · intro v hv
    have hi := List.idxOf_lt_length_iff.2 ((hmem v).2 hv)
    show (order.map (fun v => V.getD v 0)).getD (B.val v) 0 = _
    rw [hBv v hv, List.getD, List.getElem?_map, List.getElem?_eq_getElem hi]
    simp
  · show (List.range V.length).take fs.length = _
    rw [List.take_range, min_eq_left hfl]
  · intro j h
    rw [hBv _ (hl _ (List.getElem_mem h))]
    have hj : j < order.length := by omega
    have : fs[j] = order[j] := by simp only [ho]; rw [List.getElem_append_left h]
    rw [this]
    exact hnd.idxOf_getElem j hj

theorem onSurface_map {V U : ℕ → V3 ℝ} {F : List Tri} {f : ℕ → ℕ} {n : ℕ} (hF : InRange F n) (h : ∀ v < n, U (f v) = V v) (x : V3 ℝ) :
    OnSurface U (F.map (Tri.map f)) x ↔ OnSurface V F x := by
  unfold OnSurface
  constructor
  · rintro ⟨t, ht, h'⟩
    obtain ⟨s, hs, rfl⟩ := List.mem_map.1 ht
    obtain ⟨a, b, c⟩ := hF s hs
    refine ⟨s, hs, ?_⟩
    simp only [Tri.map] at h'
    rw [h _ a, h _ b, h _ c] at h'
    exact h'
  · rintro ⟨s, hs, h'⟩
    obtain ⟨a, b, c⟩ := hF s hs
    refine ⟨s.map f, List.mem_map_of_mem hs, ?_⟩
    simp only [Tri.map]
    rw [h _ a, h _ b, h _ c]
    exact h'

theorem sides_map (f : ℕ → ℕ) (F : List Tri) : sides (F.map (Tri.map f)) = (sides F).map (fun e => (⟨f e.s, f e.t⟩ : Edge)) := by
  unfold sides
  rw [List.flatMap_map, List.map_flatMap]
  rfl

end Gpy
