import Verif.Model.CutEdges
import Verif.Props.RemoveUnreferenced
import Verif.Proofs.Edges

set_option autoImplicit false
namespace Gpy
open Np

/-- fancy assignment with repeated indices -/
theorem npPut_dup {β : Type} (I : List β) (J : List ℕ) (vals : List β) (hl : vals.length = J.length) (hr : ∀ j ∈ J, j < I.length) :
    ∃ I', npPut I (J.map (fun k : ℕ => (k : Int))) vals = some I' ∧ I'.length = I.length ∧
      ∀ j ∈ J, ∃ k : ℕ, J[k]? = some j ∧ I'[j]? = vals[k]? := by
  suffices h : ∃ I', npPut I (J.map (fun k : ℕ => (k : Int))) vals = some I' ∧ I'.length = I.length ∧
      (∀ j ∈ J, ∃ k : ℕ, J[k]? = some j ∧ I'[j]? = vals[k]?) ∧ ∀ j, j ∉ J → I'[j]? = I[j]? by
    obtain ⟨I', a, b, c, _⟩ := h
    exact ⟨I', a, b, c⟩
  induction J generalizing I vals with
  | nil => exact ⟨I, rfl, rfl, by simp, by simp⟩
  | cons a t ih =>
    cases vals with
    | nil => simp at hl
    | cons v vs =>
      have ha : a < I.length := hr a (by simp)
      obtain ⟨I', h1, h2, h3, h4⟩ := ih (I.set a v) vs (by simpa using hl) (fun j hj => by
        rw [List.length_set]; exact hr j (by simp [hj]))
      refine ⟨I', ?_, by rw [h2, List.length_set], ?_, ?_⟩
      · unfold npPut at h1 ⊢
        rw [List.map_cons, List.zip_cons_cons, List.foldlM_cons, if_pos ⟨by simp, by simpa using ha⟩]
        simpa using h1
      · intro j hj
        by_cases hjt : j ∈ t
        · obtain ⟨k, hk1, hk2⟩ := h3 j hjt
          exact ⟨k + 1, by simpa using hk1, by simpa using hk2⟩
        · have : j = a := by simpa [hjt] using hj
          subst this
          exact ⟨0, rfl, by rw [h4 j hjt]; simp [ha]⟩
      · intro j hj
        simp only [List.mem_cons, not_or] at hj
        rw [h4 j hj.2, List.getElem?_set_ne (Ne.symm hj.1)]

theorem flatMap3_get {α β : Type} (l : List α) (g : α → Fin 3 → β) (f : ℕ) (c : Fin 3) :
    (l.flatMap (fun x => [g x 0, g x 1, g x 2]))[3 * f + c.val]? = l[f]?.map (fun x => g x c) := by
  induction l generalizing f with
  | nil => simp
  | cons a t ih =>
    rw [List.flatMap_cons]
    cases f with
    | zero =>
      match c with
      | 0 => simp
      | 1 => simp
      | 2 => simp
    | succ f =>
      rw [List.getElem?_append_right (by simp; omega)]
      have : 3 * (f + 1) + c.val - [g a 0, g a 1, g a 2].length = 3 * f + c.val := by simp; omega
      rw [this, ih]; simp

theorem ffRavel_get {m f : ℕ} (hf : f < m) (c : Fin 3) : (ffRavel m)[3 * f + c.val]? = some (c.val * m + f) := by
  have := flatMap3_get (List.range m) (fun (x : ℕ) (c : Fin 3) => c.val * m + x) f c
  rw [List.getElem?_range hf] at this
  exact this

theorem mem_ffRavel {m p : ℕ} : p ∈ ffRavel m ↔ p < 3 * m := by
  unfold ffRavel
  simp only [List.mem_flatMap, List.mem_range, List.mem_cons, List.not_mem_nil, or_false]
  constructor
  · rintro ⟨f, hf, h⟩; omega
  · intro h
    by_cases h1 : p < m
    · exact ⟨p, h1, by omega⟩
    · by_cases h2 : p < 2 * m
      · exact ⟨p - m, by omega, by omega⟩
      · exact ⟨p - 2 * m, by omega, by omega⟩

theorem length_ravelF (F : List Tri) : (ravelF F).length = 3 * F.length := by simp [ravelF]; omega

theorem ravelF_get {F : List Tri} {f : ℕ} {t : Tri} (h : F[f]? = some t) (c : Fin 3) :
    (ravelF F)[c.val * F.length + f]? = some (t.corner c) := by
  have hlt : f < F.length := (List.getElem?_eq_some_iff.mp h).1
  unfold ravelF
  match c with
  | 0 =>
    rw [List.append_assoc, List.getElem?_append_left (by simpa using hlt)]
    simp [List.getElem?_map, h, Tri.corner]
  | 1 =>
    rw [List.append_assoc, List.getElem?_append_right (by simp), List.getElem?_append_left (by simp; omega)]
    simp [List.getElem?_map, h, Tri.corner]
  | 2 =>
    rw [List.getElem?_append_right (by simp; omega)]
    have : 2 * F.length + f - (List.map (fun x : Tri => x.a) F ++ List.map (fun x : Tri => x.b) F).length = f := by
      simp; omega
    rw [show ((2 : Fin 3).val) = 2 from rfl, this]
    simp [List.getElem?_map, h, Tri.corner]

/-- a strictly increasing list of naturals without gaps -/
theorem eq_range_of_consecutive {J : List ℕ} (hp : J.Pairwise (· < ·)) (hc : ∀ l ∈ J, ∀ l' < l, l' ∈ J) :
    J = List.range J.length := by
  apply List.ext_getElem (by simp)
  intro i h1 h2
  rw [List.getElem_range]
  induction i using Nat.strong_induction_on with
  | _ i ih =>
    have hlow : i ≤ J[i] := by
      rcases i with _ | i
      · omega
      · have := ih i (by omega) (by omega) (by simp; omega)
        have := List.pairwise_iff_getElem.mp hp i (i + 1) (by omega) h1 (by omega)
        omega
    by_contra hne
    have hlt : i < J[i] := by omega
    obtain ⟨i', hi', he⟩ := List.getElem_of_mem (hc _ (List.getElem_mem h1) i hlt)
    have : i' < i := by
      by_contra hge
      rcases Nat.lt_or_ge i i' with h | h
      · have := List.pairwise_iff_getElem.mp hp i i' h1 hi' h
        omega
      · have : i' = i := by omega
        subst this; omega
    have := ih i' this hi' (by simpa using hi')
    omega

theorem npTakeN_map {β : Type} {l : List β} {idx : List ℕ} {g : ℕ → β} (h : ∀ i ∈ idx, l[i]? = some (g i)) :
    npTakeN l idx = some (idx.map g) := mapM_eq_some_map h

theorem relabel_spec {F : List Tri} (hF : F ≠ []) {labels : List ℕ} (hlen : labels.length = 3 * F.length)
    (hcons : ∀ l ∈ labels, ∀ l' < l, l' ∈ labels)
    (hsame : ∀ p q : ℕ, p < labels.length → labels[p]? = labels[q]? → (ravelF F)[p]? = (ravelF F)[q]?) :
    ∃ G I, cutRelabel F labels = some (G, I) ∧ G.length = 3 * F.length ∧
      (∀ (f : ℕ) (c : Fin 3), f < F.length → ∃ l, labels[c.val * F.length + f]? = some l ∧ G[3 * f + c.val]? = some (l : Int) ∧
        I[l]? = (ravelF F)[c.val * F.length + f]?) ∧
      ∀ g < I.length, g ∈ labels := by
  have hm : 0 < F.length := List.length_pos_iff.mpr hF
  -- labels are less than the number of corners
  have hU := npUnique_pairwise_lt labels
  have hUr := eq_range_of_consecutive hU (fun l hl l' h => mem_npUnique.mpr (hcons l (mem_npUnique.mp hl) l' h))
  have hUl := npUnique_length_le labels
  obtain ⟨k, hk⟩ : ∃ k, k = (npUnique labels).length := ⟨_, rfl⟩
  rw [← hk] at hUr hUl
  have hlt : ∀ l, l ∈ labels ↔ l < k := by
    intro l
    rw [← mem_npUnique, hUr, List.mem_range]
  obtain ⟨VVd, v1, v2, -⟩ := npPut_dup (List.replicate (3 * F.length) 0) labels labels rfl (fun j hj => by
    have := (hlt j).mp hj; simp; omega)
  obtain ⟨I1, w1, w2, w3⟩ := npPut_dup (ravelF F) labels (ravelF F) (by rw [length_ravelF, hlen]) (fun j hj => by
    have := (hlt j).mp hj; rw [length_ravelF]; omega)
  rw [length_ravelF] at w2
  have hFF : npTakeN labels (ffRavel F.length) = some ((ffRavel F.length).map (fun p => labels.getD p 0)) := by
    apply npTakeN_map
    intro p hp
    rw [mem_ffRavel] at hp
    rw [List.getD_eq_getElem?_getD, List.getElem?_eq_getElem (by omega)]; rfl
  obtain ⟨FF, hFFe⟩ : ∃ FF, FF = (ffRavel F.length).map (fun p => labels.getD p 0) := ⟨_, rfl⟩
  rw [← hFFe] at hFF
  have hFFmem : ∀ l, l ∈ FF ↔ l ∈ labels := by
    intro l
    rw [hFFe, List.mem_map, List.mem_iff_getElem?]
    constructor
    · rintro ⟨p, hp, rfl⟩
      rw [mem_ffRavel] at hp
      exact ⟨p, by rw [List.getD_eq_getElem?_getD, List.getElem?_eq_getElem (by omega)]; rfl⟩
    · rintro ⟨p, hp⟩
      refine ⟨p, ?_, by rw [List.getD_eq_getElem?_getD, hp]; rfl⟩
      rw [mem_ffRavel]
      have := (List.getElem?_eq_some_iff.mp hp).1
      omega
  have hmemI : ∀ v : ℕ, (v : Int) ∈ FF.map (fun k : ℕ => (k : Int)) ↔ v < k := by
    intro v; rw [← hlt, ← hFFmem]; simp
  have hneg : (-1 : Int) ∉ FF.map (fun k : ℕ => (k : Int)) := by
    simp only [List.mem_map, not_exists, not_and]; intro x _; omega
  have hk0 : 0 < k := by
    have h0 : labels[0]? = some labels[0] := List.getElem?_eq_getElem (by omega)
    have := (hlt _).mp (List.mem_of_getElem? h0); omega
  obtain ⟨W, F2, IM, J, r1, r2, r3, r4, -, -, -, -, r8, r9, r10, -⟩ := C16_remove_unreferenced VVd
    (FF.map (fun k : ℕ => (k : Int))) (by
      intro h
      have h0 := (hmemI 0).mpr hk0
      rw [h] at h0; simp at h0)
    (by intro x hx; rw [List.mem_map] at hx; obtain ⟨y, -, rfl⟩ := hx; omega)
    (by intro x hx; rw [List.mem_map] at hx; obtain ⟨y, hy, rfl⟩ := hx
        have := (hlt y).mp ((hFFmem y).mp hy); rw [v2]; simp; omega)
  rw [if_neg hneg, v2, List.length_replicate] at r8
  have hJ : J = List.range J.length := eq_range_of_consecutive r2 (fun l hl l' h => by
    rw [r3, hmemI] at hl ⊢; omega)
  have hJk : J.length = k := by
    have a : ∀ v, v ∈ J ↔ v < k := fun v => by rw [r3, hmemI]
    rw [hJ] at a
    simp only [List.mem_range] at a
    rcases lt_trichotomy J.length k with h | h | h
    · have := (a J.length).mpr h; omega
    · exact h
    · have := (a k).mp h; omega
  have hIM : IM = (List.range (3 * F.length)).map (fun j => if j < k then (j : Int) else -1) := by
    apply List.ext_getElem?
    intro j
    rw [List.getElem?_map]
    by_cases hj : j < 3 * F.length
    · rw [List.getElem?_range hj, Option.map_some]
      by_cases hjk : j < k
      · rw [if_pos hjk, r9 j j (by rw [hJ, List.getElem?_range (by omega)])]
      · rw [if_neg hjk, r10 j (by rw [v2]; simpa using hj) (fun h => hjk ((hmemI j).mp h))]
    · rw [List.getElem?_eq_none (by omega), List.getElem?_eq_none (by simp; omega)]; rfl
  have hI1 : I1 = (List.range (3 * F.length)).map (fun j => I1.getD j 0) := by
    apply List.ext_getElem (by simp [w2])
    intro j h1 h2
    rw [List.getElem_map, List.getElem_range, List.getD_eq_getElem?_getD, List.getElem?_eq_getElem h1]; rfl
  have hmask : npMask I1 (IM.map (fun x => decide (x < (W.length : Int) ∧ x ≥ 0))) = (List.range k).map (fun j => I1.getD j 0) := by
    conv_lhs => rw [hI1, hIM, List.map_map, npMask_map_map]
    congr 1
    rw [r4, hJk]
    have : ∀ j ∈ List.range (3 * F.length), ((fun x : Int => decide (x < (k : Int) ∧ x ≥ 0)) ∘ fun j : ℕ => if j < k then (j : Int) else -1) j =
        decide (j < k) := by
      intro j _
      simp only [Function.comp]
      split_ifs with h <;> simp [h]
    rw [List.filter_congr this]
    have hk3 : k ≤ 3 * F.length := by omega
    clear * - hk3
    generalize 3 * F.length = N at hk3
    induction N with
    | zero => obtain rfl : k = 0 := by omega
              rfl
    | succ N ih =>
      rw [List.range_succ, List.filter_append]
      by_cases h : k ≤ N
      · rw [ih h]; simp; omega
      · obtain rfl : k = N + 1 := by omega
        rw [List.filter_eq_self.mpr (by intro a ha; simp at ha; simp; omega), List.range_succ]; simp
  have hG : npTakeN IM FF = some (FF.map (fun l : ℕ => (l : Int))) := by
    apply npTakeN_map
    intro l hl
    have := (hlt l).mp ((hFFmem l).mp hl)
    rw [hIM, List.getElem?_map, List.getElem?_range (by omega), Option.map_some, if_pos this]
  refine ⟨FF.map (fun l : ℕ => (l : Int)), (List.range k).map (fun j => I1.getD j 0), ?_, ?_, ?_, ?_⟩
  · unfold cutRelabel
    dsimp only
    rw [v1, Option.bind_eq_bind, Option.bind_some, w1, Option.bind_eq_bind, Option.bind_some, hFF, Option.bind_eq_bind, Option.bind_some, r1]
    simp only [Option.bind_some]
    rw [if_neg (by rw [r8, w2]; simp), hG, Option.bind_some, hmask]
  · rw [List.length_map, hFFe, List.length_map]
    simp [ffRavel]; omega
  · intro f c hf
    have hp : c.val * F.length + f < labels.length := by
      rw [hlen]
      have := c.isLt
      have : c.val * F.length ≤ 2 * F.length := Nat.mul_le_mul_right _ (by omega)
      omega
    refine ⟨labels[c.val * F.length + f], List.getElem?_eq_getElem hp, ?_, ?_⟩
    · rw [List.getElem?_map, hFFe, List.getElem?_map, ffRavel_get hf, Option.map_some, Option.map_some,
        List.getD_eq_getElem?_getD, List.getElem?_eq_getElem hp]; rfl
    · have hmem := List.getElem_mem hp
      have hl := (hlt _).mp hmem
      obtain ⟨q, hq1, hq2⟩ := w3 _ hmem
      rw [List.getElem?_map, List.getElem?_range hl, Option.map_some, List.getD_eq_getElem?_getD, hq2,
        hsame (c.val * F.length + f) q hp (by rw [hq1, List.getElem?_eq_getElem hp])]
      have := (List.getElem?_eq_some_iff.mp hq1).1
      rw [List.getElem?_eq_getElem (by rw [length_ravelF]; omega)]; rfl
  · intro g hg
    simp at hg
    exact (hlt g).mpr hg

end Gpy
