import Verif.Spec.Flip
import Verif.Proofs.SplitInit
import Verif.Proofs.Subdivide

/-! What an edge flip does to the sides and the valences. -/

set_option autoImplicit false
namespace Gpy

theorem perm_set1 {α : Type} {l : List α} {i : ℕ} {x : α} (x' : α) (h : l[i]? = some x) : ∃ rest, l.Perm (x :: rest) ∧ (l.set i x').Perm (x' :: rest) := by
  induction l generalizing i with
  | nil => simp at h
  | cons y t ih =>
    cases i with
    | zero => simp at h; subst h; exact ⟨t, List.Perm.refl _, by simp⟩
    | succ i =>
      simp at h
      obtain ⟨rest, h1, h2⟩ := ih (by simpa using h)
      exact ⟨y :: rest, (h1.cons y).trans (List.Perm.swap _ _ _), by simpa using (h2.cons y).trans (List.Perm.swap _ _ _)⟩

theorem perm_set2 {α : Type} {l : List α} {i j : ℕ} {x y : α} (x' y' : α) (hij : i ≠ j) (hi : l[i]? = some x) (hj : l[j]? = some y) :
    ∃ rest, l.Perm (x :: y :: rest) ∧ ((l.set i x').set j y').Perm (x' :: y' :: rest) := by
  induction l generalizing i j with
  | nil => simp at hi
  | cons z t ih =>
    cases i with
    | zero =>
      cases j with
      | zero => exact absurd rfl hij
      | succ j =>
        simp at hi hj; subst hi
        obtain ⟨rest, h1, h2⟩ := perm_set1 y' hj
        exact ⟨rest, h1.cons _, by simpa using h2.cons x'⟩
    | succ i =>
      cases j with
      | zero =>
        simp at hi hj; subst hj
        obtain ⟨rest, h1, h2⟩ := perm_set1 x' hi
        exact ⟨rest, (h1.cons _).trans (List.Perm.swap _ _ _), by simpa using (h2.cons y').trans (List.Perm.swap _ _ _)⟩
      | succ j =>
        simp at hi hj
        obtain ⟨rest, h1, h2⟩ := ih (by omega) hi hj
        refine ⟨z :: rest, (h1.cons z).trans ?_, ?_⟩
        · exact (List.Perm.swap _ _ _).trans ((List.Perm.swap _ _ _).cons _)
        · simp only [List.set_cons_succ]
          exact (h2.cons z).trans ((List.Perm.swap _ _ _).trans ((List.Perm.swap _ _ _).cons _))

theorem pairwise_of_ne {α : Type} {R : α → α → Prop} (hR : ∀ x y, R x y → R y x) {l : List α} (h : l.Pairwise R) {a b : α} (ha : a ∈ l) (hb : b ∈ l) (hne : a ≠ b) : R a b := by
  induction l with
  | nil => simp at ha
  | cons x l ih =>
    rw [List.pairwise_cons] at h
    simp only [List.mem_cons] at ha hb
    rcases ha with rfl | ha <;> rcases hb with rfl | hb
    · exact absurd rfl hne
    · exact h.1 b hb
    · exact hR _ _ (h.1 a ha)
    · exact ih h.2 ha hb

theorem IsCyc.sides {t : Tri} {a b c : ℕ} (h : IsCyc t a b c) : [t.side 0, t.side 1, t.side 2].Perm [⟨a, b⟩, ⟨b, c⟩, ⟨c, a⟩] := by
  rcases h with rfl | rfl | rfl <;> simp only [Tri.side]
  · exact (List.perm_append_comm (l₁ := [(⟨b, c⟩ : Edge), ⟨c, a⟩]) (l₂ := [⟨a, b⟩]))
  · exact (List.perm_append_comm (l₁ := [(⟨c, a⟩ : Edge)]) (l₂ := [⟨a, b⟩, ⟨b, c⟩]))
  · exact List.Perm.refl _

theorem IsCyc.corners {t : Tri} {a b c : ℕ} (h : IsCyc t a b c) : [t.a, t.b, t.c].Perm [a, b, c] := by
  rcases h with rfl | rfl | rfl <;> simp only
  · exact List.Perm.refl _
  · exact (List.perm_append_comm (l₁ := [b, c]) (l₂ := [a]))
  · exact (List.perm_append_comm (l₁ := [c]) (l₂ := [a, b]))

theorem IsCyc.mem {t : Tri} {a b c : ℕ} (h : IsCyc t a b c) (v : ℕ) : (v = t.a ∨ v = t.b ∨ v = t.c) ↔ (v = a ∨ v = b ∨ v = c) := by
  rcases h with rfl | rfl | rfl <;> simp only <;> tauto

theorem IsCyc.nondeg {t : Tri} {a b c : ℕ} (h : IsCyc t a b c) : (t.a ≠ t.b ∧ t.b ≠ t.c ∧ t.c ≠ t.a) ↔ (a ≠ b ∧ b ≠ c ∧ c ≠ a) := by
  rcases h with rfl | rfl | rfl <;> simp only <;> tauto

theorem mem_sides_iff {F : List Tri} {e : Edge} : e ∈ sides F ↔ ∃ t ∈ F, e ∈ [t.side 0, t.side 1, t.side 2] := by
  unfold sides; simp only [List.mem_flatMap]

section
variable {v1 v2 v3 v4 : ℕ} {F F' : List Tri}

/-- the two triangle lists up to order -/
theorem IsFlip.perm (h : IsFlip v1 v2 v3 v4 F F') :
    ∃ t t' rest, IsCyc t v1 v2 v4 ∧ IsCyc t' v2 v1 v3 ∧ F.Perm (t :: t' :: rest) ∧ F'.Perm (⟨v1, v3, v4⟩ :: ⟨v2, v4, v3⟩ :: rest) := by
  obtain ⟨i, j, t, t', hij, hi, hj, ht, ht', rfl⟩ := h
  obtain ⟨rest, h1, h2⟩ := perm_set2 (⟨v1, v3, v4⟩ : Tri) ⟨v2, v4, v3⟩ hij hi hj
  exact ⟨t, t', rest, ht, ht', h1, h2⟩

/-- the sides before and after -/
theorem IsFlip.sides (h : IsFlip v1 v2 v3 v4 F F') :
    ∃ C, (sides F).Perm (⟨v1, v2⟩ :: ⟨v2, v1⟩ :: C) ∧ (sides F').Perm (⟨v3, v4⟩ :: ⟨v4, v3⟩ :: C) ∧
      (⟨v1, v3⟩ : Edge) ∈ C ∧ (⟨v3, v2⟩ : Edge) ∈ C ∧ (⟨v2, v4⟩ : Edge) ∈ C ∧ (⟨v4, v1⟩ : Edge) ∈ C := by
  obtain ⟨t, t', rest, ht, ht', h1, h2⟩ := h.perm
  refine ⟨⟨v2, v4⟩ :: ⟨v4, v1⟩ :: ⟨v1, v3⟩ :: ⟨v3, v2⟩ :: Gpy.sides rest, ?_, ?_, by simp, by simp, by simp, by simp⟩
  · refine (sides_perm_of_perm h1).trans ?_
    rw [sides_cons, sides_cons]
    refine (ht.sides.append (ht'.sides.append_right _)).trans ?_
    simp only [List.cons_append, List.nil_append]
    refine List.Perm.cons _ ?_
    refine (List.perm_append_comm_assoc [(⟨v2, v4⟩ : Edge), ⟨v4, v1⟩] [⟨v2, v1⟩] _).trans ?_
    simp
  · refine (sides_perm_of_perm h2).trans ?_
    rw [sides_cons, sides_cons]
    simp only [Tri.side, List.cons_append, List.nil_append]
    refine List.Perm.cons _ ?_
    refine (List.perm_append_comm_assoc [(⟨v4, v1⟩ : Edge), ⟨v1, v3⟩] [⟨v4, v3⟩] _).trans ?_
    simp only [List.cons_append, List.nil_append]
    refine List.Perm.cons _ ?_
    refine (List.perm_append_comm_assoc [(⟨v4, v1⟩ : Edge), ⟨v1, v3⟩, ⟨v3, v2⟩] [⟨v2, v4⟩] _).trans ?_
    simp only [List.cons_append, List.nil_append]
    exact List.Perm.refl _

theorem IsFlip.length (h : IsFlip v1 v2 v3 v4 F F') : F'.length = F.length := by
  obtain ⟨i, j, t, t', hij, hi, hj, ht, ht', rfl⟩ := h; simp

/-- the four vertices -/
theorem IsFlip.distinct (h : IsFlip v1 v2 v3 v4 F F') (hF : OrientedManifold F) :
    v1 ≠ v2 ∧ v2 ≠ v4 ∧ v4 ≠ v1 ∧ v1 ≠ v3 ∧ v3 ≠ v2 := by
  obtain ⟨t, t', rest, ht, ht', h1, h2⟩ := h.perm
  have y1 := ht.nondeg.mp (hF.2 t (h1.mem_iff.mpr (by simp)))
  have y2 := ht'.nondeg.mp (hF.2 t' (h1.mem_iff.mpr (by simp)))
  tauto

theorem IsFlip.oriented (h : IsFlip v1 v2 v3 v4 F F') (hF : OrientedManifold F) (hne : v3 ≠ v4) (hnew : ¬ ∃ e ∈ Gpy.sides F, Undir ⟨v3, v4⟩ e) : OrientedManifold F' := by
  obtain ⟨d1, d2, d3, d4, d5⟩ := h.distinct hF
  obtain ⟨C, s1, s2, _⟩ := h.sides
  obtain ⟨t, t', rest, ht, ht', h1, h2⟩ := h.perm
  constructor
  · have hn := s1.nodup_iff.mp hF.1
    rw [s2.nodup_iff]
    simp only [List.nodup_cons, List.mem_cons, not_or] at hn ⊢
    refine ⟨⟨by simp [hne], ?_⟩, ?_, hn.2.2⟩
    · intro hm; exact hnew ⟨_, s1.mem_iff.mpr (by simp [hm]), Or.inl rfl⟩
    · intro hm; exact hnew ⟨⟨v4, v3⟩, s1.mem_iff.mpr (by simp [hm]), Or.inr rfl⟩
  · intro u hu
    have := h2.mem_iff.mp hu
    simp only [List.mem_cons] at this
    rcases this with rfl | rfl | hr
    · exact ⟨d4, hne, d3⟩
    · exact ⟨d2, fun e => hne e.symm, d5⟩
    · exact hF.2 u (h1.mem_iff.mpr (by simp [hr]))

theorem IsFlip.count (h : IsFlip v1 v2 v3 v4 F F') (v : ℕ) :
    cornerCount F' v + (if v1 = v then 1 else 0) + (if v2 = v then 1 else 0) = cornerCount F v + (if v3 = v then 1 else 0) + (if v4 = v then 1 else 0) := by
  obtain ⟨t, t', rest, ht, ht', h1, h2⟩ := h.perm
  have key : ∀ (G : List Tri), cornerCount G v = (G.flatMap (fun t => [t.a, t.b, t.c])).count v := fun G => rfl
  have e1 : cornerCount F v = cornerCount (t :: t' :: rest) v := (h1.flatMap_right _).count_eq v
  have e2 : cornerCount F' v = cornerCount (⟨v1, v3, v4⟩ :: ⟨v2, v4, v3⟩ :: rest) v := (h2.flatMap_right _).count_eq v
  have c1 : [t.a, t.b, t.c].count v = [v1, v2, v4].count v := ht.corners.count_eq v
  have c2 : [t'.a, t'.b, t'.c].count v = [v2, v1, v3].count v := ht'.corners.count_eq v
  rw [e1, e2, key, key]
  simp only [List.flatMap_cons, List.count_append]
  rw [c1, c2]
  simp only [List.count_cons, List.count_nil, beq_iff_eq]
  omega

theorem IsFlip.range (h : IsFlip v1 v2 v3 v4 F F') {n : ℕ} (hF : InRange F n) : InRange F' n := by
  obtain ⟨t, t', rest, ht, ht', h1, h2⟩ := h.perm
  have y1 := hF t (h1.mem_iff.mpr (by simp))
  have y2 := hF t' (h1.mem_iff.mpr (by simp))
  have z1 : ∀ v, (v = v1 ∨ v = v2 ∨ v = v4) → v < n := by
    intro v hv; rcases (ht.mem v).mpr hv with rfl | rfl | rfl <;> tauto
  have z2 : ∀ v, (v = v2 ∨ v = v1 ∨ v = v3) → v < n := by
    intro v hv; rcases (ht'.mem v).mpr hv with rfl | rfl | rfl <;> tauto
  intro u hu
  have := h2.mem_iff.mp hu
  simp only [List.mem_cons] at this
  rcases this with rfl | rfl | hr
  · exact ⟨z1 v1 (by simp), z2 v3 (by simp), z1 v4 (by simp)⟩
  · exact ⟨z1 v2 (by simp), z1 v4 (by simp), z2 v3 (by simp)⟩
  · exact hF u (h1.mem_iff.mpr (by simp [hr]))

theorem IsFlip.lt (h : IsFlip v1 v2 v3 v4 F F') {n : ℕ} (hF : InRange F n) : v1 < n ∧ v2 < n ∧ v3 < n ∧ v4 < n := by
  obtain ⟨t, t', rest, ht, ht', h1, h2⟩ := h.perm
  have := (h.range hF) ⟨v1, v3, v4⟩ (h2.mem_iff.mpr (by simp))
  have := (h.range hF) ⟨v2, v4, v3⟩ (h2.mem_iff.mpr (by simp))
  simp only at *
  tauto

/-- the total deviation changes as the code computes it -/
theorem IsFlip.deviation (h : IsFlip v1 v2 v3 v4 F F') (hF : OrientedManifold F) (hne : v3 ≠ v4) {n : ℕ} (hn : ∀ v ∈ [v1, v2, v3, v4], v < n) :
    totalDeviation n F' - totalDeviation n F =
      (|(cornerCount F v1 : ℤ) - 1 - 6| + |(cornerCount F v2 : ℤ) - 6 - 1| + |(cornerCount F v4 : ℤ) - 6 + 1| + |(cornerCount F v3 : ℤ) - 6 + 1|) -
      (|(cornerCount F v1 : ℤ) - 6| + |(cornerCount F v2 : ℤ) - 6| + |(cornerCount F v4 : ℤ) - 6| + |(cornerCount F v3 : ℤ) - 6|) := by
  obtain ⟨d1, d2, d3, d4, d5⟩ := h.distinct hF
  have hsub : ({v1, v2, v3, v4} : Finset ℕ) ⊆ Finset.range n := by
    intro v hv; simp only [Finset.mem_insert, Finset.mem_singleton] at hv
    exact Finset.mem_range.mpr (hn v (by simpa using hv))
  unfold totalDeviation
  rw [← Finset.sum_sub_distrib, ← Finset.sum_subset hsub]
  · rw [Finset.sum_insert (by simp; tauto), Finset.sum_insert (by simp; tauto), Finset.sum_insert (by simp; tauto), Finset.sum_singleton]
    have c1 := h.count v1
    have c2 := h.count v2
    have c3 := h.count v3
    have c4 := h.count v4
    simp only [if_true, if_neg d1, if_neg d1.symm, if_neg d2, if_neg d2.symm, if_neg d3, if_neg d3.symm, if_neg d4, if_neg d4.symm, if_neg d5, if_neg d5.symm,
      if_neg hne, if_neg hne.symm, add_zero] at c1 c2 c3 c4
    have e1 : (cornerCount F' v1 : ℤ) = cornerCount F v1 - 1 := by omega
    have e2 : (cornerCount F' v2 : ℤ) = cornerCount F v2 - 1 := by omega
    have e3 : (cornerCount F' v3 : ℤ) = cornerCount F v3 + 1 := by omega
    have e4 : (cornerCount F' v4 : ℤ) = cornerCount F v4 + 1 := by omega
    rw [e1, e2, e3, e4, show (cornerCount F v2 : ℤ) - 1 - 6 = cornerCount F v2 - 6 - 1 by ring, show (cornerCount F v3 : ℤ) + 1 - 6 = cornerCount F v3 - 6 + 1 by ring,
      show (cornerCount F v4 : ℤ) + 1 - 6 = cornerCount F v4 - 6 + 1 by ring]
    ring
  · intro v _ hv
    simp only [Finset.mem_insert, Finset.mem_singleton, not_or] at hv
    obtain ⟨x1, x2, x3, x4⟩ := hv
    have c := h.count v
    simp only [if_neg (Ne.symm x1), if_neg (Ne.symm x2), if_neg (Ne.symm x3), if_neg (Ne.symm x4), add_zero] at c
    rw [c, sub_self]

theorem IsFlip.swap (h : IsFlip v1 v2 v3 v4 F F') : IsFlip v2 v1 v4 v3 F F' := by
  obtain ⟨i, j, t, t', hij, hi, hj, ht, ht', rfl⟩ := h
  refine ⟨j, i, t', t, Ne.symm hij, hj, hi, ht', ht, ?_⟩
  rw [List.set_comm _ _ hij]

/-- a side of a consistently oriented mesh determines the opposite corner -/
theorem third_corner (hF : OrientedManifold F) {t t' : Tri} {a b c c' : ℕ} (ht : t ∈ F) (ht' : t' ∈ F) (h : IsCyc t a b c) (h' : IsCyc t' a b c') : c = c' := by
  have hab := (h.nondeg.mp (hF.2 t ht))
  have hab' := (h'.nondeg.mp (hF.2 t' ht'))
  have hm : (⟨a, b⟩ : Edge) ∈ [t.side 0, t.side 1, t.side 2] := h.sides.mem_iff.mpr (by simp)
  have hm' : (⟨a, b⟩ : Edge) ∈ [t'.side 0, t'.side 1, t'.side 2] := h'.sides.mem_iff.mpr (by simp)
  by_cases he : t = t'
  · subst he
    have e1 := (h.mem c).mpr (by simp)
    have e2 := (h'.mem c).mp e1
    rcases e2 with e2 | e2 | e2
    · exact absurd e2 hab.2.2
    · exact absurd e2.symm hab.2.1
    · exact e2
  · exfalso
    have hn := hF.1
    unfold Gpy.sides at hn
    rw [List.nodup_flatMap] at hn
    have hp := hn.2
    exact pairwise_of_ne (fun x y h => h.symm) hp ht ht' he hm hm'

theorem GoodFlip.swap {V : ℕ → V3 ℝ} {feature : List ℕ} {fe : List Edge} (h : GoodFlip V feature fe v1 v2 v3 v4 F F') : GoodFlip V feature fe v2 v1 v4 v3 F F' := by
  obtain ⟨h1, h2, h3, h4, h5, h6⟩ := h
  have hu : ∀ (a b : ℕ) (e : Edge), Undir ⟨a, b⟩ e ↔ Undir ⟨b, a⟩ e := by
    intro a b e; obtain ⟨x, y⟩ := e; rw [undir_iff, undir_iff]; tauto
  refine ⟨h1.swap, ?_, by tauto, ⟨Ne.symm h4.1, ?_⟩, ?_, ?_⟩
  · simpa only [hu v2 v1] using h2
  · simpa only [hu v4 v3] using h4.2
  · intro n hn; exact h5 n (by simp only [List.mem_cons, List.not_mem_nil, or_false] at hn ⊢; intro v hv; exact hn v (by tauto))
  · intro old ho new hn
    exact h6 old (by simp only [List.mem_cons, List.not_mem_nil, or_false] at ho ⊢; tauto) new (by simp only [List.mem_cons, List.not_mem_nil, or_false] at hn ⊢; tauto)

/-- two flips of the same edge have the same opposite corners -/
theorem IsFlip.corners {w3 w4 : ℕ} {F'' : List Tri} (hF : OrientedManifold F) (h : IsFlip v1 v2 v3 v4 F F') (h' : IsFlip v1 v2 w3 w4 F F'') : w3 = v3 ∧ w4 = v4 := by
  obtain ⟨i, j, t, t', hij, hi, hj, ht, ht', rfl⟩ := h
  obtain ⟨i', j', s, s', hij', hi', hj', hs, hs', rfl⟩ := h'
  exact ⟨third_corner hF (List.mem_of_getElem? hj') (List.mem_of_getElem? hj) hs' ht', third_corner hF (List.mem_of_getElem? hi') (List.mem_of_getElem? hi) hs ht⟩

end
end Gpy
