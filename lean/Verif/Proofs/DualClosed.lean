import Verif.Spec.DualMesh
import Mathlib.Tactic.Linarith
import Mathlib.Tactic.IntervalCases
import Mathlib.Data.List.Nodup
import Mathlib.Data.List.Perm.Basic

/-! How many quads of a dual mesh share a side. -/

set_option autoImplicit false
namespace Gpy.Dual

/-- the edges of the face between the cell `c` and the next one along `x` -/
def faceRing (x : Fin 3) (c : Ijk) : List GEdge :=
  let y := (across x).1
  let z := (across x).2
  let w := up x c
  [⟨y, w⟩, ⟨y, up z w⟩, ⟨z, w⟩, ⟨z, up y w⟩]

theorem faceRing_nodup (x : Fin 3) (c : Ijk) : (faceRing x c).Nodup := by
  obtain ⟨i, j, k⟩ := c
  fin_cases x <;> simp [faceRing, across, up]

/-- two cells on two sides of a face, in any order -/
theorem side_face (g : Grid) (e : GEdge) (he : g.Inner e) (x : Fin 3) (c : Ijk) :
    (s(around e 0, around e 1) = s(c, up x c) ∨ s(around e 1, around e 2) = s(c, up x c) ∨ s(around e 2, around e 3) = s(c, up x c) ∨ s(around e 3, around e 0) = s(c, up x c)) ↔ e ∈ faceRing x c := by
  obtain ⟨ax, i, j, k⟩ := e
  obtain ⟨a, b, d⟩ := c
  unfold Grid.Inner at he
  constructor
  · rintro (h | h | h | h) <;> fin_cases ax <;> fin_cases x <;> simp [faceRing, across, up, around, down] at he h ⊢ <;> omega
  · intro h
    fin_cases ax <;> fin_cases x <;> simp [faceRing, across, up] at he h <;> rcases h with ⟨rfl, rfl, rfl⟩ | ⟨rfl, rfl, rfl⟩ <;> simp [around, across, up, down] <;> omega

theorem side_is_face (g : Grid) (e : GEdge) (he : g.Inner e) : ∀ σ : Sym2 Ijk,
    (σ = s(around e 0, around e 1) ∨ σ = s(around e 1, around e 2) ∨ σ = s(around e 2, around e 3) ∨ σ = s(around e 3, around e 0)) → ∃ x c, σ = s(c, up x c) := by
  obtain ⟨ax, i, j, k⟩ := e
  unfold Grid.Inner at he
  intro σ hσ
  fin_cases ax
  · simp at he
    rcases hσ with rfl | rfl | rfl | rfl
    · exact ⟨1, (i, j - 1, k - 1), by simp [around, across, up, down]; omega⟩
    · exact ⟨2, (i, j, k - 1), by simp [around, across, up, down]; omega⟩
    · exact ⟨1, (i, j - 1, k), by simp [around, across, up, down]; omega⟩
    · exact ⟨2, (i, j - 1, k - 1), by simp [around, across, up, down]; omega⟩
  · simp at he
    rcases hσ with rfl | rfl | rfl | rfl
    · exact ⟨0, (i - 1, j, k - 1), by simp [around, across, up, down]; omega⟩
    · exact ⟨2, (i, j, k - 1), by simp [around, across, up, down]; omega⟩
    · exact ⟨0, (i - 1, j, k), by simp [around, across, up, down]; omega⟩
    · exact ⟨2, (i - 1, j, k - 1), by simp [around, across, up, down]; omega⟩
  · simp at he
    rcases hσ with rfl | rfl | rfl | rfl
    · exact ⟨0, (i - 1, j - 1, k), by simp [around, across, up, down]; omega⟩
    · exact ⟨1, (i, j - 1, k), by simp [around, across, up, down]; omega⟩
    · exact ⟨0, (i - 1, j, k), by simp [around, across, up, down]; omega⟩
    · exact ⟨1, (i - 1, j - 1, k), by simp [around, across, up, down]; omega⟩

theorem around_inj (g : Grid) (e : GEdge) (he : g.Inner e) : Function.Injective (around e) := by
  obtain ⟨ax, i, j, k⟩ := e
  unfold Grid.Inner at he
  intro r r' h
  fin_cases ax <;> fin_cases r <;> fin_cases r' <;> simp [across, around, down] at he h ⊢ <;> omega

theorem ring_active (g : Grid) (e : GEdge) (he : g.Inner e) (hs : g.Changes e) (r : Fin 4) : g.Active (around e r) := by
  obtain ⟨ax, i, j, k⟩ := e
  have key : ∀ c : Ijk, (c.1 + 1 < g.nx ∧ c.2.1 + 1 < g.ny ∧ c.2.2 + 1 < g.nz) → (∃ a b d, corner c a b d = (i, j, k)) → (∃ a b d, corner c a b d = up ax (i, j, k)) → g.Active c := by
    rintro c ⟨h1, h2, h3⟩ ⟨a, b, d, e1⟩ ⟨a', b', d', e2⟩
    rcases hs with ⟨s1, s2⟩ | ⟨s1, s2⟩
    · exact ⟨h1, h2, h3, ⟨a, b, d, by rw [e1]; exact s1⟩, a', b', d', by rw [e2]; exact s2⟩
    · exact ⟨h1, h2, h3, ⟨a', b', d', by rw [e2]; exact s2⟩, a, b, d, by rw [e1]; exact s1⟩
  unfold Grid.Inner at he
  fin_cases ax <;> fin_cases r <;> refine key _ ?_ ?_ ?_ <;>
    simp [around, across, down, up, corner, Fin.exists_fin_two] at he ⊢ <;> omega

/-- a side between two numbered cells -/
theorem side_num (g : Grid) (num : Ijk → ℕ) (hn : Set.InjOn num {c | g.Active c}) (a b c d : Ijk) (ha : g.Active a) (hb : g.Active b) (hc : g.Active c) (hd : g.Active d) :
    s(num a, num b) = s(num c, num d) ↔ s(a, b) = s(c, d) := by
  simp only [Sym2.eq_iff]
  constructor
  · rintro (⟨h1, h2⟩ | ⟨h1, h2⟩)
    · exact Or.inl ⟨hn ha hc h1, hn hb hd h2⟩
    · exact Or.inr ⟨hn ha hd h1, hn hb hc h2⟩
  · rintro (⟨rfl, rfl⟩ | ⟨rfl, rfl⟩) <;> simp

theorem sides_ring (num : Ijk → ℕ) (e : GEdge) (q : Quad) (h : IsRing num e q) (σ : Sym2 ℕ) :
    σ ∈ q.sides ↔ σ = s(num (around e 0), num (around e 1)) ∨ σ = s(num (around e 1), num (around e 2)) ∨ σ = s(num (around e 2), num (around e 3)) ∨ σ = s(num (around e 3), num (around e 0)) := by
  rcases h with rfl | rfl
  · simp [Quad.sides]
  · simp only [Quad.sides, List.mem_cons, List.not_mem_nil, or_false]
    rw [Sym2.eq_swap (a := num (around e 0)) (b := num (around e 3)), Sym2.eq_swap (a := num (around e 3)) (b := num (around e 2)), Sym2.eq_swap (a := num (around e 2)) (b := num (around e 1)),
      Sym2.eq_swap (a := num (around e 1)) (b := num (around e 0))]
    tauto

theorem forall₂_countP {α β : Type} {R : α → β → Prop} {l : List α} {l' : List β} (h : List.Forall₂ R l l') (p : α → Bool) (q : β → Bool) (hpq : ∀ a ∈ l, ∀ b, R a b → (p a = q b)) :
    l.countP p = l'.countP q := by
  induction h with
  | nil => rfl
  | cons hab _ ih =>
    rw [List.countP_cons, List.countP_cons, ih (fun a ha => hpq a (List.mem_cons_of_mem _ ha)), hpq _ List.mem_cons_self _ hab]

open Classical in
/-- the number of quads at the face between two active cells is the number of inner edges of the face with a sign change -/
theorem count_face (g : Grid) (num : Ijk → ℕ) (hn : Set.InjOn num {c | g.Active c}) (L : List GEdge) (hL : L.Nodup) (hmem : ∀ e, e ∈ L ↔ g.Inner e ∧ g.Changes e) (F : List Quad)
    (hF : List.Forall₂ (IsRing num) L F) (x : Fin 3) (c : Ijk) (hc : g.Active c) (hc' : g.Active (up x c)) :
    F.countP (fun q => decide (s(num c, num (up x c)) ∈ q.sides)) = (faceRing x c).countP (fun e => decide (g.Inner e ∧ g.Changes e)) := by
  have h1 : L.countP (fun e => decide (e ∈ faceRing x c)) = F.countP (fun q => decide (s(num c, num (up x c)) ∈ q.sides)) := by
    refine forall₂_countP hF _ _ (fun e he q hq => ?_)
    obtain ⟨hi, hs⟩ := (hmem e).mp he
    have A := fun r => ring_active g e hi hs r
    rw [decide_eq_decide, sides_ring num e q hq, ← side_face g e hi x c]
    have N := fun r r' => side_num g num hn (around e r) (around e r') c (up x c) (A r) (A r') hc hc'
    rw [← N 0 1, ← N 1 2, ← N 2 3, ← N 3 0]
    simp only [eq_comm]
  rw [← h1, List.countP_eq_length_filter, List.countP_eq_length_filter]
  refine List.Perm.length_eq ((List.perm_ext_iff_of_nodup (hL.filter _) ((faceRing_nodup x c).filter _)).mpr (fun e => ?_))
  simp only [List.mem_filter, decide_eq_true_eq, hmem]
  tauto

/-- on a grid without zeros and with one sign on its boundary, every edge with a sign change is an inner edge -/
theorem changes_inner (g : Grid) (x : Fin 3) (c : Ijk) (hc : g.Active c) (hc' : g.Active (up x c)) (hb : (∀ v, g.Bdry v → 0 < g.at v) ∨ ∀ v, g.Bdry v → g.at v < 0)
    (e : GEdge) (he : e ∈ faceRing x c) (hs : g.Changes e) : g.Inner e := by
  by_contra hi
  have hB : g.Bdry e.v ∧ g.Bdry (up e.ax e.v) := by
    obtain ⟨h1, h2, h3, -⟩ := hc
    obtain ⟨h4, h5, h6, -⟩ := hc'
    obtain ⟨a, b, d⟩ := c
    fin_cases x <;> simp [faceRing, across] at he <;> rcases he with rfl | rfl | rfl | rfl <;>
      simp [Grid.Inner, up] at hi h1 h2 h3 h4 h5 h6 ⊢ <;> simp [Grid.Bdry, Grid.Vert] <;> omega
  rcases hb with hb | hb
  · have := hb _ hB.1; have := hb _ hB.2
    rcases hs with ⟨s1, s2⟩ | ⟨s1, s2⟩ <;> linarith
  · have := hb _ hB.1; have := hb _ hB.2
    rcases hs with ⟨s1, s2⟩ | ⟨s1, s2⟩ <;> linarith

theorem face_verts (g : Grid) (x : Fin 3) (c : Ijk) (hc' : g.Active (up x c)) : let w := up x c
    g.Vert w ∧ g.Vert (up (across x).1 w) ∧ g.Vert (up (across x).2 w) ∧ g.Vert (up (across x).1 (up (across x).2 w)) := by
  obtain ⟨h4, h5, h6, -⟩ := hc'
  obtain ⟨a, b, d⟩ := c
  fin_cases x <;> simp [across, up, Grid.Vert] at h4 h5 h6 ⊢ <;> omega

theorem up_comm (x y : Fin 3) (c : Ijk) : up x (up y c) = up y (up x c) := by
  fin_cases x <;> fin_cases y <;> rfl

open Classical in
/-- the number of sign changes round a face without zeros -/
theorem parity (g : Grid) (x : Fin 3) (c : Ijk) (hc' : g.Active (up x c)) (hz : ∀ v, g.Vert v → g.at v ≠ 0) :
    (faceRing x c).countP (fun e => decide (g.Changes e)) = 0 ∨ (faceRing x c).countP (fun e => decide (g.Changes e)) = 2 ∨ (faceRing x c).countP (fun e => decide (g.Changes e)) = 4 := by
  obtain ⟨v1, v2, v3, v4⟩ := face_verts g x c hc'
  have z1 := hz _ v1
  have z2 := hz _ v2
  have z3 := hz _ v3
  have z4 := hz _ v4
  rcases lt_or_gt_of_ne z1 with a1 | a1 <;> rcases lt_or_gt_of_ne z2 with a2 | a2 <;> rcases lt_or_gt_of_ne z3 with a3 | a3 <;> rcases lt_or_gt_of_ne z4 with a4 | a4 <;>
    simp [faceRing, List.countP_cons, Grid.Changes, up_comm (across x).2 (across x).1, a1, a2, a3, a4, not_lt.mpr a1.le, not_lt.mpr a2.le, not_lt.mpr a3.le, not_lt.mpr a4.le]

open Classical in
/-- every side belongs to 0, 2 or 4 quads -/
theorem sides_even (g : Grid) (n : ℕ) (F : List Quad) (h : IsDualMesh g n F) (hz : ∀ v, g.Vert v → g.at v ≠ 0) (hb : (∀ v, g.Bdry v → 0 < g.at v) ∨ ∀ v, g.Bdry v → g.at v < 0) (σ : Sym2 ℕ) :
    F.countP (fun q => decide (σ ∈ q.sides)) = 0 ∨ F.countP (fun q => decide (σ ∈ q.sides)) = 2 ∨ F.countP (fun q => decide (σ ∈ q.sides)) = 4 := by
  obtain ⟨num, hbij, L, hL, hmem, hF⟩ := h
  by_cases h0 : ∃ q ∈ F, σ ∈ q.sides
  swap
  · left
    rw [List.countP_eq_zero]
    intro q hq
    simp only [decide_eq_true_eq]
    exact fun hs => h0 ⟨q, hq, hs⟩
  obtain ⟨q, hq, hs⟩ := h0
  obtain ⟨e, he, hr⟩ : ∃ e ∈ L, IsRing num e q := by
    obtain ⟨i, hi, rfl⟩ := List.mem_iff_getElem.mp hq
    have hi' : i < L.length := by rw [hF.length_eq]; exact hi
    exact ⟨L[i], List.getElem_mem hi', List.Forall₂.get hF hi' hi⟩
  obtain ⟨hi, hch⟩ := (hmem e).mp he
  obtain ⟨x, c, hx, hA, hA'⟩ : ∃ x c, σ = s(num c, num (up x c)) ∧ g.Active c ∧ g.Active (up x c) := by
    have A := fun r => ring_active g e hi hch r
    have key : ∀ r r', σ = s(num (around e r), num (around e r')) → (∃ x c, s(around e r, around e r') = s(c, up x c)) → ∃ x c, σ = s(num c, num (up x c)) ∧ g.Active c ∧ g.Active (up x c) := by
      rintro r r' hσ ⟨x, c, hxc⟩
      refine ⟨x, c, ?_, ?_⟩
      · rw [hσ]
        rcases Sym2.eq_iff.mp hxc with ⟨h1, h2⟩ | ⟨h1, h2⟩
        · rw [h1, h2]
        · rw [h1, h2]; exact Sym2.eq_swap
      · rcases Sym2.eq_iff.mp hxc with ⟨h1, h2⟩ | ⟨h1, h2⟩
        · exact ⟨h1 ▸ A r, h2 ▸ A r'⟩
        · exact ⟨h2 ▸ A r', h1 ▸ A r⟩
    have S := side_is_face g e hi
    rcases (sides_ring num e q hr σ).mp hs with h1 | h1 | h1 | h1
    · exact key _ _ h1 (S _ (by tauto))
    · exact key _ _ h1 (S _ (by tauto))
    · exact key _ _ h1 (S _ (by tauto))
    · exact key _ _ h1 (S _ (by tauto))
  rw [hx, count_face g num hbij.injOn L hL hmem F hF x c hA hA']
  have : (faceRing x c).countP (fun e => decide (g.Inner e ∧ g.Changes e)) = (faceRing x c).countP (fun e => decide (g.Changes e)) := by
    refine List.countP_congr (fun e he => ?_)
    simp only [decide_eq_true_eq]
    exact ⟨fun h => h.2, fun h => ⟨changes_inner g x c hA hA' hb e he h, h⟩⟩
  rw [this]
  exact parity g x c hA' hz

theorem quads_distinct (g : Grid) (n : ℕ) (F : List Quad) (h : IsDualMesh g n F) : ∀ q ∈ F, [q.a, q.b, q.c, q.d].Nodup ∧ q.a < n ∧ q.b < n ∧ q.c < n ∧ q.d < n := by
  obtain ⟨num, hbij, L, hL, hmem, hF⟩ := h
  intro q hq
  obtain ⟨e, he, hr⟩ : ∃ e ∈ L, IsRing num e q := by
    obtain ⟨i, hi, rfl⟩ := List.mem_iff_getElem.mp hq
    have hi' : i < L.length := by rw [hF.length_eq]; exact hi
    exact ⟨L[i], List.getElem_mem hi', List.Forall₂.get hF hi' hi⟩
  obtain ⟨hi, hch⟩ := (hmem e).mp he
  have A := fun r => ring_active g e hi hch r
  have N : ∀ r r', r ≠ r' → num (around e r) ≠ num (around e r') := fun r r' hne heq => hne (around_inj g e hi (hbij.injOn (A r) (A r') heq))
  have M : ∀ r, num (around e r) < n := fun r => hbij.mapsTo (A r)
  rcases hr with rfl | rfl
  · refine ⟨?_, M 0, M 1, M 2, M 3⟩
    simp only [List.nodup_cons, List.mem_cons, List.not_mem_nil, or_false, not_or, not_false_eq_true, List.nodup_nil, and_true]
    exact ⟨⟨N 0 1 (by decide), N 0 2 (by decide), N 0 3 (by decide)⟩, ⟨N 1 2 (by decide), N 1 3 (by decide)⟩, N 2 3 (by decide)⟩
  · refine ⟨?_, M 0, M 3, M 2, M 1⟩
    simp only [List.nodup_cons, List.mem_cons, List.not_mem_nil, or_false, not_or, not_false_eq_true, List.nodup_nil, and_true]
    exact ⟨⟨N 0 3 (by decide), N 0 2 (by decide), N 0 1 (by decide)⟩, ⟨N 3 2 (by decide), N 3 1 (by decide)⟩, N 2 1 (by decide)⟩

end Gpy.Dual
