import Verif.Model.LocalRemesh
import Verif.Props.MergeMeshes
import Verif.Props.RemoveUnreferenced
import Verif.Spec.Triangle
import Mathlib.Tactic.FinCases
import Mathlib.Tactic.IntervalCases
import Mathlib.Data.Finset.Card
import Mathlib.Data.Finset.Range
import Mathlib.Data.Fintype.Fin

/-!
# C138: output-sensitive remeshing leaves the rest of the mesh alone
-/

set_option autoImplicit false
namespace Gpy.Local
open Np Gpy.Merge

variable {K : Type} [Field K] [LinearOrder K] [IsStrictOrderedRing K] [FloorRing K]

/-- Specification: the faces number `f` and `g` have a common corner. -/
def Touch (F : List Tri) (f g : ℕ) : Prop := ∃ (t u : Tri) (i j : Fin 3), F[f]? = some t ∧ F[g]? = some u ∧ Tri.corner t i = Tri.corner u j

/-- Specification: face `f` is within two rings of a face of the list `inv`: it touches a face that touches one of `inv`. -/
def Close (F : List Tri) (inv : List ℕ) (f : ℕ) : Prop := ∃ g, Touch F f g ∧ ∃ h ∈ inv, Touch F g h

/-- Specification: `V', G` is the part of the mesh `V, F` with the faces `idx`, in this order, and with the vertices these use. -/
structure IsPart (V : List (List K)) (F : List Tri) (idx : List ℕ) (V' : List (List K)) (G : List Tri) : Prop where
  len : G.length = idx.length
  face : ∀ (k f : ℕ) (t : Tri), idx[k]? = some f → F[f]? = some t → ∃ u, G[k]? = some u ∧ ∀ i, ∃ x, V'[Tri.corner u i]? = some x ∧ V[Tri.corner t i]? = some x
  used : ∀ v < V'.length, ∃ u ∈ G, ∃ i, Tri.corner u i = v

theorem rows_spec {F : List Tri} {idx : List ℕ} (h : ∀ f ∈ idx, f < F.length) : ∃ G, rows F idx = some G ∧ G.length = idx.length ∧ ∀ k f : ℕ, idx[k]? = some f → G[k]? = F[f]? := by
  unfold rows
  induction idx with
  | nil => exact ⟨[], rfl, rfl, by simp⟩
  | cons a t ih =>
    obtain ⟨r, h1, h2, h3⟩ := ih (fun i hi => h i (by simp [hi]))
    have ha := h a (by simp)
    refine ⟨F[a] :: r, ?_, by simp [h2], ?_⟩
    · rw [List.mapM_cons, h1, List.getElem?_eq_getElem ha]
      rfl
    · intro k i hk
      cases k with
      | zero =>
        simp only [List.getElem?_cons_zero, Option.some.injEq] at hk ⊢
        rw [← hk, List.getElem?_eq_getElem ha]
      | succ k => exact h3 k i (by simpa using hk)

theorem mem_corners {t : Tri} {v : ℕ} : v ∈ [t.a, t.b, t.c] ↔ ∃ i, Tri.corner t i = v := by
  simp only [List.mem_cons, List.not_mem_nil, or_false]
  constructor
  · rintro (rfl | rfl | rfl)
    · exact ⟨0, rfl⟩
    · exact ⟨1, rfl⟩
    · exact ⟨2, rfl⟩
  · rintro ⟨i, rfl⟩
    fin_cases i <;> simp [Tri.corner]

theorem mem_flat3 {F : List Tri} {v : ℕ} : v ∈ flat3 F ↔ ∃ t ∈ F, ∃ i, Tri.corner t i = v := by
  unfold flat3
  simp only [List.mem_flatMap, mem_corners]

theorem oneRing_spec {F : List Tri} {act : List ℕ} (h : ∀ f ∈ act, f < F.length) :
    ∃ L, oneRing F act = some L ∧ L.Pairwise (· < ·) ∧ ∀ f, f ∈ L ↔ ∃ g ∈ act, Touch F f g := by
  obtain ⟨G, h1, h2, h3⟩ := rows_spec h
  refine ⟨_, by unfold oneRing; rw [h1]; rfl, List.Pairwise.filter _ List.pairwise_lt_range, ?_⟩
  intro f
  have hG : ∀ u, u ∈ G ↔ ∃ g ∈ act, F[g]? = some u := by
    intro u
    constructor
    · intro hu
      obtain ⟨k, hk, rfl⟩ := List.getElem_of_mem hu
      have hk' : k < act.length := by omega
      refine ⟨act[k], List.getElem_mem hk', ?_⟩
      rw [← h3 k _ (List.getElem?_eq_getElem hk'), List.getElem?_eq_getElem hk]
    · rintro ⟨g, hg, hu⟩
      obtain ⟨k, hk, rfl⟩ := List.getElem_of_mem hg
      rw [← h3 k _ (List.getElem?_eq_getElem hk)] at hu
      exact List.mem_of_getElem? hu
  rw [List.mem_filter, List.mem_range, List.any_eq_true]
  constructor
  · rintro ⟨hf, v, hv, hm⟩
    rw [decide_eq_true_eq, mem_flat3] at hm
    obtain ⟨u, hu, j, rfl⟩ := hm
    obtain ⟨g, hg, hgu⟩ := (hG u).1 hu
    rw [List.getElem?_eq_getElem hf] at hv
    simp only [Option.toList_some, List.flatMap_cons, List.flatMap_nil, List.append_nil] at hv
    obtain ⟨i, hi⟩ := mem_corners.1 hv
    exact ⟨g, hg, _, u, i, j, List.getElem?_eq_getElem hf, hgu, hi⟩
  · rintro ⟨g, hg, t, u, i, j, ht, hu, he⟩
    refine ⟨(List.getElem?_eq_some_iff.1 ht).1, Tri.corner u j, ?_, ?_⟩
    · rw [ht]
      simp only [Option.toList_some, List.flatMap_cons, List.flatMap_nil, List.append_nil]
      exact mem_corners.2 ⟨i, he⟩
    · rw [decide_eq_true_eq, mem_flat3]
      exact ⟨u, (hG u).2 ⟨g, hg, hu⟩, j, rfl⟩

theorem touch_self {F : List Tri} {f : ℕ} (h : f < F.length) : Touch F f f := ⟨_, _, 0, 0, List.getElem?_eq_getElem h, List.getElem?_eq_getElem h, rfl⟩

theorem touch_lt {F : List Tri} {f g : ℕ} (h : Touch F f g) : f < F.length := by
  obtain ⟨t, u, i, j, ht, -, -⟩ := h
  exact (List.getElem?_eq_some_iff.1 ht).1

theorem chunk3_flat3 (F : List Tri) : chunk3 (flat3 F) = F := by
  induction F with
  | nil => rfl
  | cons t F ih => exact congrArg (t :: ·) ih

theorem chunk3_spec : ∀ (n : ℕ) (l : List ℕ), l.length = 3 * n → (chunk3 l).length = n ∧ flat3 (chunk3 l) = l
  | 0, l, h => by
    have : l = [] := List.length_eq_zero_iff.1 (by omega)
    subst this
    exact ⟨rfl, rfl⟩
  | n + 1, a :: b :: c :: l, h => by
    obtain ⟨h1, h2⟩ := chunk3_spec n l (by simp only [List.length_cons] at h; omega)
    exact ⟨by simp [chunk3, h1], by show a :: b :: c :: flat3 (chunk3 l) = _; rw [h2]⟩
  | n + 1, [], h => by simp at h
  | n + 1, [a], h => by simp at h; omega
  | n + 1, [a, b], h => by simp at h; omega

theorem flat3_length (F : List Tri) : (flat3 F).length = 3 * F.length := by
  induction F with
  | nil => rfl
  | cons t F ih =>
    show (t.a :: t.b :: t.c :: flat3 F).length = _
    simp only [List.length_cons, ih]
    omega

theorem flat3_get {F : List Tri} {k : ℕ} {t : Tri} (h : F[k]? = some t) (i : Fin 3) : (flat3 F)[3 * k + i.val]? = some (Tri.corner t i) := by
  induction F generalizing k with
  | nil => simp at h
  | cons s F ih =>
    show (s.a :: s.b :: s.c :: flat3 F)[3 * k + i.val]? = _
    cases k with
    | zero =>
      simp only [List.getElem?_cons_zero, Option.some.injEq] at h
      subst h
      fin_cases i <;> rfl
    | succ k =>
      rw [show 3 * (k + 1) + i.val = (3 * k + i.val) + 1 + 1 + 1 by ring]
      simp only [List.getElem?_cons_succ]
      exact ih (by simpa using h)

theorem flat3_get_inv {F : List Tri} {k : ℕ} (i : Fin 3) {v : ℕ} (h : (flat3 F)[3 * k + i.val]? = some v) : ∃ t, F[k]? = some t ∧ Tri.corner t i = v := by
  have hk : k < F.length := by
    have := (List.getElem?_eq_some_iff.1 h).1
    rw [flat3_length] at this
    omega
  refine ⟨F[k], List.getElem?_eq_getElem hk, ?_⟩
  have := flat3_get (List.getElem?_eq_getElem hk) i
  rw [h] at this
  exact (Option.some.inj this).symm

theorem part_spec {V : List (List K)} {F : List Tri} {idx : List ℕ} (hF : InRange F V.length) (h : ∀ f ∈ idx, f < F.length) (hne : idx ≠ []) :
    ∃ V' G, part V F idx = some (V', G) ∧ IsPart V F idx V' G ∧ (∀ v ∈ flat3 G, v < V'.length) := by
  obtain ⟨G, h1, h2, h3⟩ := rows_spec h
  have hGF : ∀ u ∈ G, u ∈ F := by
    intro u hu
    obtain ⟨k, hk, rfl⟩ := List.getElem_of_mem hu
    have hk' : k < idx.length := by omega
    have := h3 k _ (List.getElem?_eq_getElem hk')
    rw [List.getElem?_eq_getElem hk] at this
    exact List.mem_of_getElem? this.symm
  have hlt : ∀ v ∈ flat3 G, v < V.length := by
    intro v hv
    obtain ⟨t, ht, i, rfl⟩ := mem_flat3.1 hv
    have := hF t (hGF t ht)
    fin_cases i
    · exact this.1
    · exact this.2.1
    · exact this.2.2
  have hne' : (flat3 G).map (fun v : ℕ => (v : Int)) ≠ [] := by
    have : 0 < idx.length := List.length_pos_iff.2 hne
    intro hc
    have := congrArg List.length hc
    rw [List.length_map, flat3_length, List.length_nil] at this
    omega
  obtain ⟨V2, F2, I, J, r1, r2, r3, r4, r5, r6, -, r7, -⟩ := C16_remove_unreferenced V _ hne' (by simp) (by simpa using hlt)
  have hlen : (F2.map Int.toNat).length = 3 * G.length := by rw [List.length_map, r6, List.length_map, flat3_length]
  obtain ⟨c1, c2⟩ := chunk3_spec G.length (F2.map Int.toNat) hlen
  have hrow : ∀ (k : ℕ) (t : Tri), G[k]? = some t → ∃ u, (chunk3 (F2.map Int.toNat))[k]? = some u ∧ ∀ i, ∃ x, V2[Tri.corner u i]? = some x ∧ V[Tri.corner t i]? = some x := by
    intro k t ht
    have hk : k < G.length := (List.getElem?_eq_some_iff.1 ht).1
    refine ⟨(chunk3 (F2.map Int.toNat))[k], List.getElem?_eq_getElem (by omega), ?_⟩
    intro i
    have hm : ((flat3 G).map (fun v : ℕ => (v : Int)))[3 * k + i.val]? = some ((Tri.corner t i : ℕ) : Int) := by
      rw [List.getElem?_map, flat3_get ht i]; rfl
    obtain ⟨j, j1, j2, x, j3, j4⟩ := r7 _ _ hm
    have hg := flat3_get (List.getElem?_eq_getElem (show k < (chunk3 (F2.map Int.toNat)).length by omega)) i
    rw [c2, List.getElem?_map, j1] at hg
    have : Tri.corner (chunk3 (F2.map Int.toNat))[k] i = j := by simpa using hg.symm
    rw [this]
    exact ⟨x, j3, j4⟩
  refine ⟨V2, chunk3 (F2.map Int.toNat), by unfold part; rw [h1, Option.bind_some, r1]; rfl, ⟨by rw [c1, h2], ?_, ?_⟩, ?_⟩
  · intro k f t hk ht
    exact hrow k t (by rw [h3 k f hk, ht])
  · intro v hv
    have hv' : v < J.length := by omega
    have hJ : ((J[v] : ℕ) : Int) ∈ (flat3 G).map (fun v : ℕ => (v : Int)) := (r3 _).1 (List.getElem_mem hv')
    rw [List.mem_map] at hJ
    obtain ⟨w, hw, hwe⟩ := hJ
    have hwe : w = J[v] := by exact_mod_cast hwe
    obtain ⟨q, hq, hq2⟩ := List.getElem_of_mem hw
    have hqs : ((flat3 G).map (fun v : ℕ => (v : Int)))[q]? = some ((J[v] : ℕ) : Int) := by
      rw [List.getElem?_map, List.getElem?_eq_getElem hq, hq2, hwe]; rfl
    obtain ⟨j, j1, j2, -⟩ := r7 q _ hqs
    have hjv : j = v := by
      obtain ⟨hj, hje⟩ := List.getElem?_eq_some_iff.1 j2
      exact (List.Nodup.getElem_inj_iff (r2.imp (fun h => ne_of_lt h))).1 hje
    have : v ∈ flat3 (chunk3 (F2.map Int.toNat)) := by
      rw [c2, List.mem_map]
      exact ⟨(j : Int), List.mem_of_getElem? j1, by rw [hjv]; rfl⟩
    exact mem_flat3.1 this
  · intro v hv
    obtain ⟨u, hu, i, rfl⟩ := mem_flat3.1 hv
    obtain ⟨k, hk, rfl⟩ := List.getElem_of_mem hu
    obtain ⟨u', hu', hx⟩ := hrow k G[k] (List.getElem?_eq_getElem (by omega))
    rw [List.getElem?_eq_getElem hk, Option.some.injEq] at hu'
    obtain ⟨x, hx1, -⟩ := hx i
    rw [hu']
    exact (List.getElem?_eq_some_iff.1 hx1).1

/-- **C138** (what is remeshed) Let some samples be violated; `inv` are the faces closest to them.  The remesher is given exactly the faces that are within two rings of these, in place, and if these are all faces the
whole mesh is remeshed. -/
theorem C138_active (ε : K) (remesh : List (List K) → List Tri → Option (List (List K) × List Tri)) (V : List (List K)) (F : List Tri) (inv : List ℕ) (hF : InRange F V.length)
    (hne : inv ≠ []) (hinv : ∀ f ∈ inv, f < F.length) :
    ∃ (act : List ℕ) (Va : List (List K)) (Fa : List Tri), act.Pairwise (· < ·) ∧ (∀ f, f ∈ act ↔ Close F inv f) ∧ (∀ f ∈ inv, f ∈ act) ∧ IsPart V F act Va Fa ∧
      ((∀ f < F.length, Close F inv f) → localRemesh ε remesh V F inv = remesh V F) ∧
      ((∃ f < F.length, ¬ Close F inv f) → ∃ (Vi : List (List K)) (Fi : List Tri) (far : List ℕ), far.Pairwise (· < ·) ∧ (∀ f, f ∈ far ↔ f < F.length ∧ ¬ Close F inv f) ∧ IsPart V F far Vi Fi ∧ (∀ v ∈ flat3 Fi, v < Vi.length) ∧
        localRemesh ε remesh V F inv = (remesh Va Fa).bind (fun A' => (merge3 ε A'.1 A'.2 Vi Fi).map (fun r => (r.1, chunk3 r.2)))) := by
  obtain ⟨L1, a1, -, a3⟩ := oneRing_spec hinv
  have hL1 : ∀ f ∈ L1, f < F.length := fun f hf => by obtain ⟨g, -, ht⟩ := (a3 f).1 hf; exact touch_lt ht
  obtain ⟨L2, b1, b2, b3⟩ := oneRing_spec hL1
  have hL2 : ∀ f ∈ L2, f < F.length := fun f hf => by obtain ⟨g, -, ht⟩ := (b3 f).1 hf; exact touch_lt ht
  have hcl : ∀ f, f ∈ L2 ↔ Close F inv f := by
    intro f
    rw [b3]
    constructor
    · rintro ⟨g, hg, ht⟩
      exact ⟨g, ht, (a3 g).1 hg⟩
    · rintro ⟨g, ht, hg⟩
      exact ⟨g, (a3 g).2 hg, ht⟩
  have hin : ∀ f ∈ inv, f ∈ L2 := fun f hf => (hcl f).2 ⟨f, touch_self (hinv f hf), f, hf, touch_self (hinv f hf)⟩
  have hL2ne : L2 ≠ [] := by
    obtain ⟨f, t, rfl⟩ := List.exists_cons_of_ne_nil hne
    exact List.ne_nil_of_mem (hin f (by simp))
  obtain ⟨Va, Fa, p1, p2, p3⟩ := part_spec hF hL2 hL2ne
  have hpos : 0 < L2.length := List.length_pos_iff.2 hL2ne
  have hsub : L2.toFinset ⊆ Finset.range F.length := fun f hf => Finset.mem_range.2 (hL2 f (List.mem_toFinset.1 hf))
  have hcard : L2.toFinset.card = L2.length := List.toFinset_card_of_nodup (b2.imp (fun h => ne_of_lt h))
  refine ⟨L2, Va, Fa, b2, hcl, hin, p2, ?_, ?_⟩
  · intro hall
    have : L2.toFinset = Finset.range F.length := Finset.Subset.antisymm hsub (fun f hf => List.mem_toFinset.2 ((hcl f).2 (hall f (Finset.mem_range.1 hf))))
    have hl : L2.length = F.length := by rw [← hcard, this, Finset.card_range]
    unfold localRemesh
    rw [a1, Option.bind_some, b1, Option.bind_some, p1, Option.bind_some, if_neg]
    rw [p2.len, hl]
    simp
  · rintro ⟨f0, hf0, hc0⟩
    set far := (List.range F.length).filter (fun f => decide (f ∉ L2)) with hfar
    have hm : ∀ f, f ∈ far ↔ f < F.length ∧ ¬ Close F inv f := by
      intro f
      rw [hfar, List.mem_filter, List.mem_range, decide_eq_true_eq, hcl]
    have hfne : far ≠ [] := List.ne_nil_of_mem ((hm f0).2 ⟨hf0, hc0⟩)
    obtain ⟨Vi, Fi, q1, q2, q3⟩ := part_spec hF (fun f hf => ((hm f).1 hf).1) hfne
    refine ⟨Vi, Fi, far, List.Pairwise.filter _ List.pairwise_lt_range, hm, q2, q3, ?_⟩
    have hlt : L2.length < F.length := by
      rw [← hcard]
      calc L2.toFinset.card < (Finset.range F.length).card := Finset.card_lt_card ⟨hsub, fun h => (hcl f0).not.2 hc0 (List.mem_toFinset.1 (h (Finset.mem_range.2 hf0)))⟩
        _ = F.length := Finset.card_range _
    unfold localRemesh
    rw [a1, Option.bind_some, b1, Option.bind_some, p1, Option.bind_some, if_pos ⟨by rw [p2.len]; exact hlt, by rw [p2.len]; exact hpos⟩, q1, Option.bind_some]

/-- **C138** (the rest stays) If some face is farther away, then whatever the remesher makes of the part it is given (a nonempty mesh `Va', Fa'` whose `b` boundary vertices come first, as `remesh_botsch` returns it), the
result consists of the faces that are farther away, in their old order and with their corners in place (up to the tolerance `ε` of the merging), and the faces `Fa'`, with theirs in place.  Where a boundary vertex of the new part has the
place of a vertex of the old one, the two are one vertex. -/
theorem C138_rest (ε : K) (hε : ε ≠ 0) (remesh : List (List K) → List Tri → Option (List (List K) × List Tri)) (V : List (List K)) (F : List Tri) (inv : List ℕ) (hF : InRange F V.length)
    (hne : inv ≠ []) (hinv : ∀ f ∈ inv, f < F.length) (hfar : ∃ f < F.length, ¬ Close F inv f) :
    ∃ (act : List ℕ) (Va : List (List K)) (Fa : List Tri), (∀ f, f ∈ act ↔ Close F inv f) ∧ IsPart V F act Va Fa ∧
      ∀ Va' Fa' b, remesh Va Fa = some (Va', Fa') → Fa' ≠ [] → b ≤ Va'.length → (∀ v, OnBoundary Fa' v ↔ v < b) → InRange Fa' Va'.length →
      ∃ (V' : List (List K)) (F' : List Tri) (far : List ℕ), localRemesh ε remesh V F inv = some (V', F') ∧ far.Pairwise (· < ·) ∧ (∀ f, f ∈ far ↔ f < F.length ∧ ¬ Close F inv f) ∧ F'.length = far.length + Fa'.length ∧
        (∀ (k f : ℕ) (t : Tri), far[k]? = some f → F[f]? = some t → ∃ u, F'[k]? = some u ∧ ∀ i, ∃ x y, V[Tri.corner t i]? = some x ∧ V'[Tri.corner u i]? = some y ∧ Near ε x y) ∧
        (∀ (k : ℕ) (t : Tri), Fa'[k]? = some t → ∃ u, F'[far.length + k]? = some u ∧ ∀ i, ∃ x y, Va'[Tri.corner t i]? = some x ∧ V'[Tri.corner u i]? = some y ∧ Near ε x y) ∧
        (∀ (k f : ℕ) (t : Tri) (k' : ℕ) (t' u u' : Tri) (i j : Fin 3), far[k]? = some f → F[f]? = some t → Fa'[k']? = some t' → F'[k]? = some u → F'[far.length + k']? = some u' → Tri.corner t' j < b →
          V[Tri.corner t i]? = Va'[Tri.corner t' j]? → Tri.corner u i = Tri.corner u' j) := by
  obtain ⟨act, Va, Fa, h1, h2, h3, h4, h5, h6⟩ := C138_active ε remesh V F inv hF hne hinv
  obtain ⟨Vi, Fi, far, f1, f2, f3, f4, f5⟩ := h6 hfar
  refine ⟨act, Va, Fa, h2, h4, ?_⟩
  intro Va' Fa' b hr hFa hb hbd hrange
  have ha : ∀ v ∈ flat3 Fa', v < Va'.length := by
    intro v hv
    obtain ⟨t, ht, i, rfl⟩ := mem_flat3.1 hv
    have := hrange t ht
    fin_cases i
    · exact this.1
    · exact this.2.1
    · exact this.2.2
  obtain ⟨W, G, σ, m1, m⟩ := C112_triangles ε hε Va' Fa' Vi Fi hFa b hb hbd ha f4
  have hGlen : G.length = 3 * (far.length + Fa'.length) := by
    rw [m.faces, List.length_map, List.length_append, List.length_map, flat3_length, flat3_length, f3.len]
    omega
  obtain ⟨c1, c2⟩ := chunk3_spec _ G hGlen
  have hold : ∀ (k : ℕ) (s : Tri), Fi[k]? = some s → ∃ u, (chunk3 G)[k]? = some u ∧ ∀ i, Tri.corner u i = σ (Tri.corner s i) := by
    intro k s hs
    have hk : k < Fi.length := (List.getElem?_eq_some_iff.1 hs).1
    have hk' : k < (chunk3 G).length := by rw [c1, ← f3.len]; omega
    refine ⟨_, List.getElem?_eq_getElem hk', fun i => ?_⟩
    have e1 := flat3_get (List.getElem?_eq_getElem hk') i
    rw [c2] at e1
    have e2 := congrArg (fun l : List ℕ => l[3 * k + i.val]?) m.faces
    rw [e2, List.getElem?_map, List.getElem?_append_left (by rw [flat3_length]; omega), flat3_get hs i] at e1
    simpa using e1.symm
  have hnew : ∀ (k : ℕ) (s : Tri), Fa'[k]? = some s → ∃ u, (chunk3 G)[far.length + k]? = some u ∧ ∀ i, Tri.corner u i = σ (Tri.corner s i + Vi.length) := by
    intro k s hs
    have hk : k < Fa'.length := (List.getElem?_eq_some_iff.1 hs).1
    have hk' : far.length + k < (chunk3 G).length := by rw [c1]; omega
    refine ⟨_, List.getElem?_eq_getElem hk', fun i => ?_⟩
    have e1 := flat3_get (List.getElem?_eq_getElem hk') i
    rw [c2] at e1
    have e2 := congrArg (fun l : List ℕ => l[3 * (far.length + k) + i.val]?) m.faces
    rw [e2, List.getElem?_map, List.getElem?_append_right (by rw [flat3_length, f3.len]; omega), flat3_length, f3.len,
      show 3 * (far.length + k) + i.val - 3 * far.length = 3 * k + i.val by omega, List.getElem?_map, flat3_get hs i] at e1
    simpa using e1.symm
  refine ⟨W, chunk3 G, far, ?_, f1, f2, c1, ?_, ?_, ?_⟩
  · rw [f5, hr, Option.bind_some, m1]; rfl
  · intro k f t hk ht
    obtain ⟨s, hs, hx⟩ := f3.face k f t hk ht
    obtain ⟨u, hu, hc⟩ := hold k s hs
    refine ⟨u, hu, fun i => ?_⟩
    obtain ⟨x, x1, x2⟩ := hx i
    have hlt := (List.getElem?_eq_some_iff.1 x1).1
    obtain ⟨y, y1, y2⟩ := m.place (Tri.corner s i) x (by rw [List.getElem?_append_left hlt]; exact x1)
    exact ⟨x, y, x2, by rw [hc i]; exact y1, y2⟩
  · intro k t ht
    obtain ⟨u, hu, hc⟩ := hnew k t ht
    refine ⟨u, hu, fun i => ?_⟩
    have hlt : Tri.corner t i < Va'.length := ha _ (mem_flat3.2 ⟨t, List.mem_of_getElem? ht, i, rfl⟩)
    obtain ⟨y, y1, y2⟩ := m.place (Tri.corner t i + Vi.length) Va'[Tri.corner t i] (by
      rw [List.getElem?_append_right (by omega), Nat.add_sub_cancel, List.getElem?_eq_getElem hlt])
    exact ⟨_, y, List.getElem?_eq_getElem hlt, by rw [hc i]; exact y1, y2⟩
  · intro k f t k' t' u u' i j hk ht ht' hu hu' hj he
    obtain ⟨s, hs, hx⟩ := f3.face k f t hk ht
    obtain ⟨u1, hu1, hc1⟩ := hold k s hs
    obtain ⟨u2, hu2, hc2⟩ := hnew k' t' ht'
    rw [hu] at hu1
    rw [hu'] at hu2
    cases hu1
    cases hu2
    rw [hc1 i, hc2 j]
    obtain ⟨x, x1, x2⟩ := hx i
    have hlt := (List.getElem?_eq_some_iff.1 x1).1
    refine C112_seam ε _ _ _ _ _ σ m _ _ x (by rw [List.getElem?_append_left hlt]; exact x1) (by rw [List.getElem?_append_right (by omega), Nat.add_sub_cancel, ← he, x2]) ?_ ?_
    · show ¬ _ ≤ _
      omega
    · show ¬ _ ≤ _
      omega

/-- a strip of six triangles -/
def exV : List (List ℚ) := [[0, 0, 0], [0, 1, 0], [1, 0, 0], [1, 1, 0], [2, 0, 0], [2, 1, 0], [3, 0, 0], [3, 1, 0]]
def exF : List Tri := [⟨0, 1, 2⟩, ⟨2, 1, 3⟩, ⟨2, 3, 4⟩, ⟨4, 3, 5⟩, ⟨4, 5, 6⟩, ⟨6, 5, 7⟩]

theorem exBoundary (v : ℕ) : OnBoundary exFa v ↔ v < 4 := by
  obtain ⟨L, h1, -, h3⟩ := C04_boundary_vertices exFa (by decide)
  have h4 : boundaryVertices exFa = some [0, 1, 2, 3] := by decide +kernel
  rw [h4] at h1
  have := h3 v
  rw [← Option.some.inj h1] at this
  unfold OnBoundary
  rw [← this]
  simp
  omega

/-- the hypotheses are met: the first face is violated, only the last one is farther away than two rings, and the remesher returns a square of four triangles -/
example : ∃ V' F', localRemesh (1 / 67108864) (fun _ _ => some (exVa, exFa)) exV exF [0] = some (V', F') ∧ 5 ≤ F'.length := by
  have hfar : ∃ f < exF.length, ¬ Close exF [0] f := by
    refine ⟨5, by decide, ?_⟩
    rintro ⟨g, ⟨t, u, i, j, ht, hu, he⟩, h, hm, t', u', i', j', ht', hu', he'⟩
    rw [List.mem_singleton] at hm
    subst hm
    have hu'' : (⟨0, 1, 2⟩ : Tri) = u' := by simpa [exF] using hu'
    have ht1 : (⟨6, 5, 7⟩ : Tri) = t := by simpa [exF] using ht
    rw [hu] at ht'
    cases ht'
    subst ht1 hu''
    have hg : g < 6 := (List.getElem?_eq_some_iff.1 hu).1
    clear ht hu'
    interval_cases g <;> (simp only [exF, List.getElem?_cons_zero, List.getElem?_cons_succ, Option.some.injEq] at hu; subst hu; revert i j i' j'; decide)
  obtain ⟨act, Va, Fa, h1, h2, h3⟩ := C138_rest (1 / 67108864) (by norm_num) (fun _ _ => some (exVa, exFa)) exV exF [0] (by unfold InRange; decide) (by simp) (by decide) hfar
  obtain ⟨V', F', far, c1, -, c3, c4, -⟩ := h3 exVa exFa 4 rfl (by decide) (by decide) exBoundary (by unfold InRange; decide)
  refine ⟨V', F', c1, ?_⟩
  obtain ⟨f, hf, hc⟩ := hfar
  have : 0 < far.length := List.length_pos_of_mem ((c3 f).2 ⟨hf, hc⟩)
  rw [c4, show exFa.length = 4 from rfl]
  omega

end Gpy.Local
