import Verif.Model.Dec
import Verif.Proofs.HalfedgeEdgeMapNM

namespace Gpy
open Np Finset

variable {K : Type} [Ring K]

theorem npMaxSucc_spec {F : List Tri} (hne : F ≠ []) : ∃ n, npMaxSucc F = some n ∧
    ∀ t ∈ F, t.a < n ∧ t.b < n ∧ t.c < n := by
  unfold npMaxSucc
  rw [if_neg hne]
  refine ⟨_, rfl, ?_⟩
  intro t ht
  have : ∀ (L : List Tri), t ∈ L → max t.a (max t.b t.c) ≤ L.foldr (fun t m => max (max t.a (max t.b t.c)) m) 0 := by
    intro L
    induction L with
    | nil => intro h; simp at h
    | cons a l ih =>
      intro h
      simp only [List.foldr_cons]
      rcases List.mem_cons.mp h with rfl | h
      · exact le_max_left _ _
      · exact (ih h).trans (le_max_right _ _)
  have := this F ht
  omega

theorem side_lt {F : List Tri} {n : ℕ} (h : ∀ t ∈ F, t.a < n ∧ t.b < n ∧ t.c < n) {e : Edge} (he : e ∈ sides F) :
    e.s < n ∧ e.t < n := by
  obtain ⟨f, t, i, hf, rfl⟩ := mem_sides.mp he
  obtain ⟨h1, h2, h3⟩ := h t (List.mem_of_getElem? hf)
  match i with
  | 0 => exact ⟨h2, h3⟩
  | 1 => exact ⟨h3, h1⟩
  | 2 => exact ⟨h1, h2⟩

theorem zip_replicate {α β : Type*} (l : List α) (n : ℕ) (c : β) (h : l.length = n) :
    l.zip (List.replicate n c) = l.map (fun a => (a, c)) := by
  subst h
  induction l with
  | nil => rfl
  | cons a t ih => simp [List.replicate_succ, ih]

theorem range_zip_zipIdx {α : Type*} (l : List α) : (List.range l.length).zip l = l.zipIdx.map (fun p => (p.2, p.1)) := by
  apply List.ext_getElem
  · simp
  · intro i h1 h2
    simp

/-- the triples of `decD0` -/
theorem decD0_trip {E : List Edge} {n : ℕ} (hE : ∀ e ∈ E, e.s < n ∧ e.t < n) (F : List Tri) :
    decD0 K F (some E) (some n) = some ⟨E.length, n,
      E.zipIdx.map (fun p => (p.2, p.1.s, (1 : K))) ++ E.zipIdx.map (fun p => (p.2, p.1.t, (-1 : K)))⟩ := by
  unfold decD0
  simp only [Option.bind_eq_bind, Option.bind_some]
  unfold csrMatrix
  rw [if_pos]
  · congr 2
    rw [zip3_append (by simp) (by simp)]
    have gen : ∀ (f : Edge → ℕ) (c : K), zip3 (List.range E.length) (E.map f) (List.replicate E.length c) =
        E.zipIdx.map (fun p => (p.2, f p.1, c)) := by
      intro f c
      unfold zip3
      rw [zip_replicate _ _ _ (by simp), List.map_map]
      have := range_zip_zipIdx (E.map ((fun a => (a, c)) ∘ f))
      rw [List.length_map] at this
      rw [this, List.zipIdx_map, List.map_map]
      rfl
    rw [gen, gen]
  · refine ⟨by simp, by simp, ?_, ?_⟩
    · intro i hi
      simpa using hi
    · intro j hj
      rw [List.mem_append, List.mem_map, List.mem_map] at hj
      rcases hj with ⟨e, he, rfl⟩ | ⟨e, he, rfl⟩
      · exact (hE e he).1
      · exact (hE e he).2

theorem d0_wf {E : List Edge} {n : ℕ} (hE : ∀ e ∈ E, e.s < n ∧ e.t < n) :
    (⟨E.length, n, E.zipIdx.map (fun p => (p.2, p.1.s, (1 : K))) ++ E.zipIdx.map (fun p => (p.2, p.1.t, (-1 : K)))⟩ :
      Csr K).WF := by
  intro t ht
  simp only [List.mem_append, List.mem_map] at ht
  rcases ht with ⟨⟨e, k⟩, hp, rfl⟩ | ⟨⟨e, k⟩, hp, rfl⟩ <;>
  · rw [List.mem_zipIdx_iff_getElem?] at hp
    have hm := List.mem_of_getElem? hp
    have := (List.getElem?_eq_some_iff.mp hp).1
    first | exact ⟨this, (hE e hm).1⟩ | exact ⟨this, (hE e hm).2⟩

theorem d0_mulVec {E : List Edge} {n : ℕ} (hE : ∀ e ∈ E, e.s < n ∧ e.t < n) (u : ℕ → K) (k : ℕ) :
    (⟨E.length, n, E.zipIdx.map (fun p => (p.2, p.1.s, (1 : K))) ++ E.zipIdx.map (fun p => (p.2, p.1.t, (-1 : K)))⟩ :
      Csr K).mulVec u k = ((E[k]?).map (fun e => u e.s - u e.t)).getD 0 := by
  rw [mulVec_eq _ (d0_wf hE)]
  simp only [List.map_append, List.sum_append, List.map_map]
  have h1 := sum_zipIdx_single E (fun e => u e.s) k 0
  have h2 := sum_zipIdx_single E (fun e => -u e.t) k 0
  simp only [Nat.zero_le, if_true, Nat.sub_zero] at h1 h2
  have e1 : (List.map ((fun t : ℕ × ℕ × K => if t.1 = k then t.2.2 * u t.2.1 else 0) ∘ fun p : Edge × ℕ => (p.2, p.1.s, 1))
      E.zipIdx) = List.map (fun p => if p.2 = k then u p.1.s else 0) E.zipIdx := by
    apply List.map_congr_left; intro p _; simp [Function.comp]
  have e2 : (List.map ((fun t : ℕ × ℕ × K => if t.1 = k then t.2.2 * u t.2.1 else 0) ∘ fun p : Edge × ℕ => (p.2, p.1.t, -1))
      E.zipIdx) = List.map (fun p => if p.2 = k then -u p.1.t else 0) E.zipIdx := by
    apply List.map_congr_left; intro p _; simp [Function.comp]
  rw [e1, e2, h1, h2]
  rcases E[k]? with _ | e
  · simp
  · simp [sub_eq_add_neg]

/-! ### d1 -/

theorem indexNat_append (a b : List Int) : indexNat (a ++ b) = (indexNat a).bind (fun x => (indexNat b).map (fun y => x ++ y)) := by
  unfold indexNat
  rw [List.mapM_append]
  simp only [Option.bind_eq_bind, Option.pure_def]
  rcases List.mapM _ a with _ | x
  · rfl
  · rcases List.mapM _ b with _ | y <;> rfl

theorem indexNat_map {α : Type*} (l : List α) (g : α → Int) (h : ∀ x ∈ l, 0 ≤ g x) :
    indexNat (l.map g) = some (l.map (fun x => (g x).toNat)) := by
  unfold indexNat
  rw [List.mapM_map]
  apply mapM_eq_some_map
  intro x hx
  simp [Function.comp, h x hx]

theorem npMask_range_map {α : Type*} (l : List α) (p : α → Bool) :
    npMask (List.range l.length) (l.map p) = (l.zipIdx.filter (fun q => p q.1)).map (fun q => q.2) := by
  have h1 : List.range l.length = l.zipIdx.map (fun q => q.2) := by
    apply List.ext_getElem <;> simp
  have h2 : l.map p = l.zipIdx.map (fun q => p q.1) := by
    apply List.ext_getElem <;> simp
  rw [h1, h2, npMask_map_map]

theorem npMask_zipIdx {α : Type*} (l : List α) (p : α → Bool) :
    npMask l (l.map p) = (l.zipIdx.filter (fun q => p q.1)).map (fun q => q.1) := by
  have h1 : l = l.zipIdx.map (fun q => q.1) := by
    apply List.ext_getElem <;> simp
  have h2 : l.map p = l.zipIdx.map (fun q => p q.1) := by
    apply List.ext_getElem <;> simp
  conv_lhs => rw [h2]
  conv_lhs => enter [1]; rw [h1]
  rw [npMask_map_map]

theorem count_true_map {α : Type*} (l : List α) (p : α → Bool) :
    (l.map p).count true = (l.zipIdx.filter (fun q => p q.1)).length := by
  have h2 : l.map p = l.zipIdx.map (fun q => p q.1) := by
    apply List.ext_getElem <;> simp
  rw [h2, List.count, List.countP_map, List.countP_eq_length_filter]
  congr 2
  funext q
  simp [Function.comp]

abbrev HE2 := (Int × Int) × (Int × Int)

def d1Trip (K : Type) [Ring K] (T : List HE2) : List (ℕ × ℕ × K) :=
  T.zipIdx.map (fun q => (q.1.1.1.toNat, q.2, (1 : K))) ++
    (T.zipIdx.filter (fun q => decide (0 ≤ q.1.2.1))).map (fun q => (q.1.2.1.toNat, q.2, (-1 : K)))

theorem decD1_trip {T : List HE2} (F : List Tri)
    (h0 : ∀ p ∈ T, 0 ≤ p.1.1 ∧ p.1.1.toNat < F.length) (h1 : ∀ p ∈ T, 0 ≤ p.2.1 → p.2.1.toNat < F.length) :
    decD1 K F (some T) = some ⟨F.length, T.length, d1Trip K T⟩ := by
  unfold decD1
  simp only [Option.bind_eq_bind, Option.bind_some]
  have hz : T = T.zipIdx.map (fun q => q.1) := by apply List.ext_getElem <;> simp
  rw [npMask_zipIdx, npMask_range_map, count_true_map, List.map_map, indexNat_append,
    indexNat_map _ _ (fun p hp => (h0 p hp).1), indexNat_map]
  · simp only [Option.bind_some, Option.map_some]
    unfold csrMatrix
    rw [if_pos]
    · congr 2
      rw [zip3_append (by simp) (by simp)]
      unfold d1Trip
      congr 1
      · have hr : List.range T.length = T.zipIdx.map (fun q => q.2) := by apply List.ext_getElem <;> simp
        have hm : T.map (fun x => x.1.1.toNat) = T.zipIdx.map (fun q => q.1.1.1.toNat) := by
          apply List.ext_getElem <;> simp
        have hk : List.replicate T.length (1 : K) = T.zipIdx.map (fun _ => 1) := by
          apply List.ext_getElem <;> simp
        rw [hr, hm, hk, zip3_map]
      · have hk : List.replicate (T.zipIdx.filter (fun q => decide (0 ≤ q.1.2.1))).length (-1 : K) =
            (T.zipIdx.filter (fun q => decide (0 ≤ q.1.2.1))).map (fun _ => -1) := by
          apply List.ext_getElem <;> simp
        rw [hk, zip3_map]; rfl
    · refine ⟨by simp, by simp, ?_, ?_⟩
      · intro i hi
        rw [List.mem_append, List.mem_map, List.mem_map] at hi
        rcases hi with ⟨p, hp, rfl⟩ | ⟨q, hq, rfl⟩
        · exact (h0 p hp).2
        · rw [List.mem_filter] at hq
          have hm : q.1 ∈ T := by rw [hz]; exact List.mem_map_of_mem hq.1
          exact h1 _ hm (of_decide_eq_true hq.2)
      · intro j hj
        rw [List.mem_append, List.mem_map] at hj
        rcases hj with hj | ⟨q, hq, rfl⟩
        · simpa using hj
        · rw [List.mem_filter] at hq
          have := List.mem_zipIdx_iff_getElem?.mp hq.1
          exact (List.getElem?_eq_some_iff.mp this).1
  · intro q hq
    rw [List.mem_filter] at hq
    exact of_decide_eq_true hq.2

theorem sum_filter_map {α : Type*} (l : List α) (p : α → Bool) (g : α → K) :
    ((l.filter p).map g).sum = (l.map (fun x => if p x then g x else 0)).sum := by
  induction l with
  | nil => rfl
  | cons a t ih =>
    by_cases h : p a <;> simp [List.filter_cons, h, ih]

theorem sum_map_add_list {α : Type*} (l : List α) (f g : α → K) :
    (l.map f).sum + (l.map g).sum = (l.map (fun x => f x + g x)).sum := by
  induction l with
  | nil => simp
  | cons a t ih => simp only [List.map_cons, List.sum_cons]; rw [← ih]; abel

/-- value of `(d1 @ w)[f]` as one sum over edges -/
theorem d1_mulVec {T : List HE2} {m : ℕ} (h0 : ∀ p ∈ T, 0 ≤ p.1.1 ∧ p.1.1.toNat < m)
    (h1 : ∀ p ∈ T, 0 ≤ p.2.1 → p.2.1.toNat < m) (w : ℕ → K) (f : ℕ) :
    (⟨m, T.length, d1Trip K T⟩ : Csr K).mulVec w f =
      (T.zipIdx.map (fun q => (if q.1.1.1.toNat = f then w q.2 else 0) -
        (if 0 ≤ q.1.2.1 ∧ q.1.2.1.toNat = f then w q.2 else 0))).sum := by
  have hz : T = T.zipIdx.map (fun q => q.1) := by apply List.ext_getElem <;> simp
  have hwf : (⟨m, T.length, d1Trip K T⟩ : Csr K).WF := by
    intro t ht
    simp only [d1Trip, List.mem_append, List.mem_map, List.mem_filter] at ht
    rcases ht with ⟨q, hq, rfl⟩ | ⟨q, ⟨hq, hv⟩, rfl⟩
    · have hm : q.1 ∈ T := by rw [hz]; exact List.mem_map_of_mem hq
      exact ⟨(h0 _ hm).2, (List.getElem?_eq_some_iff.mp (List.mem_zipIdx_iff_getElem?.mp hq)).1⟩
    · have hm : q.1 ∈ T := by rw [hz]; exact List.mem_map_of_mem hq
      exact ⟨h1 _ hm (of_decide_eq_true hv), (List.getElem?_eq_some_iff.mp (List.mem_zipIdx_iff_getElem?.mp hq)).1⟩
  rw [mulVec_eq _ hwf]
  simp only [d1Trip, List.map_append, List.sum_append, List.map_map]
  rw [sum_filter_map, sum_map_add_list]
  congr 1
  apply List.map_congr_left
  intro q _
  by_cases a : 0 ≤ q.1.2.1 <;> by_cases b : q.1.1.1.toNat = f <;> by_cases c : q.1.2.1.toNat = f <;>
    simp [a, b, c, sub_eq_add_neg]

/-! ### all sides, enumerated by edges -/

def heOfEdge (p : HE2) : List (Int × Int) := if 0 ≤ p.2.1 then [p.1, p.2] else [p.1]

def allSides (m : ℕ) : List (Int × Int) := (List.range m).flatMap (fun f : ℕ => [((f : Int), 0), ((f : Int), 1), ((f : Int), 2)])

theorem mem_allSides {m : ℕ} {q : Int × Int} : q ∈ allSides m ↔ ∃ (f : ℕ) (i : Fin 3), f < m ∧ q = ((f : Int), (i.val : Int)) := by
  unfold allSides
  rw [List.mem_flatMap]
  constructor
  · rintro ⟨f, hf, hq⟩
    simp at hq hf
    rcases hq with rfl | rfl | rfl
    · exact ⟨f, 0, hf, rfl⟩
    · exact ⟨f, 1, hf, rfl⟩
    · exact ⟨f, 2, hf, rfl⟩
  · rintro ⟨f, i, hf, rfl⟩
    refine ⟨f, List.mem_range.mpr hf, ?_⟩
    match i with
    | 0 => simp
    | 1 => simp
    | 2 => simp

theorem nodup_allSides (m : ℕ) : (allSides m).Nodup := by
  unfold allSides
  rw [List.nodup_flatMap]
  refine ⟨fun f _ => by simp, ?_⟩
  apply List.pairwise_lt_range.imp
  intro a b hab
  simp only [Function.onFun, List.disjoint_left]
  intro q h1 h2
  simp at h1 h2
  rcases h1 with rfl | rfl | rfl <;> simp at h2 <;> omega

theorem halfedgeAt_mem_allSides {F : List Tri} {q : Int × Int} : q ∈ allSides F.length ↔ ∃ e, HalfedgeAt F q e := by
  rw [mem_allSides]
  constructor
  · rintro ⟨f, i, hf, rfl⟩
    exact ⟨_, f, F[f], i, rfl, List.getElem?_eq_getElem hf, rfl⟩
  · rintro ⟨e, f, t, i, rfl, hf, _⟩
    exact ⟨f, i, (List.getElem?_eq_some_iff.mp hf).1, rfl⟩

/-- which halfedges are listed for edge `k` -/
theorem mem_heOfEdge {F : List Tri} (hF : OrientedManifold F) {k : ℕ} {e : Edge} (hk : (EL F)[k]? = some e) {p : HE2}
    (hp : (EToHeL F)[k]? = some p) (q : Int × Int) : q ∈ heOfEdge p ↔ ∃ h, Undir e h ∧ HalfedgeAt F q h := by
  obtain ⟨q0, q1, h1, h2, h3⟩ := EToHeL_spec hF hk
  rw [hp] at h1; cases h1
  have hm := mem_EL_side (List.mem_of_getElem? hk)
  unfold heOfEdge
  rcases h3 with ⟨rfl, hi⟩ | ⟨h3, hi⟩
  · simp only [show ¬ ((0 : Int) ≤ -1) by omega, if_false, List.mem_singleton]
    constructor
    · rintro rfl; exact ⟨e, Or.inl rfl, h2⟩
    · rintro ⟨h, hu, hh⟩
      rcases hu with rfl | rfl
      · exact halfedgeAt_unique hF hh h2
      · exfalso
        obtain ⟨f, t, i, _, hf, hs⟩ := hh
        have hfl : e.flip ∈ sides F := mem_sides.mpr ⟨f, t, i, hf, hs⟩
        have hne := side_not_loop hF hm
        unfold incid at hi
        obtain ⟨z, hz⟩ := List.length_eq_one_iff.mp hi
        have m1 : e ∈ (sides F).filter (fun h => Undir e h) := List.mem_filter.mpr ⟨hm, by simp [Undir]⟩
        have m2 : e.flip ∈ (sides F).filter (fun h => Undir e h) := List.mem_filter.mpr ⟨hfl, by simp [Undir]⟩
        rw [hz] at m1 m2
        simp at m1 m2
        exact hne (m1.trans m2.symm)
  · have h3' := h3
    obtain ⟨f, t, i, rfl, hf, hs⟩ := h3'
    simp only [show (0 : Int) ≤ (f : Int) by omega, if_true, List.mem_cons, List.not_mem_nil, or_false]
    constructor
    · rintro (rfl | rfl)
      · exact ⟨e, Or.inl rfl, h2⟩
      · exact ⟨e.flip, Or.inr rfl, h3⟩
    · rintro ⟨h, hu, hh⟩
      rcases hu with rfl | rfl
      · exact Or.inl (halfedgeAt_unique hF hh h2)
      · exact Or.inr (halfedgeAt_unique hF hh h3)

theorem heOfEdge_nodup {F : List Tri} (hF : OrientedManifold F) {k : ℕ} {e : Edge} (hk : (EL F)[k]? = some e) {p : HE2}
    (hp : (EToHeL F)[k]? = some p) : (heOfEdge p).Nodup := by
  obtain ⟨q0, q1, h1, h2, h3⟩ := EToHeL_spec hF hk
  rw [hp] at h1; cases h1
  have hm := mem_EL_side (List.mem_of_getElem? hk)
  unfold heOfEdge
  split
  · rcases h3 with ⟨rfl, hi⟩ | ⟨h3, hi⟩
    · simp at *
    · simp only [List.nodup_cons, List.mem_singleton, List.not_mem_nil, not_false_eq_true, List.nodup_nil, and_true]
      rintro rfl
      exact side_not_loop hF hm (halfedgeAt_inj h2 h3)
  · simp

theorem edgeEnum_perm {F : List Tri} (hF : OrientedManifold F) :
    ((EToHeL F).flatMap heOfEdge).Perm (allSides F.length) := by
  rw [List.perm_ext_iff_of_nodup _ (nodup_allSides _)]
  · intro q
    rw [halfedgeAt_mem_allSides, List.mem_flatMap]
    constructor
    · rintro ⟨p, hp, hq⟩
      obtain ⟨k, hk⟩ := List.mem_iff_getElem?.mp hp
      have hlt : k < (EL F).length := by rw [← EToHeL_length]; exact (List.getElem?_eq_some_iff.mp hk).1
      obtain ⟨h, _, hh⟩ := (mem_heOfEdge hF (List.getElem?_eq_getElem hlt) hk q).mp hq
      exact ⟨h, hh⟩
    · rintro ⟨e, he⟩
      have hs : e ∈ sides F := by
        obtain ⟨f, t, i, _, hf, hs⟩ := he
        exact mem_sides.mpr ⟨f, t, i, hf, hs⟩
      obtain ⟨e', he', hu⟩ := exists_EL hs
      obtain ⟨k, hk⟩ := List.mem_iff_getElem?.mp he'
      obtain ⟨q0, q1, hp, _, _⟩ := EToHeL_spec hF hk
      exact ⟨_, List.mem_of_getElem? hp, (mem_heOfEdge hF hk hp q).mpr ⟨e, hu, he⟩⟩
  · rw [List.nodup_flatMap]
    constructor
    · intro p hp
      obtain ⟨k, hk⟩ := List.mem_iff_getElem?.mp hp
      have hlt : k < (EL F).length := by rw [← EToHeL_length]; exact (List.getElem?_eq_some_iff.mp hk).1
      exact heOfEdge_nodup hF (List.getElem?_eq_getElem hlt) hk
    · rw [List.pairwise_iff_getElem]
      intro i j hi hj hij
      simp only [Function.onFun, List.disjoint_left]
      intro q h1 h2
      have hi' : i < (EL F).length := by rw [← EToHeL_length]; exact hi
      have hj' : j < (EL F).length := by rw [← EToHeL_length]; exact hj
      obtain ⟨a, ha, ha'⟩ := (mem_heOfEdge hF (List.getElem?_eq_getElem hi') (List.getElem?_eq_getElem hi) q).mp h1
      obtain ⟨b, hb, hb'⟩ := (mem_heOfEdge hF (List.getElem?_eq_getElem hj') (List.getElem?_eq_getElem hj) q).mp h2
      have hab := halfedgeAt_inj ha' hb'
      subst hab
      have := EL_unique (List.getElem?_eq_getElem hi') (List.getElem?_eq_getElem hj') (by
        rw [← Edge.sort_eq_iff] at *; rw [← ha, ← hb])
      omega

/-- The directed side at an index pair. -/
def sideOf (F : List Tri) (q : Int × Int) : Edge :=
  match F[q.1.toNat]? with
  | none => ⟨0, 0⟩
  | some t => if q.2 = 0 then t.side 0 else if q.2 = 1 then t.side 1 else t.side 2

theorem sideOf_eq {F : List Tri} {q : Int × Int} {e : Edge} (h : HalfedgeAt F q e) : sideOf F q = e := by
  obtain ⟨f, t, i, rfl, hf, hs⟩ := h
  unfold sideOf
  simp only [Int.toNat_natCast, hf]
  match i, hs with
  | 0, hs => simpa using hs
  | 1, hs => simpa using hs
  | 2, hs => simpa using hs

theorem sum_flatMap_list {α β : Type*} (l : List α) (f : α → List β) (g : β → K) :
    ((l.flatMap f).map g).sum = (l.map (fun a => ((f a).map g).sum)).sum := by
  induction l with
  | nil => rfl
  | cons a t ih => simp [List.flatMap_cons, ih]

/-- Any quantity attached to the sides and summed edge by edge is the sum over faces. -/
theorem sum_edges_eq_sum_faces {F : List Tri} (hF : OrientedManifold F) (g : Int × Int → K) :
    ((EToHeL F).map (fun p => g p.1 + if 0 ≤ p.2.1 then g p.2 else 0)).sum =
      ((List.range F.length).map (fun f : ℕ => g ((f : Int), 0) + g ((f : Int), 1) + g ((f : Int), 2))).sum := by
  have h := ((edgeEnum_perm hF).map g).sum_eq
  rw [sum_flatMap_list] at h
  unfold allSides at h
  rw [sum_flatMap_list] at h
  convert h using 2
  · apply List.map_congr_left
    intro p _
    unfold heOfEdge
    split <;> simp
  · apply List.map_congr_left
    intro f _
    simp [add_assoc]

theorem EToHeL_bounds {F : List Tri} (hF : OrientedManifold F) :
    (∀ p ∈ EToHeL F, 0 ≤ p.1.1 ∧ p.1.1.toNat < F.length) ∧ (∀ p ∈ EToHeL F, 0 ≤ p.2.1 → p.2.1.toNat < F.length) := by
  have key : ∀ q e, HalfedgeAt F q e → 0 ≤ q.1 ∧ q.1.toNat < F.length := by
    rintro q e ⟨f, t, i, rfl, hf, _⟩
    exact ⟨by simp, by simpa using (List.getElem?_eq_some_iff.mp hf).1⟩
  constructor <;> intro p hp
  · obtain ⟨k, hk⟩ := List.mem_iff_getElem?.mp hp
    have hlt : k < (EL F).length := by rw [← EToHeL_length]; exact (List.getElem?_eq_some_iff.mp hk).1
    obtain ⟨q0, q1, h1, h2, h3⟩ := EToHeL_spec hF (List.getElem?_eq_getElem hlt)
    rw [hk] at h1; cases h1
    exact key _ _ h2
  · intro h0
    obtain ⟨k, hk⟩ := List.mem_iff_getElem?.mp hp
    have hlt : k < (EL F).length := by rw [← EToHeL_length]; exact (List.getElem?_eq_some_iff.mp hk).1
    obtain ⟨q0, q1, h1, h2, h3⟩ := EToHeL_spec hF (List.getElem?_eq_getElem hlt)
    rw [hk] at h1; cases h1
    rcases h3 with ⟨rfl, _⟩ | ⟨h3, _⟩
    · simp at h0
    · exact (key _ _ h3).2

/-- `d1` sums an antisymmetric edge function along the three sides of a triangle. -/
theorem d1_circulation {F : List Tri} (hF : OrientedManifold F) {w : ℕ → K} (om : Edge → K) (hom : ∀ e, om e.flip = -om e)
    (hw : ∀ k e, (EL F)[k]? = some e → w k = om e) {f : ℕ} (hf : f < F.length) :
    (⟨F.length, (EToHeL F).length, d1Trip K (EToHeL F)⟩ : Csr K).mulVec w f =
      om (F[f].side 0) + om (F[f].side 1) + om (F[f].side 2) := by
  obtain ⟨b0, b1⟩ := EToHeL_bounds hF
  rw [d1_mulVec b0 b1]
  let g : Int × Int → K := fun q => if q.1.toNat = f then om (sideOf F q) else 0
  have hz : (EToHeL F).map (fun p => g p.1 + if 0 ≤ p.2.1 then g p.2 else 0) =
      (EToHeL F).zipIdx.map (fun q => g q.1.1 + if 0 ≤ q.1.2.1 then g q.1.2 else 0) := by
    apply List.ext_getElem <;> simp
  have h := sum_edges_eq_sum_faces hF g
  rw [hz] at h
  have e1 : (EToHeL F).zipIdx.map (fun q => g q.1.1 + if 0 ≤ q.1.2.1 then g q.1.2 else 0) =
      (EToHeL F).zipIdx.map (fun q => (if q.1.1.1.toNat = f then w q.2 else 0) -
        (if 0 ≤ q.1.2.1 ∧ q.1.2.1.toNat = f then w q.2 else 0)) := by
    apply List.map_congr_left
    rintro ⟨p, k⟩ hp
    rw [List.mem_zipIdx_iff_getElem?] at hp
    simp only at hp ⊢
    have hlt : k < (EL F).length := by rw [← EToHeL_length]; exact (List.getElem?_eq_some_iff.mp hp).1
    obtain ⟨q0, q1, h1, h2, h3⟩ := EToHeL_spec hF (List.getElem?_eq_getElem hlt)
    rw [hp] at h1; cases h1
    rw [hw k _ (List.getElem?_eq_getElem hlt)]
    have g0 : g q0 = if q0.1.toNat = f then om (EL F)[k] else 0 := by
      simp only [g, sideOf_eq h2]
    rw [g0]
    rcases h3 with ⟨rfl, _⟩ | ⟨h3, _⟩
    · simp
    · have g1 : g q1 = if q1.1.toNat = f then -om (EL F)[k] else 0 := by
        simp only [g, sideOf_eq h3, hom]
      have hq1 : 0 ≤ q1.1 := by obtain ⟨f', t, i, rfl, _, _⟩ := h3; simp
      rw [g1]
      simp only [hq1, if_true, true_and]
      by_cases hc : q1.1.toNat = f <;> simp [hc, sub_eq_add_neg]
  rw [← e1, h]
  have s : ∀ f' (hf' : f' < F.length), g ((f' : Int), 0) + g ((f' : Int), 1) + g ((f' : Int), 2) =
      if f' = f then om (F[f'].side 0) + om (F[f'].side 1) + om (F[f'].side 2) else 0 := by
    intro f' hf'
    have hget := List.getElem?_eq_getElem hf'
    have s0 : sideOf F ((f' : Int), 0) = F[f'].side 0 := sideOf_eq ⟨f', F[f'], 0, rfl, hget, rfl⟩
    have s1 : sideOf F ((f' : Int), 1) = F[f'].side 1 := sideOf_eq ⟨f', F[f'], 1, rfl, hget, rfl⟩
    have s2 : sideOf F ((f' : Int), 2) = F[f'].side 2 := sideOf_eq ⟨f', F[f'], 2, rfl, hget, rfl⟩
    simp only [g, s0, s1, s2]
    by_cases hc : f' = f <;> simp [hc]
  have e2 : (List.range F.length).map (fun f' : ℕ => g ((f' : Int), 0) + g ((f' : Int), 1) + g ((f' : Int), 2)) =
      F.zipIdx.map (fun p => if p.2 = f then om (p.1.side 0) + om (p.1.side 1) + om (p.1.side 2) else 0) := by
    apply List.ext_getElem
    · simp
    · intro i h1 h2
      have hi : i < F.length := by simpa using h1
      simp only [List.getElem_map, List.getElem_range, List.getElem_zipIdx, zero_add]
      exact s i hi
  rw [e2, sum_zipIdx_single F (fun t => om (t.side 0) + om (t.side 1) + om (t.side 2)) f 0]
  simp [List.getElem?_eq_getElem hf]

/-- `d1 (d0 u) = 0` pointwise. -/
theorem d1_d0_zero {F : List Tri} (hF : OrientedManifold F) {w : ℕ → K} (u : ℕ → K)
    (hw : ∀ k e, (EL F)[k]? = some e → w k = u e.s - u e.t) (f : ℕ) (hf : f < F.length) :
    (⟨F.length, (EToHeL F).length, d1Trip K (EToHeL F)⟩ : Csr K).mulVec w f = 0 := by
  rw [d1_circulation hF (fun e => u e.s - u e.t) (by intro e; simp) hw hf]
  simp only [Tri.side]; abel

end Gpy
