import Verif.Proofs.LoopSubdivide
import Verif.Props.Subdivide
import Mathlib.Data.Real.Basic
import Mathlib.Algebra.Order.BigOperators.Group.Finset

/-! Property C19: `subdivide(V,F,method='loop')`. -/

set_option autoImplicit false
namespace Gpy
open Np

variable {K : Type} [Field K] [CharZero K] {d : ℕ}

theorem nbrs_ne_nil {F : List Tri} {v : ℕ} (h : 0 < cornerCount F v) : nbrs F v ≠ [] := by
  have hc : v ∈ F.flatMap (fun t => [t.a, t.b, t.c]) := List.count_pos_iff.mp h
  obtain ⟨t, ht, hm⟩ := List.mem_flatMap.mp hc
  have key : ∀ i : Fin 3, v = (t.side i).s → nbrs F v ≠ [] := by
    intro i hi hn
    have : (t.side i).t ∈ nbrs F v := List.mem_map.mpr ⟨t.side i, List.mem_filter.mpr ⟨side_mem_of ht i, by simp [hi]⟩, rfl⟩
    rw [hn] at this
    simp at this
  simp only [List.mem_cons, List.not_mem_nil, or_false] at hm
  rcases hm with h | h | h
  · exact key 2 h
  · exact key 0 h
  · exact key 1 h

/-- C19: Loop subdivision computes Loop's (Warren's) masks.  For a consistently oriented edge-manifold mesh in which every row of `V` is used and
every interior vertex has at least three neighbours, one step succeeds, its connectivity `Fu` is that of the 1-to-4 split (with a numbering
`mid` of the edges as in C18), `Vu = S V`, and the rows of `S` are:
* new vertex on a boundary edge: the midpoint;
* new vertex on an interior edge: `3/8` of each end and `1/8` of each of the two opposite corners;
* boundary vertex with one incoming and one outgoing boundary side: `3/4` of itself, `1/8` of each of the two boundary neighbours;
* interior vertex with `n` neighbours: `β` of each neighbour and `1 - n β` of itself, `β = 3/16` for `n = 3` and `3/(8n)` for `n > 3`. -/
theorem C19_loop_masks (V : List (Fin d → K)) (F : List Tri) (hne : F ≠ []) (hF : OrientedManifold F) (hr : InRange F V.length)
    (hall : ∀ v < V.length, 0 < cornerCount F v) (hval : ∀ v, IsInteriorVertex F v → 3 ≤ (nbrs F v).length) :
    ∃ Vu Fu S, loopTriangleMesh V F = some ⟨some Vu, Fu, S⟩ ∧ ∃ mid : Edge → ℕ,
      (∀ e ∈ sides F, ∀ e' ∈ sides F, mid e = mid e' ↔ Undir e e') ∧
      (∀ k, V.length ≤ k ∧ k < Vu.length ↔ ∃ e ∈ sides F, mid e = k) ∧
      Fu.length = 4 * F.length ∧
      (∀ f t, F[f]? = some t →
        Fu[f]? = some ⟨t.a, mid ⟨t.a, t.b⟩, mid ⟨t.c, t.a⟩⟩ ∧
        Fu[F.length + f]? = some ⟨mid ⟨t.a, t.b⟩, t.b, mid ⟨t.b, t.c⟩⟩ ∧
        Fu[2 * F.length + f]? = some ⟨mid ⟨t.c, t.a⟩, mid ⟨t.b, t.c⟩, t.c⟩ ∧
        Fu[3 * F.length + f]? = some ⟨mid ⟨t.c, t.a⟩, mid ⟨t.a, t.b⟩, mid ⟨t.b, t.c⟩⟩) ∧
      V.length ≤ Vu.length ∧ S.nrows = Vu.length ∧ S.ncols = V.length ∧ S.WF ∧
      (∀ k < Vu.length, ∀ c : Fin d, vpos Vu k c = S.mulVec (fun j => vpos V j c) k) ∧
      ∀ u : ℕ → K,
        (∀ e, IsBdrySide F e → S.mulVec u (mid e) = (u e.s + u e.t) / 2) ∧
        (∀ (f : ℕ) (t : Tri) (i : Fin 3) (g : ℕ) (t' : Tri) (j : Fin 3), F[f]? = some t → F[g]? = some t' → t'.side j = (t.side i).flip →
          S.mulVec u (mid (t.side i)) = 3 / 8 * (u (t.side i).s + u (t.side i).t) + 1 / 8 * (u (t.corner i) + u (t'.corner j))) ∧
        (∀ v p q, v < V.length → (∀ e, IsBdrySide F e ∧ e.t = v ↔ e = ⟨p, v⟩) → (∀ e, IsBdrySide F e ∧ e.s = v ↔ e = ⟨v, q⟩) →
          S.mulVec u v = 3 / 4 * u v + 1 / 8 * (u p + u q)) ∧
        (∀ v, IsInteriorVertex F v →
          S.mulVec u v = (1 - (nbrs F v).length * loopWeight K (nbrs F v).length) * u v + loopWeight K (nbrs F v).length * ((nbrs F v).map u).sum) := by
  have hVpos : 0 < V.length := by
    obtain ⟨t, ht⟩ := List.exists_mem_of_ne_nil F hne
    have := hr t ht
    omega
  have hint : ∀ e ∈ tailS F, IsInteriorVertex F e.s := by
    intro e he
    have h1 := List.mem_filter.mp he
    refine ⟨hall _ (sub_side_lt hr h1.1).1, ?_⟩
    intro b hb
    have h2 : e.s ∉ bV F := by simpa using h1.2
    refine ⟨fun h => h2 ((mem_bV hF).mpr ⟨b, hb, Or.inl h⟩), fun h => h2 ((mem_bV hF).mpr ⟨b, hb, Or.inr h⟩)⟩
  obtain ⟨Vu, hl, hlen, hk, hwf⟩ := loop_eq (K := K) (d := d) hne hF hr (hall _ (by omega)) (by
    intro e he
    have hi := hint e he
    rw [nAdj_eq hF hi.2 (nbrs_ne_nil hi.1)]
    exact_mod_cast hval _ hi)
  have hmidk : ∀ k, V.length ≤ k ∧ k < Vu.length ↔ ∃ e ∈ sides F, V.length + eidx F e = k := by
    intro k
    rw [hlen]
    constructor
    · rintro ⟨h1, h2⟩
      have hlt : k - V.length < (EL F).length := by omega
      have hget : (EL F)[k - V.length]? = some (EL F)[k - V.length] := List.getElem?_eq_getElem hlt
      have hm : (EL F)[k - V.length] ∈ sides F := mem_EL_side (List.getElem_mem hlt)
      refine ⟨_, hm, ?_⟩
      obtain ⟨x, hx, hu⟩ := eidx_get hm
      have := EL_unique hx hget hu
      omega
    · rintro ⟨e, he, rfl⟩
      obtain ⟨x, hx, -⟩ := eidx_get he
      have := (List.getElem?_eq_some_iff.mp hx).1
      omega
  refine ⟨Vu, _, _, hl, fun e => V.length + eidx F e, (midOk hr).inj, hmidk, length_splitT _ F, ?_, by omega, hlen.symm, rfl, hwf, ?_, ?_⟩
  · intro f t hf
    have h0 := splitT_get (fun e => V.length + eidx F e) hf 0
    have h1 := splitT_get (fun e => V.length + eidx F e) hf 1
    rw [show ((0 : Fin 4).val) * F.length + f = f by simp] at h0
    rw [show ((1 : Fin 4).val) * F.length + f = F.length + f by simp] at h1
    exact ⟨h0, h1, splitT_get _ hf 2, splitT_get _ hf 3⟩
  · intro k hk' c
    rw [vpos_of_get (hk k hk')]
    rfl
  · intro u
    refine ⟨?_, ?_, ?_, ?_⟩
    · intro e he
      exact row_bdry_edge hF hr hwf (by norm_num) u he
    · intro f t i g t' j hf hg hs
      have h1 : t.side i ∈ sides F := mem_sides.mpr ⟨f, t, i, hf, rfl⟩
      have h2 : (t.side i).flip ∈ sides F := mem_sides.mpr ⟨g, t', j, hg, hs⟩
      rw [row_int_edge hF hr hwf u h1 h2, oppC_eq hF hf, ← hs, oppC_eq hF hg]
    · intro v p q hv hp hq
      exact row_bdry_vertex hF hwf u hv hp hq
    · intro v hi
      have hv : v < V.length := by
        have hc : v ∈ F.flatMap (fun t => [t.a, t.b, t.c]) := List.count_pos_iff.mp hi.1
        obtain ⟨t, ht, hm⟩ := List.mem_flatMap.mp hc
        have := hr t ht
        simp only [List.mem_cons, List.not_mem_nil, or_false] at hm
        omega
      exact row_int_vertex hF hwf u hv hi.2 (nbrs_ne_nil hi.1)

/-- Every vertex on the boundary has exactly one incoming and one outgoing boundary side. -/
def BdryVertexManifold (F : List Tri) : Prop :=
  ∀ v, (∃ e, IsBdrySide F e ∧ (e.s = v ∨ e.t = v)) →
    ∃ p q, (∀ e, IsBdrySide F e ∧ e.t = v ↔ e = ⟨p, v⟩) ∧ (∀ e, IsBdrySide F e ∧ e.s = v ↔ e = ⟨v, q⟩)

/-- cases of the rows -/
theorem loop_row_cases (V : List (Fin d → K)) (F : List Tri) (hne : F ≠ []) (hF : OrientedManifold F) (hr : InRange F V.length)
    (hall : ∀ v < V.length, 0 < cornerCount F v) (hval : ∀ v, IsInteriorVertex F v → 3 ≤ (nbrs F v).length) (hb : BdryVertexManifold F) :
    ∃ Vu Fu S, loopTriangleMesh V F = some ⟨some Vu, Fu, S⟩ ∧ S.nrows = Vu.length ∧ S.ncols = V.length ∧ S.WF ∧
      (∀ k < Vu.length, ∀ c : Fin d, vpos Vu k c = S.mulVec (fun j => vpos V j c) k) ∧
      ∀ k < Vu.length,
        (∃ a b, ∀ u : ℕ → K, S.mulVec u k = 1 / 2 * u a + 1 / 2 * u b) ∨
        (∃ a b c c', ∀ u : ℕ → K, S.mulVec u k = 3 / 8 * u a + 3 / 8 * u b + 1 / 8 * u c + 1 / 8 * u c') ∨
        (∃ v p q, ∀ u : ℕ → K, S.mulVec u k = 3 / 4 * u v + 1 / 8 * u p + 1 / 8 * u q) ∨
        (∃ v, 3 ≤ (nbrs F v).length ∧ ∀ u : ℕ → K, S.mulVec u k = (1 - (nbrs F v).length * loopWeight K (nbrs F v).length) * u v
          + loopWeight K (nbrs F v).length * ((nbrs F v).map u).sum) := by
  obtain ⟨Vu, Fu, S, hl, mid, hinj, hmk, -, -, hle, hnr, hnc, hwf, hVu, hrow⟩ := C19_loop_masks V F hne hF hr hall hval
  refine ⟨Vu, Fu, S, hl, hnr, hnc, hwf, hVu, ?_⟩
  intro k hk
  by_cases hkV : k < V.length
  · by_cases hbk : ∃ e, IsBdrySide F e ∧ (e.s = k ∨ e.t = k)
    · obtain ⟨p, q, hp, hq⟩ := hb k hbk
      right; right; left
      refine ⟨k, p, q, fun u => ?_⟩
      rw [(hrow u).2.2.1 k p q hkV hp hq]; ring
    · have hi : IsInteriorVertex F k := by
        refine ⟨hall k hkV, fun e he => ⟨fun h => hbk ⟨e, he, Or.inl h⟩, fun h => hbk ⟨e, he, Or.inr h⟩⟩⟩
      right; right; right
      exact ⟨k, hval k hi, fun u => (hrow u).2.2.2 k hi⟩
  · obtain ⟨e, he, rfl⟩ := (hmk k).mp ⟨by omega, hk⟩
    by_cases hfl : e.flip ∈ sides F
    · obtain ⟨f, t, i, hf, rfl⟩ := mem_sides.mp he
      obtain ⟨g, t', j, hg, hs⟩ := mem_sides.mp hfl
      right; left
      refine ⟨(t.side i).s, (t.side i).t, t.corner i, t'.corner j, fun u => ?_⟩
      rw [(hrow u).2.1 f t i g t' j hf hg hs]; ring
    · left
      refine ⟨e.s, e.t, fun u => ?_⟩
      rw [(hrow u).1 e ⟨he, hfl⟩]; ring

theorem loopWeight_sum (n : ℕ) (hn : 3 ≤ n) : (n : ℝ) * loopWeight ℝ n ≤ 1 ∧ 0 ≤ loopWeight ℝ n := by
  have hn' : (3 : ℝ) ≤ n := by exact_mod_cast hn
  unfold loopWeight
  by_cases h : n = 3
  · subst h; rw [if_pos rfl]; norm_num
  · rw [if_neg h]
    refine ⟨?_, by positivity⟩
    have : (n : ℝ) * (3 / (8 * n)) = 3 / 8 := by field_simp
    rw [this]; norm_num

/-- C19: the rows of the Loop matrix are convex weights: non-negative and of sum one. -/
theorem C19_loop_rows_convex (V : List (Pt d)) (F : List Tri) (hne : F ≠ []) (hF : OrientedManifold F) (hr : InRange F V.length)
    (hall : ∀ v < V.length, 0 < cornerCount F v) (hval : ∀ v, IsInteriorVertex F v → 3 ≤ (nbrs F v).length) (hb : BdryVertexManifold F) :
    ∃ Vu Fu S, loopTriangleMesh V F = some ⟨some Vu, Fu, S⟩ ∧ S.nrows = Vu.length ∧ S.ncols = V.length ∧
      (∀ k < Vu.length, ∑ j ∈ Finset.range V.length, S.get k j = 1) ∧ (∀ k < Vu.length, ∀ j, 0 ≤ S.get k j) ∧
      (∀ k < Vu.length, ∀ c, vpos Vu k c = ∑ j ∈ Finset.range V.length, S.get k j * vpos V j c) := by
  obtain ⟨Vu, Fu, S, hl, hnr, hnc, hwf, hVu, hrow⟩ := loop_row_cases V F hne hF hr hall hval hb
  refine ⟨Vu, Fu, S, hl, hnr, hnc, ?_, ?_, ?_⟩
  · intro k hk
    have h1 : ∑ j ∈ Finset.range V.length, S.get k j = S.mulVec (fun _ => 1) k := by
      unfold Csr.mulVec; rw [hnc]; simp
    rw [h1]
    rcases hrow k hk with ⟨a, b, h⟩ | ⟨a, b, c, c', h⟩ | ⟨v, p, q, h⟩ | ⟨v, -, h⟩
    · rw [h]; norm_num
    · rw [h]; norm_num
    · rw [h]; norm_num
    · rw [h, List.map_const', List.sum_replicate, nsmul_eq_mul]; ring
  · intro k hk j
    rw [← mulVec_single S k j hwf]
    have hnn : ∀ x : ℕ, (0 : ℝ) ≤ (if x = j then 1 else 0) := by intro x; split <;> norm_num
    rcases hrow k hk with ⟨a, b, h⟩ | ⟨a, b, c, c', h⟩ | ⟨v, p, q, h⟩ | ⟨v, h3, h⟩
    · rw [h]; have := hnn a; have := hnn b; linarith
    · rw [h]; have := hnn a; have := hnn b; have := hnn c; have := hnn c'; linarith
    · rw [h]; have := hnn v; have := hnn p; have := hnn q; linarith
    · rw [h]
      have hw := loopWeight_sum _ h3
      have h1 := mul_nonneg (sub_nonneg.mpr hw.1) (hnn v)
      have h2 : 0 ≤ ((nbrs F v).map (fun x => if x = j then (1 : ℝ) else 0)).sum := by
        apply List.sum_nonneg
        intro y hy
        obtain ⟨x, -, rfl⟩ := List.mem_map.mp hy
        exact hnn x
      have h3 := mul_nonneg hw.2 h2
      linarith
  · intro k hk c
    rw [hVu k hk c]
    unfold Csr.mulVec
    rw [hnc]

theorem mulVec_affine (S : Csr K) (a : Fin d → K) (x : ℕ → Fin d → K) (b : K) (k : ℕ) :
    S.mulVec (fun l => ∑ j, a j * x l j + b) k = ∑ j, a j * S.mulVec (fun l => x l j) k + b * S.mulVec (fun _ => 1) k := by
  unfold Csr.mulVec
  simp only [mul_add, Finset.sum_add_distrib, Finset.mul_sum]
  congr 1
  · rw [Finset.sum_comm]
    apply Finset.sum_congr rfl
    intro j _
    apply Finset.sum_congr rfl
    intro l _
    ring
  · apply Finset.sum_congr rfl
    intro l _
    ring

/-- C19: Loop subdivision commutes with affine maps: subdividing the mesh with the vertices `A x + b` gives the same triangles, and the
vertices `A y + b` for the subdivided vertices `y`. -/
theorem C19_loop_affine {d' : ℕ} (V : List (Fin d → K)) (F : List Tri) (hne : F ≠ []) (hF : OrientedManifold F) (hr : InRange F V.length)
    (hall : ∀ v < V.length, 0 < cornerCount F v) (hval : ∀ v, IsInteriorVertex F v → 3 ≤ (nbrs F v).length) (hb : BdryVertexManifold F)
    (A : Fin d' → Fin d → K) (b : Fin d' → K) :
    ∃ Vu Vu' Fu S, loopTriangleMesh V F = some ⟨some Vu, Fu, S⟩ ∧
      loopTriangleMesh (V.map (fun x i => ∑ j, A i j * x j + b i)) F = some ⟨some Vu', Fu, S⟩ ∧
      Vu' = Vu.map (fun y i => ∑ j, A i j * y j + b i) := by
  have hVpos : 0 < V.length := by
    obtain ⟨t, ht⟩ := List.exists_mem_of_ne_nil F hne
    have := hr t ht
    omega
  have hint : ∀ e ∈ tailS F, 3 ≤ nAdj (EL F) e.s := by
    intro e he
    have h1 := List.mem_filter.mp he
    have h2 : e.s ∉ bV F := by simpa using h1.2
    have hi : IsInteriorVertex F e.s := ⟨hall _ (sub_side_lt hr h1.1).1, fun b hb =>
      ⟨fun h => h2 ((mem_bV hF).mpr ⟨b, hb, Or.inl h⟩), fun h => h2 ((mem_bV hF).mpr ⟨b, hb, Or.inr h⟩)⟩⟩
    rw [nAdj_eq hF hi.2 (nbrs_ne_nil hi.1)]
    exact_mod_cast hval _ hi
  set V' := V.map (fun x i => ∑ j, A i j * x j + b i) with hV'
  have hlV : V'.length = V.length := by simp [hV']
  obtain ⟨Vu, hl, hlen, hk, hwf⟩ := loop_eq (K := K) (d := d) hne hF hr (hall _ (by omega)) hint
  obtain ⟨Vu', hl', hlen', hk', -⟩ := loop_eq (K := K) (d := d') (V := V') hne hF (by rw [hlV]; exact hr) (by rw [hlV]; exact hall _ (by omega)) hint
  obtain ⟨Vu2, Fu2, S2, hl2, hnr2, hnc2, -, hVu2, hrow2⟩ := loop_row_cases V F hne hF hr hall hval hb
  rw [hl] at hl2
  simp only [Option.some.injEq, SubdivOut.mk.injEq] at hl2
  obtain ⟨rfl, -, rfl⟩ := hl2
  rw [hlV] at hl' hlen' hk'
  refine ⟨Vu, Vu', _, _, hl, hl', ?_⟩
  apply List.ext_getElem?
  intro k
  rw [List.getElem?_map]
  by_cases h : k < Vu.length
  · rw [hk k h, hk' k (by omega), Option.map_some]
    congr 1
    funext i
    set S : Csr K := ⟨V.length + (EL F).length, V.length, loopTrip K F V.length⟩ with hS
    have hone : S.mulVec (fun _ => (1 : K)) k = 1 := by
      rcases hrow2 k h with ⟨a, b, h⟩ | ⟨a, b, c, c', h⟩ | ⟨v, p, q, h⟩ | ⟨v, -, h⟩
      · rw [h]; norm_num
      · rw [h]; norm_num
      · rw [h]; norm_num
      · rw [h, List.map_const', List.sum_replicate, nsmul_eq_mul]; ring
    have e1 : S.mulVec (fun l => (V'.getD l 0) i) k = S.mulVec (fun l => ∑ j, A i j * (V.getD l 0) j + b i) k := by
      unfold Csr.mulVec
      apply Finset.sum_congr rfl
      intro l hl
      have hlt : l < V.length := Finset.mem_range.mp hl
      congr 1
      simp only [hV', List.getD_eq_getElem?_getD, List.getElem?_map, List.getElem?_eq_getElem hlt]
      rfl
    rw [e1, mulVec_affine, hone, mul_one]
  · rw [List.getElem?_eq_none (by omega), List.getElem?_eq_none (by omega)]
    rfl

/-- the square of two triangles meets the hypotheses: all four vertices are on the boundary -/
example : OrientedManifold [⟨0, 1, 2⟩, ⟨2, 1, 3⟩] ∧ InRange [⟨0, 1, 2⟩, ⟨2, 1, 3⟩] 4 ∧ (∀ v < 4, 0 < cornerCount [⟨0, 1, 2⟩, ⟨2, 1, 3⟩] v) := by
  decide
/-- a closed mesh (tetrahedron) meets the hypotheses, with four interior vertices of valence three -/
example : OrientedManifold [⟨0, 1, 2⟩, ⟨0, 2, 3⟩, ⟨0, 3, 1⟩, ⟨1, 3, 2⟩] ∧ InRange [⟨0, 1, 2⟩, ⟨0, 2, 3⟩, ⟨0, 3, 1⟩, ⟨1, 3, 2⟩] 4 ∧
    (∀ v < 4, 0 < cornerCount [⟨0, 1, 2⟩, ⟨0, 2, 3⟩, ⟨0, 3, 1⟩, ⟨1, 3, 2⟩] v) ∧
    (∀ v < 4, (nbrs [⟨0, 1, 2⟩, ⟨0, 2, 3⟩, ⟨0, 3, 1⟩, ⟨1, 3, 2⟩] v).length = 3) ∧
    (∀ e ∈ sides [⟨0, 1, 2⟩, ⟨0, 2, 3⟩, ⟨0, 3, 1⟩, ⟨1, 3, 2⟩], e.flip ∈ sides [⟨0, 1, 2⟩, ⟨0, 2, 3⟩, ⟨0, 3, 1⟩, ⟨1, 3, 2⟩]) := by
  decide

/-- C19, why the boundary must be manifold at its vertices: two triangles that touch in vertex 0 only, all vertices at the same place `1`; the
step moves vertex 0 to `2`. -/
theorem C19_bowtie_counterexample : OrientedManifold [⟨0, 1, 2⟩, ⟨0, 3, 4⟩] ∧
    ∃ Vu, (loopTriangleMesh (K := ℚ) (d := 1) (List.replicate 5 (fun _ => 1)) [⟨0, 1, 2⟩, ⟨0, 3, 4⟩]).bind (fun q => q.Vu) = some Vu ∧
      (Vu.map (fun x => x 0))[0]? = some 2 := by
  refine ⟨by decide, _, rfl, by decide +kernel⟩

/-- C19, why every vertex must be used: an unused vertex is moved to the origin. -/
theorem C19_unreferenced_counterexample :
    ∃ Vu, (loopTriangleMesh (K := ℚ) (d := 1) (List.replicate 4 (fun _ => 1)) [⟨0, 1, 3⟩]).bind (fun q => q.Vu) = some Vu ∧
      (Vu.map (fun x => x 0))[2]? = some 0 := by
  refine ⟨_, rfl, by decide +kernel⟩

/-- C19: if unused vertices come last, even the triangles are wrong: `Fu` numbers the new vertices from `max(F)+1`, but they are placed from row
`|V|`.  Here row 3 of `Vu` is the unused vertex, and `Fu` uses it as the midpoint of an edge. -/
theorem C19_trailing_vertex_counterexample :
    ∃ Vu Fu S, loopTriangleMesh (K := ℚ) (d := 1) [fun _ => 0, fun _ => 2, fun _ => 4, fun _ => 100] [⟨0, 1, 2⟩] = some ⟨some Vu, Fu, S⟩ ∧
      Fu[0]? = some ⟨0, 3, 4⟩ ∧ (Vu.map (fun x => x 0))[3]? = some 0 ∧ (Vu.map (fun x => x 0))[4]? = some 1 := by
  refine ⟨_, _, _, rfl, by decide +kernel, by decide +kernel, by decide +kernel⟩

end Gpy
