import Verif.Props.SubdivTopology
import Verif.Props.LoopSubdivide

/-! C135: iterated Loop subdivision. -/

set_option autoImplicit false
namespace Gpy
open Np

variable {F : List Tri} {n : ℕ} {mid : Edge → ℕ}

/-- the triangle on the left of a side and its third corner -/
theorem side_third (hF : OrientedManifold F) {e : Edge} (he : e ∈ sides F) : ∃ t ∈ F, ∃ c : ℕ, e ∈ [t.side 0, t.side 1, t.side 2] ∧
    (∀ v : ℕ, (v = t.a ∨ v = t.b ∨ v = t.c) ↔ (v = e.s ∨ v = e.t ∨ v = c)) ∧ (⟨c, e.s⟩ : Edge) ∈ sides F ∧ c ≠ e.s ∧ c ≠ e.t := by
  obtain ⟨t, ht, h⟩ := List.mem_flatMap.mp he
  have hn := hF.2 t ht
  have s0 := side_mem_of ht 0
  have s1 := side_mem_of ht 1
  have s2 := side_mem_of ht 2
  have h' := h
  simp only [List.mem_cons, List.not_mem_nil, or_false] at h'
  rcases h' with rfl | rfl | rfl
  · exact ⟨t, ht, t.a, h, fun v => by simp only [Tri.side]; tauto, s2, hn.1, fun h => hn.2.2 h.symm⟩
  · exact ⟨t, ht, t.b, h, fun v => by simp only [Tri.side]; tauto, s0, hn.2.1, fun h => hn.1 h.symm⟩
  · exact ⟨t, ht, t.c, h, fun v => by simp only [Tri.side], s1, hn.2.2, fun h => hn.2.1 h.symm⟩

theorem corner_side {v : ℕ} (h : 0 < cornerCount F v) : ∃ e ∈ sides F, e.s = v := by
  obtain ⟨b, hb⟩ := List.exists_mem_of_ne_nil _ (nbrs_ne_nil h)
  obtain ⟨e, he, -⟩ := List.mem_map.mp hb
  have := List.mem_filter.mp he
  exact ⟨e, this.1, by simpa using this.2⟩

theorem side_corner {e : Edge} (he : e ∈ sides F) : 0 < cornerCount F e.s := by
  obtain ⟨t, ht, h⟩ := List.mem_flatMap.mp he
  refine List.count_pos_iff.mpr (List.mem_flatMap.mpr ⟨t, ht, ?_⟩)
  simp only [List.mem_cons, List.not_mem_nil, or_false] at h ⊢
  rcases h with rfl | rfl | rfl <;> simp [Tri.side]

/-- in a mesh without two triangles on the same vertices every interior vertex has at least three neighbours -/
theorem valence_three (hF : OrientedManifold F) (hT : NoTwin F) {v : ℕ} (hv : IsInteriorVertex F v) : 3 ≤ (nbrs F v).length := by
  have back : ∀ c, (⟨c, v⟩ : Edge) ∈ sides F → (⟨v, c⟩ : Edge) ∈ sides F := by
    intro c h
    by_contra hc
    exact (hv.2 ⟨c, v⟩ ⟨h, hc⟩).2 rfl
  have nb : ∀ c, (⟨v, c⟩ : Edge) ∈ sides F → c ∈ nbrs F v := fun c h => List.mem_map.mpr ⟨_, List.mem_filter.mpr ⟨h, by simp⟩, rfl⟩
  obtain ⟨e, he, hs⟩ := corner_side hv.1
  obtain ⟨v', b⟩ := e
  simp only at hs
  subst hs
  obtain ⟨t, ht, c, m1, k1, c1, d1, d2⟩ := side_third hF he
  have c2 := back c c1
  obtain ⟨t', ht', x, m2, k2, x1, d3, d4⟩ := side_third hF c2
  have x2 := back x x1
  simp only at *
  have hne : b ≠ v' := fun h => side_ne hF he h.symm
  have hbx : x ≠ b := by
    rintro rfl
    have hsame : SameCorners t t' := by
      intro y
      rw [k1, k2]; tauto
    have htt : t ≠ t' := by
      rintro rfl
      have hd := hF.2 t ht
      simp only [List.mem_cons, List.not_mem_nil, or_false, Tri.side, Edge.mk.injEq] at m1 m2
      omega
    have : Std.Symm (fun t u => ¬ SameCorners t u) := ⟨fun a b h h' => h (sameCorners_symm h')⟩
    exact List.Pairwise.forall hT ht ht' htt hsame
  have hnd : [b, c, x].Nodup := by
    simp only [List.nodup_cons, List.mem_cons, List.not_mem_nil, or_false, not_or, List.nodup_nil, not_false_eq_true, and_true]
    exact ⟨⟨fun h => d2 h.symm, fun h => hbx h.symm⟩, fun h => d4 h.symm⟩
  have hsub : [b, c, x] ⊆ nbrs F v' := by
    intro y hy
    simp only [List.mem_cons, List.not_mem_nil, or_false] at hy
    rcases hy with rfl | rfl | rfl
    · exact nb _ he
    · exact nb _ c2
    · exact nb _ x2
  simpa using (List.subperm_of_subset hnd hsub).length_le

theorem split_used {m : ℕ} (hk : ∀ k, n ≤ k → k < m → ∃ e ∈ sides F, mid e = k) (hall : ∀ v < n, 0 < cornerCount F v) :
    ∀ v < m, 0 < cornerCount (splitT mid F) v := by
  intro v hv
  rcases lt_or_ge v n with h | h
  · obtain ⟨e, he, rfl⟩ := corner_side (hall v h)
    exact side_corner (e := ⟨e.s, mid e⟩) (mem_sides_split.mpr (Or.inl ⟨e, he, by simp [outerS]⟩))
  · obtain ⟨e, he, rfl⟩ := hk v h hv
    exact side_corner (e := ⟨mid e, e.t⟩) (mem_sides_split.mpr (Or.inl ⟨e, he, by simp [outerS]⟩))

theorem split_bdryVertex (hF : OrientedManifold F) (hm : MidOk F n mid) (hb : BdryVertexManifold F) : BdryVertexManifold (splitT mid F) := by
  have old : ∀ v, v < n → (∃ e, IsBdrySide F e ∧ (e.s = v ∨ e.t = v)) →
      ∃ p q, (∀ e, IsBdrySide (splitT mid F) e ∧ e.t = v ↔ e = ⟨p, v⟩) ∧ (∀ e, IsBdrySide (splitT mid F) e ∧ e.s = v ↔ e = ⟨v, q⟩) := by
    intro v hv he
    obtain ⟨p, q, hp, hq⟩ := hb v he
    refine ⟨mid ⟨p, v⟩, mid ⟨v, q⟩, fun x => ⟨?_, ?_⟩, fun x => ⟨?_, ?_⟩⟩
    · rintro ⟨h1, h2⟩
      obtain ⟨e, he, hx⟩ := (split_boundary hF hm x).mp h1
      have hge := hm.ge e he.1
      simp only [outerS, List.mem_cons, List.not_mem_nil, or_false] at hx
      rcases hx with rfl | rfl
      · simp only at h2; omega
      · rw [(hp e).mp ⟨he, h2⟩]
    · rintro rfl
      exact ⟨(split_boundary hF hm _).mpr ⟨⟨p, v⟩, ((hp _).mpr rfl).1, by simp [outerS]⟩, rfl⟩
    · rintro ⟨h1, h2⟩
      obtain ⟨e, he, hx⟩ := (split_boundary hF hm x).mp h1
      have hge := hm.ge e he.1
      simp only [outerS, List.mem_cons, List.not_mem_nil, or_false] at hx
      rcases hx with rfl | rfl
      · rw [(hq e).mp ⟨he, h2⟩]
      · simp only at h2; omega
    · rintro rfl
      exact ⟨(split_boundary hF hm _).mpr ⟨⟨v, q⟩, ((hq _).mpr rfl).1, by simp [outerS]⟩, rfl⟩
  have new : ∀ e, IsBdrySide F e →
      ∃ p q, (∀ x, IsBdrySide (splitT mid F) x ∧ x.t = mid e ↔ x = ⟨p, mid e⟩) ∧ (∀ x, IsBdrySide (splitT mid F) x ∧ x.s = mid e ↔ x = ⟨mid e, q⟩) := by
    intro e he
    have hge := hm.ge e he.1
    have huniq : ∀ e', IsBdrySide F e' → mid e' = mid e → e' = e := by
      intro e' he' h
      rcases (hm.inj _ he.1 _ he'.1).mp h.symm with rfl | rfl
      · rfl
      · exact absurd he'.1 he.2
    refine ⟨e.s, e.t, fun x => ⟨?_, ?_⟩, fun x => ⟨?_, ?_⟩⟩
    · rintro ⟨h1, h2⟩
      obtain ⟨e', he', hx⟩ := (split_boundary hF hm x).mp h1
      have hlt := sub_side_lt hm.lt he'.1
      simp only [outerS, List.mem_cons, List.not_mem_nil, or_false] at hx
      rcases hx with rfl | rfl
      · rw [huniq e' he' h2]
      · simp only at h2; omega
    · rintro rfl
      exact ⟨(split_boundary hF hm _).mpr ⟨e, he, by simp [outerS]⟩, rfl⟩
    · rintro ⟨h1, h2⟩
      obtain ⟨e', he', hx⟩ := (split_boundary hF hm x).mp h1
      have hlt := sub_side_lt hm.lt he'.1
      simp only [outerS, List.mem_cons, List.not_mem_nil, or_false] at hx
      rcases hx with rfl | rfl
      · simp only at h2; omega
      · rw [huniq e' he' h2]
    · rintro rfl
      exact ⟨(split_boundary hF hm _).mpr ⟨e, he, by simp [outerS]⟩, rfl⟩
  rintro v ⟨x, hx, hv⟩
  obtain ⟨e, he, hx⟩ := (split_boundary hF hm x).mp hx
  have hlt := sub_side_lt hm.lt he.1
  simp only [outerS, List.mem_cons, List.not_mem_nil, or_false] at hx
  rcases hx with rfl | rfl <;> rcases hv with rfl | rfl
  · exact old _ hlt.1 ⟨e, he, Or.inl rfl⟩
  · exact new e he
  · exact new e he
  · exact old _ hlt.2 ⟨e, he, Or.inr rfl⟩

variable {d : ℕ}

theorem loop_eq' (V : List (Pt d)) (F : List Tri) (hne : F ≠ []) (hF : OrientedManifold F) (hr : InRange F V.length)
    (hall : ∀ v < V.length, 0 < cornerCount F v) (hval : ∀ v, IsInteriorVertex F v → 3 ≤ (nbrs F v).length) :
    ∃ Vu, loopTriangleMesh V F = some ⟨some Vu, splitT (fun e => V.length + eidx F e) F, ⟨V.length + (EL F).length, V.length, loopTrip ℝ F V.length⟩⟩ ∧
      Vu.length = V.length + (EL F).length := by
  have hVpos : 0 < V.length := by
    obtain ⟨t, ht⟩ := List.exists_mem_of_ne_nil F hne
    have := hr t ht
    omega
  have hint : ∀ e ∈ tailS F, IsInteriorVertex F e.s := by
    intro e he
    have h1 := List.mem_filter.mp he
    refine ⟨hall _ (sub_side_lt hr h1.1).1, ?_⟩
    intro b hb
    have h2 : e.s ∉ bV F := by simpa using h1.2
    refine ⟨fun h => h2 ((mem_bV hF).mpr ⟨b, hb, Or.inl h⟩), fun h => h2 ((mem_bV hF).mpr ⟨b, hb, Or.inr h⟩)⟩
  obtain ⟨Vu, hl, hlen, hk, hwf⟩ := loop_eq (K := ℝ) (d := d) hne hF hr (hall _ (by omega)) (by
    intro e he
    have hi := hint e he
    rw [nAdj_eq hF hi.2 (nbrs_ne_nil hi.1)]
    exact_mod_cast hval _ hi)
  exact ⟨Vu, hl, hlen⟩

/-- one step of Loop subdivision keeps all the hypotheses -/
theorem loop_step (V : List (Pt d)) (F : List Tri) (hne : F ≠ []) (hF : OrientedManifold F) (hr : InRange F V.length) (hT : NoTwin F)
    (hall : ∀ v < V.length, 0 < cornerCount F v) (hb : BdryVertexManifold F) :
    ∃ Vu Fu S, loopTriangleMesh V F = some ⟨some Vu, Fu, S⟩ ∧ S.ncols = V.length ∧
      (∀ k < Vu.length, ∑ j ∈ Finset.range V.length, S.get k j = 1) ∧ (∀ k < Vu.length, ∀ j, 0 ≤ S.get k j) ∧
      (∀ k < Vu.length, ∀ c, vpos Vu k c = ∑ j ∈ Finset.range V.length, S.get k j * vpos V j c) ∧
      Fu.length = 4 * F.length ∧ OrientedManifold Fu ∧ NoTwin Fu ∧ InRange Fu Vu.length ∧ (∀ v < Vu.length, 0 < cornerCount Fu v) ∧ BdryVertexManifold Fu ∧
      Vu.length = V.length + numEdges F ∧ numEdges Fu = 2 * numEdges F + 3 * F.length ∧ (bsides Fu).length = 2 * (bsides F).length ∧
      (∀ i j, i < V.length → j < V.length → (MeshReach Fu i j ↔ MeshReach F i j)) ∧ (∀ m, V.length ≤ m → m < Vu.length → ∃ i < V.length, MeshReach Fu i m) := by
  have hval : ∀ v, IsInteriorVertex F v → 3 ≤ (nbrs F v).length := fun v h => valence_three hF hT h
  obtain ⟨Vu, Fu, S, hl, hnr, hnc, h1, h2, h3⟩ := C19_loop_rows_convex V F hne hF hr hall hval hb
  obtain ⟨V', hl', hlen⟩ := loop_eq' V F hne hF hr hall hval
  have e1 := hl'.symm.trans hl
  simp only [Option.some.injEq, SubdivOut.mk.injEq] at e1
  obtain ⟨rfl, rfl, -⟩ := e1
  obtain ⟨Wu, Gu, T, he, hup, b1, b2, b3, b4, b5, b6, b7, b8, b9⟩ := upsample_topology (K := ℝ) (by norm_num) V F hne hF hr hT
  obtain ⟨N, T', hN, -, hup'⟩ := upsample_eq hne hF hr
  have e2 := hup'.symm.trans hup
  simp only [Option.some.injEq, Prod.mk.injEq, SubdivOut.mk.injEq] at e2
  obtain ⟨⟨hW, rfl, -⟩, -⟩ := e2
  have hWl : V'.length = Wu.length := by
    obtain ⟨N', hN', hl', -⟩ := midpoints_eq V (EL F) (fun e he => sub_side_lt hr (mem_EL_side he))
    rw [hN] at hN'
    cases hN'
    rw [hlen, ← hW, List.length_append, hl']
  have hm := midOk (F := F) hr
  refine ⟨V', _, S, hl, hnc, h1, h2, h3, b1, b2, b3, hWl ▸ b4, ?_, split_bdryVertex hF hm hb, hWl ▸ b5, b6, b7, b8, fun m hm1 hm2 => b9 m hm1 (hWl ▸ hm2)⟩
  apply split_used (n := V.length) _ hall
  intro k hk1 hk2
  have hlt : k - V.length < (EL F).length := by omega
  have hm' : (EL F)[k - V.length] ∈ sides F := mem_EL_side (List.getElem_mem hlt)
  obtain ⟨x, hx, hu⟩ := eidx_get hm'
  have := EL_unique hx (List.getElem?_eq_getElem hlt) hu
  exact ⟨_, hm', by omega⟩

/-- **C135** Loop subdivision can be iterated: for a consistently oriented edge-manifold mesh without two triangles on the same vertices, whose boundary is a
manifold and whose vertices are all used, any number of steps succeeds and gives such a mesh; every vertex of the result is a convex combination of the vertices of
the input, with the returned matrix as weights; and the topology is kept (Euler characteristic, boundary sides doubled by every step, connectivity). -/
theorem C135_loop_iterate (V : List (Pt d)) (F : List Tri) (hne : F ≠ []) (hF : OrientedManifold F) (hr : InRange F V.length) (hT : NoTwin F)
    (hall : ∀ v < V.length, 0 < cornerCount F v) (hb : BdryVertexManifold F) (k : ℕ) :
    ∃ Vu Fu S, subdivideLoop k V F = some (Vu, Fu, S) ∧ Fu.length = 4 ^ k * F.length ∧ OrientedManifold Fu ∧ NoTwin Fu ∧ BdryVertexManifold Fu ∧ InRange Fu Vu.length ∧
      (∀ v < Vu.length, 0 < cornerCount Fu v) ∧
      (∀ i < Vu.length, ∑ j ∈ Finset.range V.length, S i j = 1) ∧ (∀ i < Vu.length, ∀ j, 0 ≤ S i j) ∧
      (∀ i < Vu.length, ∀ c, vpos Vu i c = ∑ j ∈ Finset.range V.length, S i j * vpos V j c) ∧
      (Vu.length : ℤ) - numEdges Fu + Fu.length = V.length - numEdges F + F.length ∧
      (∃ B B' : List Edge, B.Nodup ∧ B'.Nodup ∧ (∀ e, e ∈ B ↔ IsBdrySide F e) ∧ (∀ e, e ∈ B' ↔ IsBdrySide Fu e) ∧ B'.length = 2 ^ k * B.length) ∧
      (∀ i j, i < V.length → j < V.length → (MeshReach Fu i j ↔ MeshReach F i j)) ∧ (∀ m < Vu.length, ∃ i < V.length, MeshReach Fu i m) := by
  have main : ∃ Vu Fu S, subdivideLoop k V F = some (Vu, Fu, S) ∧ Fu ≠ [] ∧ V.length ≤ Vu.length ∧ Fu.length = 4 ^ k * F.length ∧ OrientedManifold Fu ∧ NoTwin Fu ∧ BdryVertexManifold Fu ∧ InRange Fu Vu.length ∧
      (∀ v < Vu.length, 0 < cornerCount Fu v) ∧
      (∀ i < Vu.length, ∑ j ∈ Finset.range V.length, S i j = 1) ∧ (∀ i < Vu.length, ∀ j, 0 ≤ S i j) ∧
      (∀ i < Vu.length, ∀ c, vpos Vu i c = ∑ j ∈ Finset.range V.length, S i j * vpos V j c) ∧
      (Vu.length : ℤ) - numEdges Fu + Fu.length = V.length - numEdges F + F.length ∧ (bsides Fu).length = 2 ^ k * (bsides F).length ∧
      (∀ i j, i < V.length → j < V.length → (MeshReach Fu i j ↔ MeshReach F i j)) ∧ (∀ m < Vu.length, ∃ i < V.length, MeshReach Fu i m) := by
    induction k with
    | zero =>
      refine ⟨V, F, _, rfl, hne, le_refl _, by simp, hF, hT, hb, hr, hall, ?_, ?_, ?_, rfl, by simp, fun i j _ _ => Iff.rfl, fun m hm => ⟨m, hm, .refl⟩⟩
      · intro i hi
        simp [hi]
      · intro i hi j
        split <;> norm_num
      · intro i hi c
        simp [hi]
    | succ k ih =>
      obtain ⟨V1, F1, S1, a1, a2, a3, a4, a5, a6, a7, a8, a9, a10, a11, a12, a13, a14, a15, a16⟩ := ih
      obtain ⟨Vu, Fu, S, b1, b2, b3, b4, b5, b6, b7, b8, b9, b10, b11, b12, b13, b14, b15, b16⟩ := loop_step V1 F1 a2 a5 a8 a6 a9 a7
      refine ⟨Vu, Fu, fun i j => ∑ l ∈ Finset.range S.ncols, S.get i l * S1 l j, ?_, ?_, by omega, by rw [b6, a4, pow_succ]; ring, b7, b8, b11, b9, b10, ?_, ?_, ?_, ?_, ?_, ?_, ?_⟩
      · rw [subdivideLoop, a1, Option.bind_some]
        simp only
        rw [b1]
        rfl
      · intro h
        rw [h, List.length_nil] at b6
        have := List.length_pos_iff.mpr a2
        omega
      · intro i hi
        rw [b2, Finset.sum_comm]
        simp only [← Finset.mul_sum]
        rw [← b3 i hi]
        exact Finset.sum_congr rfl (fun l hl => by rw [a10 l (Finset.mem_range.mp hl), mul_one])
      · intro i hi j
        rw [b2]
        exact Finset.sum_nonneg (fun l hl => mul_nonneg (b4 i hi l) (a11 l (Finset.mem_range.mp hl) j))
      · intro i hi c
        rw [b5 i hi c, b2]
        simp only [Finset.sum_mul]
        rw [Finset.sum_comm]
        refine Finset.sum_congr rfl (fun l hl => ?_)
        rw [a12 l (Finset.mem_range.mp hl) c, Finset.mul_sum]
        exact Finset.sum_congr rfl (fun j _ => by ring)
      · rw [b12, b13, b6]; push_cast; linarith
      · rw [b14, a14, pow_succ]; ring
      · intro i j hi hj
        rw [b15 i j (by omega) (by omega), a15 i j hi hj]
      · intro m hm
        rcases lt_or_ge m V1.length with h | h
        · obtain ⟨i, hi, hr⟩ := a16 m h
          exact ⟨i, hi, (b15 i m (by omega) h).mpr hr⟩
        · obtain ⟨m', hm', hr'⟩ := b16 m h hm
          obtain ⟨i, hi, hr⟩ := a16 m' hm'
          exact ⟨i, hi, ((b15 i m' (by omega) hm').mpr hr).trans hr'⟩
  obtain ⟨Vu, Fu, S, a1, a2, a3, a4, a5, a6, a7, a8, a9, a10, a11, a12, a13, a14, a15, a16⟩ := main
  exact ⟨Vu, Fu, S, a1, a4, a5, a6, a7, a8, a9, a10, a11, a12, a13, ⟨bsides F, bsides Fu, bsides_nodup hF, bsides_nodup a5, fun e => mem_bsides, fun e => mem_bsides, a14⟩, a15, a16⟩

/-- a tetrahedron: closed, Euler characteristic two, after any number of steps -/
example (k : ℕ) : ∃ Vu Fu S, subdivideLoop k ([![0, 0, 0], ![1, 0, 0], ![0, 1, 0], ![0, 0, 1]] : List (Pt 3)) [⟨0, 2, 1⟩, ⟨0, 1, 3⟩, ⟨1, 2, 3⟩, ⟨0, 3, 2⟩] = some (Vu, Fu, S) ∧
    (Vu.length : ℤ) - numEdges Fu + Fu.length = 2 := by
  have hF : OrientedManifold [⟨0, 2, 1⟩, ⟨0, 1, 3⟩, ⟨1, 2, 3⟩, ⟨0, 3, 2⟩] := by decide
  have hcl : ∀ e ∈ sides [⟨0, 2, 1⟩, ⟨0, 1, 3⟩, ⟨1, 2, 3⟩, ⟨0, 3, 2⟩], e.flip ∈ sides [⟨0, 2, 1⟩, ⟨0, 1, 3⟩, ⟨1, 2, 3⟩, ⟨0, 3, 2⟩] := by decide
  obtain ⟨Vu, Fu, S, h1, -, -, -, -, -, -, -, -, -, h4, -⟩ := C135_loop_iterate [![0, 0, 0], ![1, 0, 0], ![0, 1, 0], ![0, 0, 1]] [⟨0, 2, 1⟩, ⟨0, 1, 3⟩, ⟨1, 2, 3⟩, ⟨0, 3, 2⟩]
    (by simp) hF (by decide) (by
      unfold NoTwin SameCorners
      simp only [List.pairwise_cons, List.mem_cons, List.not_mem_nil, or_false, forall_eq_or_imp, forall_eq, false_implies, implies_true, List.Pairwise.nil, and_true]
      refine ⟨⟨fun h => ?_, fun h => ?_, fun h => ?_⟩, ⟨fun h => ?_, fun h => ?_⟩, fun h => ?_⟩
      all_goals have := h 0; have := h 1; have := h 2; have := h 3; omega) (by decide) (by
      rintro v ⟨e, ⟨he, he'⟩, -⟩
      exact absurd (hcl e he) he') k
  refine ⟨Vu, Fu, S, h1, ?_⟩
  rw [h4]
  have : numEdges [⟨0, 2, 1⟩, ⟨0, 1, 3⟩, ⟨1, 2, 3⟩, ⟨0, 3, 2⟩] = 6 := by decide +kernel
  rw [this]; norm_num

end Gpy
