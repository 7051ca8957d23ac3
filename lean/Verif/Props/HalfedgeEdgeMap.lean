import Verif.Proofs.HalfedgeEdgeMapNM

/-! Properties C05, C06: `halfedge_edge_map`, `triangle_triangle_adjacency`. -/

namespace Gpy

/-- `(f,i)` is the index pair of an existing triangle side, and that side is the directed edge `e`. -/
def SideAt (F : List Tri) (q : Int × Int) (e : Edge) : Prop :=
  ∃ (f : ℕ) (t : Tri) (i : Fin 3), q = ((f : Int), (i.val : Int)) ∧ F[f]? = some t ∧ t.side i = e

/-- C05 (manifold mode).  For a consistently oriented edge-manifold mesh the function succeeds and
* `he[f,i]` is side `i` of triangle `f`;
* `he_to_E[f,i] = k` exactly when row `k` of `E` is side `(f,i)` up to orientation, and there is such a `k`;
* `E_to_he[k,0]` is a side equal to `E[k]`; `E_to_he[k,1]` is a side equal to the reverse of `E[k]` if the edge has two
  triangles, and `(-1,-1)` if it has one;
* no undirected edge occurs twice in `E`. -/
theorem C05_halfedge_edge_map_manifold (F : List Tri) (hne : F ≠ []) (hF : OrientedManifold F) :
    ∃ out, halfedgeEdgeMap F = some out ∧
      out.E.Pairwise (fun e e' => ¬ Undir e e') ∧
      out.he.length = F.length ∧ out.heToE.length = F.length ∧ out.EToHe.length = out.E.length ∧
      (∀ (f : ℕ) (t : Tri) (i : Fin 3), F[f]? = some t →
        (∃ h, out.he[f]? = some h ∧ h.get i = t.side i) ∧
        ∃ r, out.heToE[f]? = some r ∧ (∃ k : ℕ, r.get i = (k : Int)) ∧
          ∀ k : ℕ, r.get i = (k : Int) ↔ ∃ e, out.E[k]? = some e ∧ Undir e (t.side i)) ∧
      (∀ (k : ℕ) (e : Edge), out.E[k]? = some e →
        ∃ q0 q1, out.EToHe[k]? = some (q0, q1) ∧ SideAt F q0 e ∧
          ((incid F e = 1 ∧ q1 = (-1, -1)) ∨ (incid F e = 2 ∧ SideAt F q1 e.flip))) := by
  refine ⟨_, halfedgeEdgeMap_eq hne hF, EL_pairwise F, by simp [heL], by simp [heToEL], EToHeL_length F, ?_, ?_⟩
  · intro f t i hf
    have hlt := (List.getElem?_eq_some_iff.mp hf).1
    refine ⟨?_, ?_⟩
    · refine ⟨⟨⟨t.b, t.c⟩, ⟨t.c, t.a⟩, ⟨t.a, t.b⟩⟩, by simp [heL, List.getElem?_map, hf], ?_⟩
      match i with
      | 0 => rfl
      | 1 => rfl
      | 2 => rfl
    · refine ⟨⟨scatterLookup (writesL F) f 0, scatterLookup (writesL F) f 1, scatterLookup (writesL F) f 2⟩, ?_, ?_⟩
      · simp [heToEL, List.getElem?_map, List.getElem?_range hlt]
      · have hr : (Row3.mk (scatterLookup (writesL F) f 0) (scatterLookup (writesL F) f 1)
            (scatterLookup (writesL F) f 2)).get i = scatterLookup (writesL F) f i.val := by
          match i with
          | 0 => rfl
          | 1 => rfl
          | 2 => rfl
        rw [hr]
        obtain ⟨k, hk, e, he, hu⟩ := heToE_lookup hF hf i
        refine ⟨⟨k, hk⟩, fun k' => ⟨fun h => ?_, ?_⟩⟩
        · rw [hk] at h
          have : k = k' := by exact_mod_cast h
          exact this ▸ ⟨e, he, hu⟩
        · rintro ⟨e', he', hu'⟩
          have : k = k' := by
            refine EL_unique he he' ?_
            rw [← Edge.sort_eq_iff] at *
            rw [← hu, ← hu']
          rw [hk, this]
  · intro k e hk
    obtain ⟨q0, q1, h1, h2, h3⟩ := EToHeL_spec hF hk
    refine ⟨q0, q1, h1, h2, ?_⟩
    rcases h3 with ⟨h3, h4⟩ | ⟨h3, h4⟩
    · exact Or.inl ⟨h4, h3⟩
    · exact Or.inr ⟨h4, h3⟩

/-- two triangles sharing an edge meet the hypotheses of C05 and C06 -/
example : OrientedManifold [⟨0, 1, 2⟩, ⟨2, 1, 3⟩] := by decide
example : halfedgeEdgeMap [⟨0, 1, 2⟩, ⟨2, 1, 3⟩] = some
    { he := [⟨⟨1, 2⟩, ⟨2, 0⟩, ⟨0, 1⟩⟩, ⟨⟨1, 3⟩, ⟨3, 2⟩, ⟨2, 1⟩⟩]
      E := [⟨0, 1⟩, ⟨2, 0⟩, ⟨1, 3⟩, ⟨3, 2⟩, ⟨1, 2⟩]
      heToE := [⟨4, 1, 0⟩, ⟨2, 3, 4⟩]
      EToHe := [((0, 2), -1, -1), ((0, 1), -1, -1), ((1, 0), -1, -1), ((1, 1), -1, -1), ((0, 0), 1, 2)] } := by
  decide +kernel

/-- C05, why the orientation hypothesis cannot be dropped: on the edge-manifold but inconsistently oriented pair
`[0,1,2],[1,2,3]` the function succeeds, but reports the non-existent halfedge `(1,-1)` as second halfedge of edge 4. -/
theorem C05_unoriented_counterexample : ∃ out, halfedgeEdgeMap [⟨0, 1, 2⟩, ⟨1, 2, 3⟩] = some out ∧
    out.EToHe[4]? = some ((0, 0), (1, -1)) := by
  refine ⟨{ he := [⟨⟨1, 2⟩, ⟨2, 0⟩, ⟨0, 1⟩⟩, ⟨⟨2, 3⟩, ⟨3, 1⟩, ⟨1, 2⟩⟩]
            E := [⟨0, 1⟩, ⟨2, 0⟩, ⟨3, 1⟩, ⟨2, 3⟩, ⟨1, 2⟩]
            heToE := [⟨4, 1, 0⟩, ⟨3, 2, 4⟩]
            EToHe := [((0, 2), -1, -1), ((0, 1), -1, -1), ((1, 1), -1, -1), ((1, 0), -1, -1), ((0, 0), 1, -1)] },
    by decide +kernel, by decide +kernel⟩

/-- C05 (`assume_manifold=False`): for *every* nonempty triangle list the function succeeds, `E_to_he[k]` lists exactly once
each triangle side on edge `k` in either orientation, and `he_to_E` is its inverse. -/
theorem C05_halfedge_edge_map_nonmanifold (F : List Tri) (hne : F ≠ []) :
    ∃ out, halfedgeEdgeMapNM F = some out ∧
      out.E.Pairwise (fun e e' => ¬ Undir e e') ∧
      out.he.length = F.length ∧ out.heToE.length = F.length ∧ out.EToHe.length = out.E.length ∧
      (∀ (f : ℕ) (t : Tri) (i : Fin 3), F[f]? = some t →
        (∃ h, out.he[f]? = some h ∧ h.get i = t.side i) ∧
        ∃ r, out.heToE[f]? = some r ∧ (∃ k : ℕ, r.get i = (k : Int)) ∧
          ∀ k : ℕ, r.get i = (k : Int) ↔ ∃ e, out.E[k]? = some e ∧ Undir e (t.side i)) ∧
      (∀ (k : ℕ) (e : Edge), out.E[k]? = some e → e ∈ sides F ∧
        ∃ L, out.EToHe[k]? = some L ∧ L.Nodup ∧ ∀ q, q ∈ L ↔ ∃ h, Undir e h ∧ SideAt F q h) := by
  refine ⟨_, halfedgeEdgeMapNM_eq hne, EL_pairwise F, by simp [heL], by simp [heToENML], EToHeNML_length F, ?_, ?_⟩
  · intro f t i hf
    have hlt := (List.getElem?_eq_some_iff.mp hf).1
    refine ⟨?_, ?_⟩
    · refine ⟨⟨⟨t.b, t.c⟩, ⟨t.c, t.a⟩, ⟨t.a, t.b⟩⟩, by simp [heL, List.getElem?_map, hf], ?_⟩
      match i with
      | 0 => rfl
      | 1 => rfl
      | 2 => rfl
    · refine ⟨⟨scatterLookup (writesNML F) f 0, scatterLookup (writesNML F) f 1, scatterLookup (writesNML F) f 2⟩, ?_, ?_⟩
      · simp [heToENML, List.getElem?_map, List.getElem?_range hlt]
      · have hr : (Row3.mk (scatterLookup (writesNML F) f 0) (scatterLookup (writesNML F) f 1)
            (scatterLookup (writesNML F) f 2)).get i = scatterLookup (writesNML F) f i.val := by
          match i with
          | 0 => rfl
          | 1 => rfl
          | 2 => rfl
        rw [hr]
        obtain ⟨k, hk, e, he, hu⟩ := heToENM_lookup hf i
        refine ⟨⟨k, hk⟩, fun k' => ⟨fun h => ?_, ?_⟩⟩
        · rw [hk] at h
          have : k = k' := by exact_mod_cast h
          exact this ▸ ⟨e, he, hu⟩
        · rintro ⟨e', he', hu'⟩
          have : k = k' := by
            refine EL_unique he he' ?_
            rw [← Edge.sort_eq_iff] at *
            rw [← hu, ← hu']
          rw [hk, this]
  · intro k e hk
    exact ⟨mem_EL_side (List.mem_of_getElem? hk), EToHeNML_spec hk⟩

/-- three triangles on one edge -/
example : (halfedgeEdgeMapNM [⟨0, 1, 2⟩, ⟨1, 2, 3⟩, ⟨2, 1, 4⟩]).map (fun o => (o.E, o.EToHe)) = some
    ([⟨0, 1⟩, ⟨2, 0⟩, ⟨3, 1⟩, ⟨1, 4⟩, ⟨2, 3⟩, ⟨4, 2⟩, ⟨1, 2⟩],
     [[(0, 2)], [(0, 1)], [(1, 1)], [(2, 0)], [(1, 0)], [(2, 1)], [(0, 0), (1, 2), (2, 2)]]) := by decide +kernel

/-! ## C06 -/

/-- C06: `TT[f,i], TTi[f,i]` name the triangle across side `i` of triangle `f` and the matching side there (which points
back), or are both `-1` exactly when the side has no opposite side, i.e. is a boundary edge. -/
theorem C06_triangle_triangle_adjacency (F : List Tri) (hne : F ≠ []) (hF : OrientedManifold F) :
    ∃ TT TTi, triangleTriangleAdjacency F = some (TT, TTi) ∧ TT.length = F.length ∧ TTi.length = F.length ∧
      ∀ (f : ℕ) (t : Tri) (i : Fin 3), F[f]? = some t →
        ∃ r ri, TT[f]? = some r ∧ TTi[f]? = some ri ∧
          ((r.get i = -1 ∧ ri.get i = -1 ∧ incid F (t.side i) = 1 ∧ (t.side i).flip ∉ sides F) ∨
           (∃ (g : ℕ) (u : Tri) (j : Fin 3), r.get i = (g : Int) ∧ ri.get i = (j.val : Int) ∧ F[g]? = some u ∧
              u.side j = (t.side i).flip ∧ incid F (t.side i) = 2 ∧
              ∃ r' ri', TT[g]? = some r' ∧ TTi[g]? = some ri' ∧ r'.get j = (f : Int) ∧ ri'.get j = (i.val : Int))) := by
  refine ⟨_, _, tta_eq hne, by simp, by simp, ?_⟩
  intro f t i hf
  have hside : t.side i ∈ sides F := mem_sides.mpr ⟨f, t, i, hf, rfl⟩
  have hincpos : 1 ≤ incid F (t.side i) := (incid_pos_iff F _).mpr ⟨_, hside, Or.inl rfl⟩
  refine ⟨_, _, by rw [List.getElem?_map, hf]; rfl, by rw [List.getElem?_map, hf]; rfl, ?_⟩
  rw [row_get_map, row_get_map]
  by_cases hfl : (t.side i).flip ∈ sides F
  · right
    -- general fact: for a side whose flip is a side at (g,j)
    have gen : ∀ e : Edge, e.flip ∈ sides F → ∃ (g : ℕ) (u : Tri) (j : Fin 3), ttOf F e = (g : Int) ∧
        ttiOf F e = (j.val : Int) ∧ F[g]? = some u ∧ u.side j = e.flip := by
      intro e he
      obtain ⟨k, hk, hk2⟩ := idxOf_flip_get he
      obtain ⟨g, u, j, hq, hg, hs⟩ := halfedgeAt_unflat hk2
      unfold unflatHe at hq
      simp only [Prod.mk.injEq] at hq
      refine ⟨g, u, j, ?_, ?_, hg, hs⟩
      · unfold ttOf; rw [hk, if_neg (by omega)]; exact hq.1
      · unfold ttiOf; rw [hk, if_neg (by omega)]; exact hq.2
    obtain ⟨g, u, j, h1, h2, h3, h4⟩ := gen _ hfl
    refine ⟨g, u, j, h1, h2, h3, h4, ?_, ?_⟩
    · apply incid_eq_two hF
      have hsub : [t.side i, (t.side i).flip] ⊆ (sides F).filter (fun h => Undir (t.side i) h) := by
        intro x hx
        rw [List.mem_filter]
        simp at hx
        rcases hx with rfl | rfl
        · exact ⟨hside, by simp [Undir]⟩
        · exact ⟨hfl, by simp [Undir]⟩
      have hnd : [t.side i, (t.side i).flip].Nodup := by simpa using side_not_loop hF hside
      exact (List.subperm_of_subset hnd hsub).length_le
    · refine ⟨_, _, by rw [List.getElem?_map, h3]; rfl, by rw [List.getElem?_map, h3]; rfl, ?_⟩
      rw [row_get_map, row_get_map, h4]
      obtain ⟨g', u', j', h1', h2', h3', h4'⟩ := gen (t.side i).flip (by simpa using hside)
      rw [Edge.flip_flip] at h4'
      have := halfedgeAt_unique hF (e := t.side i) (q := ((g' : Int), (j'.val : Int))) (q' := ((f : Int), (i.val : Int)))
        ⟨g', u', j', rfl, h3', h4'⟩ ⟨f, t, i, rfl, hf, rfl⟩
      simp only [Prod.mk.injEq] at this
      rw [h1', h2']; exact this
  · left
    have hneg : secondI F (t.side i) = -1 := by
      unfold secondI
      rw [if_neg]
      intro h
      rw [List.mem_map] at h
      obtain ⟨x, hx, hx2⟩ := h
      exact hfl (by rw [← hx2, Edge.flip_flip]; exact mem_flatL.mp hx)
    refine ⟨by unfold ttOf; rw [hneg]; rfl, by unfold ttiOf; rw [hneg]; rfl, ?_, hfl⟩
    by_contra hi
    exact hfl (flip_mem_of_incid hF (by omega)).2

example : triangleTriangleAdjacency [⟨0, 1, 2⟩, ⟨2, 1, 3⟩] =
    some ([⟨1, -1, -1⟩, ⟨-1, -1, 0⟩], [⟨2, -1, -1⟩, ⟨-1, -1, 0⟩]) := by decide +kernel

end Gpy
