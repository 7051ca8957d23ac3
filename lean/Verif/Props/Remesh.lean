import Verif.Proofs.Remesh

/-! # C79: the loop of the remesher -/

set_option autoImplicit false
namespace Gpy

theorem side_on_surface {V : ℕ → V3 ℝ} {F : List Tri} {e : Edge} (he : e ∈ sides F) {x : V3 ℝ} {u v : ℝ} (hu : 0 ≤ u) (hv : 0 ≤ v) (huv : u + v = 1)
    (hx : x = u • V e.s + v • V e.t) : OnSurface V F x := by
  obtain ⟨t, ht, c, h⟩ := mem_sides_cyc.1 he
  refine ⟨t, ht, ?_⟩
  rcases h with rfl | rfl | rfl
  · exact ⟨u, v, 0, hu, hv, le_refl _, by linarith, by rw [hx]; ext <;> simp⟩
  · exact ⟨v, 0, u, hv, le_refl _, hu, by linarith, by rw [hx]; ext <;> simp <;> ring⟩
  · exact ⟨0, u, v, le_refl _, hu, hv, by linarith, by rw [hx]; ext <;> simp⟩

/-- **C79** (the result).  Remeshing a closed mesh whose first `k` vertices are fixed succeeds for every number of iterations and every target length (no pass accesses an array out of range) and
yields a closed mesh.  The fixed vertices are the first `k` vertices of the result, at their old places.  The feature edges are edges of the new mesh.  After at least one
iteration, every vertex of the result is used. -/
theorem C79_remesh (L : Libigl) (hL : LibOk L) (V : Arr (V3 ℝ)) (F : List Tri) (target : Arr ℝ) (iters k : ℕ) (fe : List Edge) (project : Bool)
    (h : Remeshable k V F fe) (ht : target.size = V.size) :
    ∃ M, remeshBotschCpp L V F target iters (List.range k) fe project = some M ∧ Remeshable k M.V M.F M.fe ∧ k ≤ M.V.size ∧ (∀ j < k, M.V.val j = V.val j) ∧
      (0 < iters → ∀ v < M.V.size, UsedIn M.F v) := by
  have hfe : ∀ e ∈ fe, e.s < V.size ∧ e.t < V.size := fun e he => by
    obtain ⟨e', he', hu'⟩ := h.feEdges e he
    obtain ⟨t, ht, c, hc⟩ := mem_sides_cyc.1 he'
    have u1 := used_lt h.closed ⟨t, ht, (hc.mem _).2 (Or.inl rfl)⟩
    have u2 := used_lt h.closed ⟨t, ht, (hc.mem _).2 (Or.inr (Or.inl rfl))⟩
    rcases hu' with rfl | rfl
    · exact ⟨u1, u2⟩
    · exact ⟨u2, u1⟩
  obtain ⟨M, a1, a2, _, _, a5⟩ := remesh_loop hL project (k := k) (V := V) (F := F) (fe := fe)
    (M := ⟨V, F, List.range k, fe, ⟨target.size, fun i => 1.4 * target.val i⟩, ⟨target.size, fun i => 0.7 * target.val i⟩, V, F⟩)
    ⟨h, rfl, fun _ _ => rfl, ht, ht⟩ (fun _ => ⟨rfl, rfl⟩) h.nonempty hfe iters
  refine ⟨M, a1, a2.ok, ?_, a2.keep, fun hi => (a5 hi).used⟩
  by_contra hc
  exact absurd (a2.fixed_lt (show M.V.size < k by omega)) (lt_irrefl _)

/-- **C79** (projection).  With projection and at least one iteration, every vertex of the result lies on the original surface, with the possible exception of vertices where feature
lines end or branch; and a vertex that is not fixed and on the course of a feature line lies on the original feature lines. -/
theorem C79_surface (L : Libigl) (hL : LibOk L) (V : Arr (V3 ℝ)) (F : List Tri) (target : Arr ℝ) (iters k : ℕ) (fe : List Edge)
    (h : Remeshable k V F fe) (ht : target.size = V.size) (hi : 0 < iters) :
    ∃ M, remeshBotschCpp L V F target iters (List.range k) fe true = some M ∧
      (∀ v < M.V.size, ¬ IsFeatureCorner M.fe v ∨ v < k → OnSurface V.val F (M.V.val v)) ∧
      (∀ v < M.V.size, k ≤ v → (featNbrs M.fe v).length = 2 → OnPolyline V.val fe (M.V.val v)) ∧ (fe = [] → M.fe = []) := by
  have hfe : ∀ e ∈ fe, e.s < V.size ∧ e.t < V.size := fun e he => by
    obtain ⟨e', he', hu'⟩ := h.feEdges e he
    obtain ⟨t, ht, c, hc⟩ := mem_sides_cyc.1 he'
    have u1 := used_lt h.closed ⟨t, ht, (hc.mem _).2 (Or.inl rfl)⟩
    have u2 := used_lt h.closed ⟨t, ht, (hc.mem _).2 (Or.inr (Or.inl rfl))⟩
    rcases hu' with rfl | rfl
    · exact ⟨u1, u2⟩
    · exact ⟨u2, u1⟩
  obtain ⟨M, a1, a2, a3, a4, a5⟩ := remesh_loop hL true (k := k) (V := V) (F := F) (fe := fe)
    (M := ⟨V, F, List.range k, fe, ⟨target.size, fun i => 1.4 * target.val i⟩, ⟨target.size, fun i => 0.7 * target.val i⟩, V, F⟩)
    ⟨h, rfl, fun _ _ => rfl, ht, ht⟩ (fun _ => ⟨rfl, rfl⟩) h.nonempty hfe iters
  have r := a5 hi
  have hline : ∀ v < M.V.size, k ≤ v → (featNbrs M.fe v).length = 2 → OnPolyline V.val fe (M.V.val v) := by
    intro v hv hk hl
    refine r.line rfl ?_ v hv hk hl
    rintro rfl
    rw [a4 rfl] at hl
    simp [featNbrs] at hl
  refine ⟨M, a1, ?_, hline, a4⟩
  intro v hv hc
  by_cases hk : v < k
  · -- a fixed vertex is a corner of a triangle
    rw [a2.keep v hk]
    obtain ⟨e, he, rfl⟩ := usedIn_side.1 (h.fixedUsed v hk)
    exact side_on_surface he (u := 1) (v := 0) (by norm_num) (by norm_num) (by norm_num) (by ext <;> simp)
  · by_cases hn : featNbrs M.fe v = []
    · exact r.free rfl v hv (by omega) hn
    · have hl : (featNbrs M.fe v).length = 2 := by
        by_contra hl
        rcases hc with hc | hc
        · exact hc ⟨hn, hl⟩
        · exact hk hc
      obtain ⟨e, he, w, w0, w1, hs⟩ := hline v hv (by omega) hl
      obtain ⟨e', he', hu'⟩ := h.feEdges e he
      have he0 : e ∈ sides F := by
        rcases hu' with rfl | rfl
        · exact he'
        · exact h.closed.closed _ he'
      exact side_on_surface he0 (u := 1 - w) (v := w) (by linarith) w0 (by ring) (by rw [hs]; ext <;> simp <;> ring)

/-- A simple implementation of the libigl functions: the edge data structure is rebuilt after each flip, nothing is decimated (but unreferenced vertices are removed), and points are
projected to a corner. -/
noncomputable def simpleLib : Libigl where
  edgeMap := uniqueEdgeMap
  flip := rebuildFlip
  decimate _ V F :=
    let I := (List.range V.size).filter (fun v => 0 < cornerCount (alive F) v)
    ⟨⟨I.length, fun s => V.val (I.getD s 0)⟩, (alive F).map (fun t => t.map (fun v => I.idxOf v)), I, []⟩
  normals V _ := ⟨V.size, fun _ => ⟨0, 0, 0⟩⟩
  closest V F _ := V.val (F.headD ⟨0, 0, 0⟩).a

/-- the assumptions about libigl are consistent -/
theorem simpleLib_ok : LibOk simpleLib := by
  refine ⟨?_, rebuildFlip_spec, ?_, fun _ _ => rfl, ?_⟩
  · intro V high low F
    exact ⟨uniqueEdgeMap_isEdgeMap V high low F, rfl, rfl, rfl, uniqueEdgeMap_F V high low F⟩
  · intro C V F _
    refine ⟨V.val, F, Relation.ReflTransGen.refl, rfl, rfl, ?_, rfl⟩
    intro s h
    show V.val (((simpleLib.decimate C V F).I).getD s 0) = _
    rw [List.getD, List.getElem?_eq_getElem h]
    rfl
  · intro V F p hF
    obtain ⟨t, F, rfl⟩ := List.exists_cons_of_ne_nil hF
    exact ⟨t, by simp, 1, 0, 0, by norm_num, by norm_num, by norm_num, by norm_num, by ext <;> simp [simpleLib]⟩

/-- the octahedron of C78, with two fixed vertices and a feature edge, meets the hypotheses -/
theorem foF_remeshable : Remeshable 2 ⟨6, foV⟩ foF [⟨2, 1⟩] :=
  ⟨closedOriented_of (by decide +kernel), by decide, fun j hj => by
    have : j = 0 ∨ j = 1 := by omega
    rcases this with rfl | rfl
    · exact ⟨⟨0, 2, 3⟩, by simp [foF], Or.inl rfl⟩
    · exact ⟨⟨0, 4, 1⟩, by simp [foF], Or.inr (Or.inr rfl)⟩, by decide +kernel, by decide +kernel⟩

example : ∃ M, remeshBotschCpp simpleLib ⟨6, foV⟩ foF ⟨6, fun _ => 1⟩ 10 (List.range 2) [⟨2, 1⟩] true = some M ∧ M.V.val 1 = ⟨10, 0, 0⟩ ∧ 2 ≤ M.V.size := by
  obtain ⟨M, h1, _, h3, h4, _⟩ := C79_remesh simpleLib simpleLib_ok ⟨6, foV⟩ foF ⟨6, fun _ => 1⟩ 10 2 [⟨2, 1⟩] true foF_remeshable rfl
  exact ⟨M, h1, by rw [h4 1 (by norm_num)]; simp [foV], h3⟩

end Gpy
