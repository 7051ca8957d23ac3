import Verif.Proofs.RemeshTopology
import Verif.Props.RemeshPy

/-! C136: remeshing keeps the topology. -/

set_option autoImplicit false
namespace Gpy

theorem meshEdge_reach {S : SplitState} {e : Edge} (h : IsMeshEdge S e) : MeshReach (triList S.F) e.s e.t := by
  obtain ⟨e', he', hu⟩ := h
  rcases hu with rfl | rfl
  · exact MeshReach.side he'
  · exact (MeshReach.side he').symm

theorem meshEdge_used {S : SplitState} {e : Edge} (h : IsMeshEdge S e) : UsedIn (triList S.F) e.s ∧ UsedIn (triList S.F) e.t := by
  obtain ⟨e', he', hu⟩ := h
  have := side_used he'
  rcases hu with rfl | rfl
  · exact this
  · exact this.symm

theorem usedIn_triList {F : IMat} {v : ℕ} : UsedIn (triList F) v ↔ ∃ f < F.rows, ∃ c < 3, F.val f c = v := by
  rw [usedIn_side]
  constructor
  · rintro ⟨e, he, rfl⟩
    obtain ⟨f, hf, c, hc, rfl⟩ := (mem_sides_triList F e).mp he
    exact ⟨f, hf, (c + 1) % 3, by omega, rfl⟩
  · rintro ⟨f, hf, c, hc, rfl⟩
    refine ⟨⟨F.val f (((c + 2) % 3 + 1) % 3), F.val f (((c + 2) % 3 + 2) % 3)⟩, (mem_sides_triList F _).mpr ⟨f, hf, (c + 2) % 3, by omega, rfl⟩, ?_⟩
    simp only
    congr 1
    omega

theorem topo_split {S S' : SplitState} {todo : List ℕ} (hS : IsEdgeMap S) (hM : ClosedOriented S.V.size (triList S.F)) (hlt : ∀ u ∈ todo, u < S.uE.rows)
    (p : SplitProg S todo.length todo S') : Topo (triList S.F) (triList S'.F) id := by
  obtain ⟨s1, s2⟩ := spec_of_sinv p.inv p.ur p.pr
  have hrow' : ∀ u < S'.uE.rows, IsMeshEdge S' (edgeRow S'.uE u) := fun u hu => (isMeshEdge_iff s1 _).mpr ⟨u, hu, Or.inl rfl⟩
  have hle : S.uE.rows ≤ S'.uE.rows := by rw [p.ur]; omega
  have hnew : ∀ j (hj : j < todo.length), ∃ a b, Undir (edgeRow S.uE todo[j]) ⟨a, b⟩ ∧ IsMeshEdge S' ⟨S.V.size + j, a⟩ ∧ IsMeshEdge S' ⟨S.V.size + j, b⟩ := by
    intro j hj
    obtain ⟨a, b, x1, x2, x3, -⟩ := p.vnew j hj
    refine ⟨a, b, x1, ?_, ?_⟩
    · rw [← x2]; exact hrow' _ (by have := hlt _ (List.getElem_mem hj); omega)
    · rw [← x3]; exact hrow' _ (by rw [p.ur]; omega)
  -- old edges
  have hedge : ∀ u < S.uE.rows, MeshReach (triList S'.F) (edgeRow S.uE u).s (edgeRow S.uE u).t ∧ UsedIn (triList S'.F) (edgeRow S.uE u).s ∧ UsedIn (triList S'.F) (edgeRow S.uE u).t := by
    intro u hu
    by_cases hm : u ∈ todo
    · obtain ⟨j, hj, rfl⟩ := List.getElem_of_mem hm
      obtain ⟨a, b, x1, x2, x3⟩ := hnew j hj
      have r : MeshReach (triList S'.F) a b := (meshEdge_reach x2).symm.trans (meshEdge_reach x3)
      have ua := (meshEdge_used x2).2
      have ub := (meshEdge_used x3).2
      rcases x1 with h | h
      · rw [← h]; exact ⟨r, ua, ub⟩
      · have h' : (edgeRow S.uE todo[j]) = ⟨b, a⟩ := by
          have := congrArg Edge.flip h
          exact this.symm
        rw [h']; exact ⟨r.symm, ub, ua⟩
    · rw [← p.old u hu hm]
      have := hrow' u (by omega)
      exact ⟨meshEdge_reach this, meshEdge_used this⟩
  have hside : ∀ e ∈ sides (triList S.F), MeshReach (triList S'.F) e.s e.t ∧ UsedIn (triList S'.F) e.s := by
    intro e he
    obtain ⟨u, hu, hue⟩ := (isMeshEdge_iff hS e).mp ⟨e, he, Or.inl rfl⟩
    obtain ⟨r, u1, u2⟩ := hedge u hu
    rcases hue with h | h
    · rw [h]; exact ⟨r, u1⟩
    · rw [h]; exact ⟨r.symm, u2⟩
  have hused : ∀ v, UsedIn (triList S.F) v → UsedIn (triList S'.F) v := by
    intro v hv
    obtain ⟨e, he, rfl⟩ := usedIn_side.1 hv
    exact (hside e he).2
  have hold : ∀ v, UsedIn (triList S'.F) v → v < S.V.size → UsedIn (triList S.F) v := by
    intro v hv hlt
    obtain ⟨f, hf, c, hc, rfl⟩ := usedIn_triList.mp hv
    rw [p.inv.fr] at hf
    exact usedIn_triList.mpr (p.corn f hf c hc hlt)
  have hlt' : ∀ v, UsedIn (triList S'.F) v → v < S.V.size + todo.length := fun v hv => used_lt s2 hv
  refine ⟨hused, fun i j hi hj => ⟨reach_map (f := id) (fun e he => (hside e he).1), fun h => ?_⟩, ?_, ?_⟩
  · have hP : ∀ f < S.F.rows, ∀ c < 3, ∀ d < 3, (MeshReach (triList S.F) i (S.F.val f c) ↔ MeshReach (triList S.F) i (S.F.val f d)) := by
      intro f hf
      have one : ∀ c < 3, MeshReach (triList S.F) (S.F.val f ((c + 1) % 3)) (S.F.val f ((c + 2) % 3)) := by
        intro c hc
        exact MeshReach.side (e := ⟨_, _⟩) ((mem_sides_triList S.F _).mpr ⟨f, hf, c, hc, rfl⟩)
      have o0 := one 0 (by omega)
      have o1 := one 1 (by omega)
      norm_num at o0 o1
      have all : ∀ c < 3, (MeshReach (triList S.F) i (S.F.val f c) ↔ MeshReach (triList S.F) i (S.F.val f 2)) := by
        intro c hc
        interval_cases c
        · exact ⟨fun h => h.trans o1.symm, fun h => h.trans o1⟩
        · exact ⟨fun h => h.trans o0, fun h => h.trans o0.symm⟩
        · rfl
      intro c hc d hd
      exact (all c hc).trans (all d hd).symm
    obtain ⟨Q, k1, k2⟩ := p.conn _ hP
    have hl : ∀ e ∈ sides (triList S'.F), (Q e.s ↔ Q e.t) := by
      intro e he
      obtain ⟨f, hf, c, hc, rfl⟩ := (mem_sides_triList S'.F e).mp he
      rw [p.inv.fr] at hf
      exact k2 f hf _ (by omega) _ (by omega)
    have := reach_label hl h
    rw [id, id, k1 i (used_lt hM hi), k1 j (used_lt hM hj)] at this
    exact this.mp .refl
  · intro m hm
    by_cases hlm : m < S.V.size
    · exact ⟨m, hold m hm hlm, .refl⟩
    · have := hlt' m hm
      obtain ⟨a, b, x1, x2, -⟩ := hnew (m - S.V.size) (by omega)
      have e : S.V.size + (m - S.V.size) = m := by omega
      rw [e] at x2
      have hua : UsedIn (triList S.F) a := by
        have hu := hlt _ (List.getElem_mem (show m - S.V.size < todo.length by omega))
        have := (isMeshEdge_iff hS ⟨a, b⟩).mpr ⟨_, hu, x1⟩
        exact (meshEdge_used this).1
      exact ⟨a, hua, (meshEdge_reach x2).symm⟩
  · have hcard : numUsed (triList S'.F) = numUsed (triList S.F) + todo.length := by
      unfold numUsed
      have he : ((triList S'.F).flatMap (fun t => [t.a, t.b, t.c])).toFinset =
          ((triList S.F).flatMap (fun t => [t.a, t.b, t.c])).toFinset ∪ (Finset.range todo.length).image (fun j => S.V.size + j) := by
        ext v
        rw [mem_usedSet, Finset.mem_union, mem_usedSet, Finset.mem_image]
        constructor
        · intro hv
          by_cases hlm : v < S.V.size
          · exact Or.inl (hold v hv hlm)
          · have := hlt' v hv
            exact Or.inr ⟨v - S.V.size, Finset.mem_range.mpr (by omega), by omega⟩
        · rintro (hv | ⟨j, hj, rfl⟩)
          · exact hused v hv
          · obtain ⟨a, b, -, x2, -⟩ := hnew j (Finset.mem_range.mp hj)
            exact (meshEdge_used x2).1
      rw [he, Finset.card_union_of_disjoint, Finset.card_image_of_injective _ (fun x y h => by simpa using h), Finset.card_range]
      rw [Finset.disjoint_left]
      intro v hv hv'
      rw [mem_usedSet] at hv
      obtain ⟨j, -, rfl⟩ := Finset.mem_image.mp hv'
      have := used_lt hM hv
      omega
    have h1 : (triList S'.F).length = S.F.rows + 2 * todo.length := by unfold triList; rw [List.length_map, List.length_range, p.inv.fr]
    have h2 : (triList S.F).length = S.F.rows := by unfold triList; rw [List.length_map, List.length_range]
    rw [hcard, h1, h2]
    omega

theorem topo_decimated {C : CollapseIn} {V : Arr (V3 ℝ)} {F : List Tri} {U : Arr (V3 ℝ)} {G : List Tri} {I : List ℕ} {merges : List (ℕ × ℕ)} (hF : ClosedOriented V.size F)
    (hD : IsDecimated C V F U G I merges) : Topo F G (fun v => I.idxOf (repOf merges v)) := by
  obtain ⟨V', F', hrun, hI, hUs, hU, hG⟩ := hD.run
  have hrun' : ∀ s, Relation.ReflTransGen (fun s s' => ∃ a b p, CollapseStep C V.size a b p s s') ⟨V.val, F, []⟩ s → Topo F (alive s.F) (repOf s.merges) := by
    intro s h
    induction h with
    | refl => rw [proper_alive hF.manifold.2]; exact Topo.refl F
    | @tail s1 s2 h0 hs ih =>
      obtain ⟨a, b, p, hs⟩ := hs
      have inv := (run_inv hF h0).1
      obtain ⟨_, _, _, hab, _⟩ := inv.step hs
      have := ih.trans (topo_collapse inv.closed hs.edge)
      rw [← alive_collapse hab inv.closed.manifold.2, ← hs.F] at this
      have he : mergeTo a b ∘ repOf s1.merges = repOf s2.merges := funext (fun v => by rw [hs.merges, repOf_snoc]; rfl)
      rw [← he]
      exact this
  have h1 := hrun' _ hrun
  have inv := (run_inv hF hrun).1
  have memI : ∀ v, UsedIn (alive F') v → v ∈ I := by
    intro v hv
    rw [hI, List.mem_filter, List.mem_range]
    simp only [decide_eq_true_eq, ← usedIn_iff]
    exact ⟨used_lt inv.closed hv, hv⟩
  have h2 : Topo (alive F') G (fun v => I.idxOf v) := by
    rw [hG]
    exact topo_rename _ (fun v w hv hw h => (List.idxOf_inj (memI v hv)).1 h)
  exact h1.trans h2

/-- what remeshing does to the topology, with a map that leaves the fixed vertices alone -/
def Kept (k : ℕ) (F F' : List Tri) : Prop := ∃ f : ℕ → ℕ, (∀ j < k, f j = j) ∧ Topo F F' f

theorem Kept.trans {k : ℕ} {F F' F'' : List Tri} (h : Kept k F F') (h' : Kept k F' F'') : Kept k F F'' := by
  obtain ⟨f, h1, h2⟩ := h
  obtain ⟨g, h3, h4⟩ := h'
  exact ⟨g ∘ f, fun j hj => by rw [Function.comp, h1 j hj, h3 j hj], h2.trans h4⟩

section
variable {L : Libigl} {k : ℕ} {V : Arr (V3 ℝ)} {M M' : RMesh}

theorem splitPass_topo (hL : LibOk L) (h : RInv k V M) (hs : splitPass L M = some M') : Kept k M.F M'.F := by
  obtain ⟨e1, e2, e3, e4, e5⟩ := hL.edgeMap M.V M.high M.low M.F
  obtain ⟨S', hS', hcase⟩ := splitUntilBound_cases (L.edgeMap M.V M.high M.low M.F) M.feature M.fe e1 (by rw [e2, e5]; exact h.ok.closed) (by rw [e3, e2]; exact h.hs) (by rw [e4, e2]; exact h.ls)
  unfold splitPass at hs
  rw [hS'] at hs
  simp only [Option.bind_eq_bind, Option.bind_some, Option.some.injEq] at hs
  subst hs
  refine ⟨id, fun _ _ => rfl, ?_⟩
  show Topo M.F (triList S'.F) id
  rcases hcase with ⟨rfl, -⟩ | ⟨-, p⟩
  · rw [e5]; exact Topo.refl _
  · have := topo_split e1 (by rw [e2, e5]; exact h.ok.closed) (by
      intro u hu; unfold edgesToSplit at hu; exact List.mem_range.mp (List.mem_filter.mp hu).1) p
    rwa [e5] at this

theorem collapsePass_topo (hL : LibOk L) (h : RInv k V M) (hs : collapsePass L M = some M') : Kept k M.F M'.F := by
  set C : CollapseIn := ⟨(adjListF M.F).val, M.high.val, M.low.val, M.feature, M.fe⟩ with hC
  have hD := hL.decimate C M.V M.F h.ok.closed
  unfold collapsePass at hs
  simp only [← hC, Option.bind_eq_bind, Option.bind_eq_some_iff, Option.some.injEq] at hs
  obtain ⟨out, -, rfl⟩ := hs
  refine ⟨_, ?_, topo_decimated h.ok.closed hD⟩
  obtain ⟨V', F', hrun, hI, -⟩ := hD.run
  obtain ⟨inv, -⟩ := run_inv h.ok.closed hrun
  have hrf : ∀ j < k, repOf (L.decimate C M.V M.F).merges j = j := fun j hj => ((inv.fixed j (by rw [hC]; show j ∈ M.feature; rw [h.feature]; exact List.mem_range.2 hj)).1 j).2 rfl
  have hus : ∀ j < k, UsedIn (alive F') j := by
    intro j hj
    have := inv.used j (h.ok.fixedUsed j hj)
    rwa [hrf j hj] at this
  intro j hj
  show (L.decimate C M.V M.F).I.idxOf (repOf (L.decimate C M.V M.F).merges j) = j
  rw [hrf j hj, hI]
  refine idxOf_filter_range _ _ k ?_ ?_ j hj
  · by_contra hc
    exact absurd (h.fixed_lt (show M.V.size < k by omega)) (lt_irrefl _)
  · intro i hi
    rw [decide_eq_true_iff]
    exact usedIn_iff.1 (hus i hi)

theorem flipPass_topo (hL : LibOk L) (h : RInv k V M) (hs : flipPass L M = some M') : Kept k M.F M'.F := by
  obtain ⟨e1, e2, e3, e4, e5⟩ := hL.edgeMap M.V M.high M.low M.F
  obtain ⟨S', q1, -, -, -, q5⟩ := C76_flips L.flip hL.flip (L.edgeMap M.V M.high M.low M.F) M.feature M.fe e1 (by rw [e5]; exact h.ok.closed.manifold) (by rw [e5, e2]; exact h.ok.closed.range)
    (by intro v hv; rw [h.feature] at hv; rw [e2]; exact h.fixed_lt (List.mem_range.1 hv))
  unfold flipPass at hs
  rw [q1] at hs
  simp only [Option.bind_eq_bind, Option.bind_some, Option.some.injEq] at hs
  subst hs
  refine ⟨id, fun _ _ => rfl, ?_⟩
  show Topo M.F (triList S'.F) id
  rw [e5] at q5
  generalize triList S'.F = G at q5
  induction q5 with
  | refl => exact Topo.refl _
  | tail _ hs ih =>
    obtain ⟨v1, v2, v3, v4, g⟩ := hs
    exact ih.trans g.flip.topo

theorem relaxPass_topo {project : Bool} {featV0 : Arr (V3 ℝ)} {featE0 : List Edge} (hs : relaxPass L project featV0 featE0 M = some M') : M'.F = M.F := by
  unfold relaxPass at hs
  simp only [Option.bind_eq_bind, Option.bind_eq_some_iff, Option.some.injEq] at hs
  obtain ⟨W, -, rfl⟩ := hs
  cases project <;> rfl
end

theorem remesh_kept {L : Libigl} (hL : LibOk L) (project : Bool) {k : ℕ} {V : Arr (V3 ℝ)} {F : List Tri} {fe : List Edge} {M : RMesh} (h : RInv k V M)
    (hV0 : project = true → M.V0 = V ∧ M.F0 = F) (hF : F ≠ []) (hfe : ∀ e ∈ fe, e.s < V.size ∧ e.t < V.size) (iters : ℕ) :
    ∃ M', (List.range iters).foldlM (fun M _ => remeshIter L project V fe M) M = some M' ∧ RInv k V M' ∧ (project = true → M'.V0 = V ∧ M'.F0 = F) ∧ Kept k M.F M'.F := by
  induction iters with
  | zero => exact ⟨M, rfl, h, hV0, id, fun _ _ => rfl, Topo.refl _⟩
  | succ m ih =>
    obtain ⟨M0, z1, z2, z3, z4⟩ := ih
    obtain ⟨M1, a1, a2, a3, a4, a5⟩ := splitPass_ok hL z2
    obtain ⟨M2, b1, b2, b3, b4, b5, b6⟩ := collapsePass_ok hL a2
    obtain ⟨M3, c1, c2, c3, c4, c5, c6⟩ := flipPass_ok hL b2 b6
    obtain ⟨M4, d1, d2, d3, d4, d5⟩ := relaxPass_ok hL project c2 c6 (F := F) (fe := fe) (by rw [c3, b3, a3, c4, b4, a4]; exact z3) hF hfe
    refine ⟨M4, ?_, d2, d3, ?_⟩
    · rw [List.range_succ, List.foldlM_append, z1]
      simp only [List.foldlM_cons, List.foldlM_nil, Option.bind_eq_bind, Option.bind_some, remeshIter, a1, b1, c1, d1, Option.pure_def]
    · have := ((z4.trans (splitPass_topo hL z2 a1)).trans (collapsePass_topo hL a2 b1)).trans (flipPass_topo hL b2 c1)
      rwa [← relaxPass_topo d1] at this

theorem two_mul_numEdges {n : ℕ} {G : List Tri} (hG : ClosedOriented n G) (hne : G ≠ []) : 2 * numEdges G = 3 * G.length := by
  have := numEdges_of_boundary hne hG.manifold (B := []) List.nodup_nil (fun e => ⟨fun h => absurd h (by simp), fun h => absurd (hG.closed e h.1) h.2⟩)
  simpa using this

theorem euler_of_topo {n m : ℕ} {F G : List Tri} {f : ℕ → ℕ} (T : Topo F G f) (hF : ClosedOriented n F) (hne : F ≠ []) (hG : ClosedOriented m G) (hne' : G ≠ []) :
    (numUsed G : ℤ) - numEdges G + G.length = numUsed F - numEdges F + F.length := by
  have c1 := two_mul_numEdges hF hne
  have c2 := two_mul_numEdges hG hne'
  have := T.euler
  omega

/-- **C136** Remeshing a closed mesh keeps its topology, whatever the target length, the number of iterations, the fixed vertices and the feature edges are: the number of used vertices minus the number of
edges plus the number of triangles stays the same, and the connected components correspond to each other: there is a map of the old to the new vertices that takes two vertices to connected ones exactly if they were connected, that
reaches every component, and that leaves the fixed vertices alone. -/
theorem C136_remesh_topology (L : Libigl) (hL : LibOk L) (V : Arr (V3 ℝ)) (F : List Tri) (target : Arr ℝ) (iters k : ℕ) (fe : List Edge) (project : Bool)
    (h : Remeshable k V F fe) (ht : target.size = V.size) :
    ∃ M, remeshBotschCpp L V F target iters (List.range k) fe project = some M ∧
      (numUsed M.F : ℤ) - numEdges M.F + M.F.length = numUsed F - numEdges F + F.length ∧
      ∃ f : ℕ → ℕ, (∀ j < k, f j = j) ∧ (∀ i, UsedIn F i → UsedIn M.F (f i)) ∧
        (∀ i j, UsedIn F i → UsedIn F j → (MeshReach F i j ↔ MeshReach M.F (f i) (f j))) ∧ (∀ m, UsedIn M.F m → ∃ i, UsedIn F i ∧ MeshReach M.F (f i) m) := by
  have hfe : ∀ e ∈ fe, e.s < V.size ∧ e.t < V.size := fun e he => by
    obtain ⟨e', he', hu'⟩ := h.feEdges e he
    have u1 := used_lt h.closed (side_used he').1
    have u2 := used_lt h.closed (side_used he').2
    rcases hu' with rfl | rfl
    · exact ⟨u1, u2⟩
    · exact ⟨u2, u1⟩
  obtain ⟨M, a1, a2, _, f, hf, T⟩ := remesh_kept hL project (k := k) (V := V) (F := F) (fe := fe)
    (M := ⟨V, F, List.range k, fe, ⟨target.size, fun i => 1.4 * target.val i⟩, ⟨target.size, fun i => 0.7 * target.val i⟩, V, F⟩)
    ⟨h, rfl, fun _ _ => rfl, ht, ht⟩ (fun _ => ⟨rfl, rfl⟩) h.nonempty hfe iters
  exact ⟨M, a1, euler_of_topo T h.closed h.nonempty a2.ok.closed a2.ok.nonempty, f, hf, T.used, T.conn, T.onto⟩

/-- **C136** (the Python function) The same for `remesh_botsch` as it is called from Python, whose vertices, fixed vertices and feature edges may come in any order: the fixed vertices come first in the result. -/
theorem C136_python (L : Libigl) (hL : LibOk L) (junk : ℕ → ℕ) (V : List (V3 ℝ)) (F : List Tri) (iters : ℕ) (h : Option ℝ) (project : Bool) (feature : List ℕ) (fe : List Edge)
    (detect : Bool) (deg : ℝ) (hF : ClosedOriented V.length F) (hne : F ≠ []) (hfeat : ∀ v ∈ feature, UsedIn F v) (hfe : ∀ e ∈ fe, ∃ e' ∈ sides F, Undir e e')
    (honce : detect = false → fe.Pairwise (fun e e' => ¬ Undir e e')) (hA : detect = true → ∀ t ∈ F, PosArea V t) :
    ∃ U G, remeshBotsch L junk V F iters h project feature fe detect deg = some (U, G) ∧
      (numUsed G : ℤ) - numEdges G + G.length = numUsed F - numEdges F + F.length ∧
      ∃ (f : ℕ → ℕ) (fs : List ℕ), FirstOccurrences feature fs ∧ (∀ (j : ℕ) (hj : j < fs.length), f fs[j] = j) ∧ (∀ i, UsedIn F i → UsedIn G (f i)) ∧
        (∀ i j, UsedIn F i → UsedIn F j → (MeshReach F i j ↔ MeshReach G (f i) (f j))) ∧ (∀ m, UsedIn G m → ∃ i, UsedIn F i ∧ MeshReach G (f i) m) := by
  obtain ⟨P, f, D, h0, m1, m2, m3, m4, _, _, _, m5, m6, minj, m7, m8⟩ := wrapper_prepare L junk V F iters h project feature fe detect deg hF hne hfeat hfe honce hA
  obtain ⟨M, a1, a2, _⟩ := C79_remesh L hL ⟨P.V.length, fun i => P.V.getD i 0⟩ P.F ⟨P.V.length, fun _ => h0⟩ iters (uniqueInOrder feature).length P.fe project m7 rfl
  obtain ⟨M', b1, be, g, b2, b3, b4, b5⟩ := C136_remesh_topology L hL ⟨P.V.length, fun i => P.V.getD i 0⟩ P.F ⟨P.V.length, fun _ => h0⟩ iters (uniqueInOrder feature).length P.fe project m7 rfl
  rw [a1] at b1
  cases b1
  have c1 := two_mul_numEdges m7.closed m7.nonempty
  have c2 := two_mul_numEdges a2.closed a2.nonempty
  have T1 : Topo F P.F f := by
    rw [m3]
    exact topo_rename f (fun v w hv hw => minj v (used_lt hF hv) w (used_lt hF hw))
  have T := T1.trans (⟨b3, b4, b5, by omega⟩ : Topo P.F M.F g)
  rw [m8, m5, a1]
  refine ⟨M.V, M.F, rfl, euler_of_topo T hF hne a2.closed a2.nonempty, _, uniqueInOrder feature, uniqueInOrder_spec feature, ?_, T.used, T.conn, T.onto⟩
  intro j hj
  show g (f _) = j
  rw [m6 j hj, b2 j hj]

/-- the hypotheses are met: an octahedron stays a topological sphere -/
example : ∃ U G, remeshBotsch simpleLib (fun _ => 7) ((List.range 6).map foV) foF 10 (some 1) true [3, 1, 3] [⟨2, 1⟩] false 45 = some (U, G) ∧ (numUsed G : ℤ) - numEdges G + G.length = 2 := by
  have hF : ClosedOriented ((List.range 6).map foV).length foF := closedOriented_of (by decide +kernel)
  obtain ⟨U, G, h1, h2, _⟩ := C136_python simpleLib simpleLib_ok (fun _ => 7) ((List.range 6).map foV) foF 10 (some 1) true [3, 1, 3] [⟨2, 1⟩] false 45 hF (by decide)
    (by unfold UsedIn; decide +kernel) (by decide +kernel) (fun _ => by decide +kernel) (by simp)
  exact ⟨U, G, h1, by rw [h2, show numUsed foF = 6 by decide +kernel, show numEdges foF = 12 by decide +kernel]; rfl⟩

end Gpy
