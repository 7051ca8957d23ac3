import Verif.Spec.Remesh
import Verif.Props.SplitBound
import Verif.Props.Collapse
import Verif.Props.Equalize
import Verif.Props.Relax

/-! The loop of the remesher. -/

set_option autoImplicit false
namespace Gpy

/-- the invariant at the head of the loop and between the passes -/
structure RInv (k : ℕ) (V : Arr (V3 ℝ)) (M : RMesh) : Prop where
  ok : Remeshable k M.V M.F M.fe
  feature : M.feature = List.range k
  keep : ∀ j < k, M.V.val j = V.val j
  hs : M.high.size = M.V.size
  ls : M.low.size = M.V.size

theorem RInv.fixed_lt {k : ℕ} {V : Arr (V3 ℝ)} {M : RMesh} (h : RInv k V M) {j : ℕ} (hj : j < k) : j < M.V.size := used_lt h.ok.closed (h.ok.fixedUsed j hj)

theorem splitPass_ok {L : Libigl} (hL : LibOk L) {k : ℕ} {V : Arr (V3 ℝ)} {M : RMesh} (h : RInv k V M) :
    ∃ M', splitPass L M = some M' ∧ RInv k V M' ∧ M'.V0 = M.V0 ∧ M'.F0 = M.F0 ∧ (M.fe = [] → M'.fe = []) := by
  obtain ⟨e1, e2, e3, e4, e5⟩ := hL.edgeMap M.V M.high M.low M.F
  set S := L.edgeMap M.V M.high M.low M.F with hS
  have hM : ClosedOriented S.V.size (triList S.F) := by rw [e2, e5]; exact h.ok.closed
  have hh : S.high.size = S.V.size := by rw [e3, e2]; exact h.hs
  have hl : S.low.size = S.V.size := by rw [e4, e2]; exact h.ls
  obtain ⟨S', fe', q1, q2, q3, q4, q5, q6, q7, q8, q9, q10⟩ := C75_selection S M.feature M.fe e1 hM hh hl
  have hmesh : ∀ e ∈ M.fe, IsMeshEdge S e := by
    intro e he
    unfold IsMeshEdge
    rw [e5]
    obtain ⟨e', he', hu⟩ := h.ok.feEdges e he
    exact ⟨e', he', hu.symm'⟩
  obtain ⟨p1, p2, p3, p4⟩ := C75_feature_edges S M.feature M.fe e1 hM hh hl h.ok.feOnce hmesh S' fe' q1
  have usedEdge : ∀ (S : SplitState) (e : Edge), IsMeshEdge S e → UsedIn (triList S.F) e.s := by
    rintro S e ⟨e', he', hu⟩
    obtain ⟨t, ht, c, hc⟩ := mem_sides_cyc.1 he'
    refine ⟨t, ht, (hc.mem _).2 ?_⟩
    rcases hu with rfl | rfl
    · exact Or.inl rfl
    · exact Or.inr (Or.inl rfl)
  have hused : ∀ v, UsedIn M.F v → UsedIn (triList S'.F) v := by
    intro v hv
    obtain ⟨e, he, rfl⟩ := usedIn_side.1 hv
    have hme : IsMeshEdge S e := ⟨e, by rw [e5]; exact he, Or.inl rfl⟩
    by_cases hc : TooLong S e ∧ ((∃ e' ∈ M.fe, Undir e e') ∨ (e.s ∉ M.feature ∧ e.t ∉ M.feature))
    · obtain ⟨_, w, _, _, _, hw, _⟩ := q9 e hme hc.1 hc.2
      exact usedEdge S' ⟨e.s, w⟩ hw
    · exact usedEdge S' _ (q10 e hme hc)
  refine ⟨{ M with V := S'.V, F := triList S'.F, high := S'.high, low := S'.low, fe := fe' }, ?_, ?_, rfl, rfl, ?_⟩
  · unfold splitPass
    rw [← hS, q1]
    rfl
  · refine ⟨⟨q3, ?_, fun j hj => hused j (h.ok.fixedUsed j hj), ?_, p1⟩, h.feature, ?_, q5, q6⟩
    · intro hnil
      obtain ⟨t, ht⟩ := List.exists_mem_of_ne_nil _ h.ok.nonempty
      obtain ⟨u, hu, _⟩ := hused t.a ⟨t, ht, Or.inl rfl⟩
      have hnil' : triList S'.F = [] := hnil
      rw [hnil'] at hu
      simp at hu
    · intro e he
      obtain ⟨e', he', hu⟩ := p2 e he
      exact ⟨e', he', hu.symm'⟩
    · intro j hj
      show S'.V.val j = _
      rw [(q7 j (by rw [e2]; exact h.fixed_lt hj)).1, e2]
      exact h.keep j hj
  · intro hnil
    show fe' = []
    rw [List.eq_nil_iff_forall_not_mem]
    intro e he
    obtain ⟨e', he', _⟩ := (p3 (S'.V.val e.s)).1 ⟨e, he, 1, 0, by norm_num, by norm_num, by norm_num, by ext <;> simp⟩
    rw [hnil] at he'
    simp at he'

theorem collapsePass_ok {L : Libigl} (hL : LibOk L) {k : ℕ} {V : Arr (V3 ℝ)} {M : RMesh} (h : RInv k V M) :
    ∃ M', collapsePass L M = some M' ∧ RInv k V M' ∧ M'.V0 = M.V0 ∧ M'.F0 = M.F0 ∧ (M.fe = [] → M'.fe = []) ∧ ∀ v < M'.V.size, UsedIn M'.F v := by
  set C : CollapseIn := ⟨(adjListF M.F).val, M.high.val, M.low.val, M.feature, M.fe⟩ with hC
  have hD := hL.decimate C M.V M.F h.ok.closed
  obtain ⟨out, h1, new, h2⟩ := C78_collapsed (adjListF M.F).val M.V M.F M.high M.low M.feature M.fe _ _ _ _ h.ok.closed h.hs h.ls
    (fun f hf => h.ok.fixedUsed f (by rw [h.feature] at hf; exact List.mem_range.1 hf)) h.ok.feEdges hD
  have hk : ∀ j < k, new j = j := h2.order k (fun j hj => by rw [h.feature]; exact List.mem_range.2 hj)
  have hG : ∀ j < k, j < (L.decimate C M.V M.F).U.size := by
    intro j hj
    have := h2.used j (h.ok.fixedUsed j hj)
    rwa [hk j hj] at this
  refine ⟨{ M with V := (L.decimate C M.V M.F).U, F := (L.decimate C M.V M.F).G, feature := out.feature, fe := out.fe, high := out.high, low := out.low }, ?_, ?_, rfl, rfl, ?_, h2.all⟩
  · unfold collapsePass
    simp only [← hC, h1, Option.bind_eq_bind, Option.bind_some]
  · refine ⟨⟨h2.closed, ?_, fun j hj => h2.all j (hG j hj), fun e he => (h2.feFrom e he).2.2, h2.feOnce⟩, ?_, ?_, h2.sizes.1, h2.sizes.2⟩
    · intro hnil
      obtain ⟨t, ht⟩ := List.exists_mem_of_ne_nil _ h.ok.nonempty
      obtain ⟨u, hu, _⟩ := h2.all _ (h2.used t.a ⟨t, ht, Or.inl rfl⟩)
      rw [show (L.decimate C M.V M.F).G = [] from hnil] at hu
      simp at hu
    · show out.feature = _
      rw [h2.fixed, h.feature]
      conv_rhs => rw [← List.map_id (List.range k)]
      exact List.map_congr_left (fun j hj => hk j (List.mem_range.1 hj))
    · intro j hj
      show (L.decimate C M.V M.F).U.val j = _
      have := (h2.keep j (by rw [h.feature]; exact List.mem_range.2 hj)).1
      rw [hk j hj] at this
      rw [this]
      exact h.keep j hj
  · intro hnil
    show out.fe = []
    rw [List.eq_nil_iff_forall_not_mem]
    intro e he
    obtain ⟨_, ⟨e', he', _⟩, _⟩ := h2.feFrom e he
    rw [hnil] at he'
    simp at he'

theorem flipPass_ok {L : Libigl} (hL : LibOk L) {k : ℕ} {V : Arr (V3 ℝ)} {M : RMesh} (h : RInv k V M) (hu : ∀ v < M.V.size, UsedIn M.F v) :
    ∃ M', flipPass L M = some M' ∧ RInv k V M' ∧ M'.V0 = M.V0 ∧ M'.F0 = M.F0 ∧ M'.fe = M.fe ∧ ∀ v < M'.V.size, UsedIn M'.F v := by
  obtain ⟨e1, e2, e3, e4, e5⟩ := hL.edgeMap M.V M.high M.low M.F
  set S := L.edgeMap M.V M.high M.low M.F with hS
  obtain ⟨S', q1, q2, q3, q4, q5, q6, q7, q8, q9, _⟩ := C76_mesh L.flip hL.flip S M.feature M.fe e1 (by rw [e5]; exact h.ok.closed.manifold) (by rw [e5, e2]; exact h.ok.closed.range)
    (by intro v hv; rw [h.feature] at hv; rw [e2]; exact h.fixed_lt (List.mem_range.1 hv))
  rw [e5] at q5 q6 q7 q8 q9
  rw [e2] at q2 q4
  have hused : ∀ v, UsedIn M.F v → UsedIn (triList S'.F) v := fun v hv => usedIn_iff.2 ((q7 v).2 (usedIn_iff.1 hv))
  refine ⟨{ M with V := S'.V, F := triList S'.F }, ?_, ?_, rfl, rfl, rfl, ?_⟩
  · unfold flipPass
    rw [← hS, q1]
    rfl
  · refine ⟨⟨⟨q3, ?_, q8 h.ok.closed.simple, ?_⟩, ?_, fun j hj => hused j (h.ok.fixedUsed j hj), fun e he => q9 e he (h.ok.feEdges e he), h.ok.feOnce⟩, h.feature, ?_, ?_, ?_⟩
    · intro e he
      by_contra hc
      have hb : IsBdrySide (triList S'.F) e := ⟨he, hc⟩
      have := (q6 e).1 hb
      exact this.2 (h.ok.closed.closed e this.1)
    · show InRange (triList S'.F) S'.V.size
      rw [q2]; exact q4
    · intro hnil
      have : (triList S'.F).length = 0 := by rw [show triList S'.F = [] from hnil]; rfl
      rw [q5] at this
      exact h.ok.nonempty (List.length_eq_zero_iff.1 this)
    · intro j hj
      show S'.V.val j = _
      rw [q2]; exact h.keep j hj
    · show M.high.size = S'.V.size
      rw [q2]; exact h.hs
    · show M.low.size = S'.V.size
      rw [q2]; exact h.ls
  · intro v hv
    exact hused v (hu v (by rw [← q2]; exact hv))

/-- what the relaxation pass has done -/
structure Relaxed (project : Bool) (V : Arr (V3 ℝ)) (F : List Tri) (fe : List Edge) (k : ℕ) (M : RMesh) : Prop where
  used : ∀ v < M.V.size, UsedIn M.F v
  free : project = true → ∀ v < M.V.size, k ≤ v → featNbrs M.fe v = [] → OnSurface V.val F (M.V.val v)
  line : project = true → fe ≠ [] → ∀ v < M.V.size, k ≤ v → (featNbrs M.fe v).length = 2 → OnPolyline V.val fe (M.V.val v)

theorem relaxPass_ok {L : Libigl} (hL : LibOk L) (project : Bool) {k : ℕ} {V : Arr (V3 ℝ)} {F : List Tri} {fe : List Edge} {M : RMesh} (h : RInv k V M) (hu : ∀ v < M.V.size, UsedIn M.F v)
    (hV0 : project = true → M.V0 = V ∧ M.F0 = F) (hF : F ≠ []) (hfe : ∀ e ∈ fe, e.s < V.size ∧ e.t < V.size) :
    ∃ M', relaxPass L project V fe M = some M' ∧ RInv k V M' ∧ (project = true → M'.V0 = V ∧ M'.F0 = F) ∧ M'.fe = M.fe ∧ Relaxed project V F fe k M' := by
  set M1 : RMesh := if project then M else { M with V0 := M.V, F0 := M.F } with hM1
  have eV : M1.V = M.V := by rw [hM1]; split_ifs <;> rfl
  have eF : M1.F = M.F := by rw [hM1]; split_ifs <;> rfl
  have ef : M1.feature = M.feature := by rw [hM1]; split_ifs <;> rfl
  have efe : M1.fe = M.fe := by rw [hM1]; split_ifs <;> rfl
  have eh : M1.high = M.high := by rw [hM1]; split_ifs <;> rfl
  have el : M1.low = M.low := by rw [hM1]; split_ifs <;> rfl
  have e0 : project = true → M1.V0 = V ∧ M1.F0 = F := by
    intro hp
    rw [hM1, if_pos hp]
    exact hV0 hp
  have hfeR : ∀ e ∈ M.fe, e.s < M.V.size ∧ e.t < M.V.size := by
    intro e he
    obtain ⟨e', he', hu'⟩ := h.ok.feEdges e he
    obtain ⟨t, ht, c, hc⟩ := mem_sides_cyc.1 he'
    have u1 := used_lt h.ok.closed ⟨t, ht, (hc.mem _).2 (Or.inl rfl)⟩
    have u2 := used_lt h.ok.closed ⟨t, ht, (hc.mem _).2 (Or.inr (Or.inl rfl))⟩
    rcases hu' with rfl | rfl
    · exact ⟨u1, u2⟩
    · exact ⟨u2, u1⟩
  obtain ⟨V', W, q1, q2, _, q4⟩ := C77_relaxed M.V M.F M.feature M.fe (L.normals M.V M.F) (L.closest M1.V0 M1.F0) ⟨M.V.size, fun _ => 1⟩ V fe project h.ok.closed.range
    (fun v hv => usedIn_iff.1 (hu v hv)) (by intro v hv; rw [h.feature] at hv; exact h.fixed_lt (List.mem_range.1 hv)) hfeR (hL.normals _ _) rfl hfe
  refine ⟨{ M1 with V := V' }, ?_, ?_, e0, efe, ?_⟩
  · unfold relaxPass
    simp only [← hM1, eV, eF, ef, efe, q1, Option.bind_eq_bind, Option.bind_some]
  · refine ⟨⟨?_, ?_, ?_, ?_, ?_⟩, ?_, ?_, ?_, ?_⟩
    · show ClosedOriented V'.size M1.F; rw [q2, eF]; exact h.ok.closed
    · show M1.F ≠ []; rw [eF]; exact h.ok.nonempty
    · show ∀ j < k, UsedIn M1.F j; rw [eF]; exact h.ok.fixedUsed
    · show ∀ e ∈ M1.fe, ∃ e' ∈ sides M1.F, _; rw [eF, efe]; exact h.ok.feEdges
    · show M1.fe.Pairwise _; rw [efe]; exact h.ok.feOnce
    · show M1.feature = _; rw [ef]; exact h.feature
    · intro j hj
      show V'.val j = _
      have hp : Pinned M.feature M.fe j := Or.inl (by rw [h.feature]; exact List.mem_range.2 hj)
      rw [(q4 j (h.fixed_lt hj)).1 hp]
      exact h.keep j hj
    · show M1.high.size = V'.size; rw [eh, q2]; exact h.hs
    · show M1.low.size = V'.size; rw [el, q2]; exact h.ls
  · have nf : ∀ v, k ≤ v → v ∉ M.feature := by intro v hv; rw [h.feature, List.mem_range]; omega
    refine ⟨?_, ?_, ?_⟩
    · show ∀ v < V'.size, UsedIn M1.F v
      rw [q2, eF]; exact hu
    · intro hp v hv hk hn
      show OnSurface V.val F (V'.val v)
      have hn' : featNbrs M.fe v = [] := by rw [← efe]; exact hn
      rw [(q4 v (by rw [← q2]; exact hv)).2.1 ⟨nf v hk, hn'⟩, (e0 hp).1, (e0 hp).2]
      exact hL.closest _ _ _ hF
    · intro hp hne v hv hk hn
      show OnPolyline V.val fe (V'.val v)
      have hn' : (featNbrs M.fe v).length = 2 := by rw [← efe]; exact hn
      exact ((q4 v (by rw [← q2]; exact hv)).2.2.1 ⟨nf v hk, hn'⟩ hp hne).1

theorem remeshIter_ok {L : Libigl} (hL : LibOk L) (project : Bool) {k : ℕ} {V : Arr (V3 ℝ)} {F : List Tri} {fe : List Edge} {M : RMesh} (h : RInv k V M)
    (hV0 : project = true → M.V0 = V ∧ M.F0 = F) (hF : F ≠ []) (hfe : ∀ e ∈ fe, e.s < V.size ∧ e.t < V.size) :
    ∃ M', remeshIter L project V fe M = some M' ∧ RInv k V M' ∧ (project = true → M'.V0 = V ∧ M'.F0 = F) ∧ (M.fe = [] → M'.fe = []) ∧ Relaxed project V F fe k M' := by
  obtain ⟨M1, a1, a2, a3, a4, a5⟩ := splitPass_ok hL h
  obtain ⟨M2, b1, b2, b3, b4, b5, b6⟩ := collapsePass_ok hL a2
  obtain ⟨M3, c1, c2, c3, c4, c5, c6⟩ := flipPass_ok hL b2 b6
  obtain ⟨M4, d1, d2, d3, d4, d5⟩ := relaxPass_ok hL project c2 c6 (F := F) (fe := fe) (by rw [c3, b3, a3, c4, b4, a4]; exact hV0) hF hfe
  refine ⟨M4, ?_, d2, d3, ?_, d5⟩
  · unfold remeshIter
    simp only [a1, b1, c1, Option.bind_eq_bind, Option.bind_some]
    exact d1
  · intro hn; rw [d4, c5]; exact b5 (a5 hn)

theorem remesh_loop {L : Libigl} (hL : LibOk L) (project : Bool) {k : ℕ} {V : Arr (V3 ℝ)} {F : List Tri} {fe : List Edge} {M : RMesh} (h : RInv k V M)
    (hV0 : project = true → M.V0 = V ∧ M.F0 = F) (hF : F ≠ []) (hfe : ∀ e ∈ fe, e.s < V.size ∧ e.t < V.size) (iters : ℕ) :
    ∃ M', (List.range iters).foldlM (fun M _ => remeshIter L project V fe M) M = some M' ∧ RInv k V M' ∧ (project = true → M'.V0 = V ∧ M'.F0 = F) ∧
      (M.fe = [] → M'.fe = []) ∧ (0 < iters → Relaxed project V F fe k M') := by
  induction iters with
  | zero => exact ⟨M, rfl, h, hV0, id, fun h => absurd h (by omega)⟩
  | succ m ih =>
    obtain ⟨M1, a1, a2, a3, a4, _⟩ := ih
    obtain ⟨M2, b1, b2, b3, b4, b5⟩ := remeshIter_ok hL project a2 a3 hF hfe
    refine ⟨M2, ?_, b2, b3, fun hn => b4 (a4 hn), fun _ => b5⟩
    rw [List.range_succ, List.foldlM_append, a1]
    simp [b1]

end Gpy
