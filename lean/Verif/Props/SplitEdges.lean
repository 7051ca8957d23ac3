import Verif.Proofs.SplitGeom
import Mathlib.Tactic.FinCases
import Mathlib.Tactic.IntervalCases

/-! # C73, C74: the splitting pass of the remesher -/

set_option autoImplicit false
namespace Gpy

theorem meshSum_triList (φ : V3 ℝ → V3 ℝ → V3 ℝ → ℝ) (S : SplitState) :
    meshSum φ S.V.val (triList S.F) = ∑ f ∈ Finset.range S.F.rows, φ (S.pt f 0) (S.pt f 1) (S.pt f 2) := by
  unfold meshSum triList
  rw [List.map_map]
  show _ = (Multiset.map _ (Multiset.range S.F.rows)).sum
  rw [Multiset.range, Multiset.map_coe, Multiset.sum_coe]
  rfl

theorem onSurface_triList (S : SplitState) (x : V3 ℝ) :
    OnSurface S.V.val (triList S.F) x ↔ ∃ f < S.F.rows, InTri3 x (S.pt f 0) (S.pt f 1) (S.pt f 2) := by
  unfold OnSurface triList
  simp only [List.mem_map, List.mem_range]
  constructor
  · rintro ⟨t, ⟨f, hf, rfl⟩, h⟩; exact ⟨f, hf, h⟩
  · rintro ⟨f, hf, h⟩; exact ⟨_, ⟨f, hf, rfl⟩, h⟩

/-- **C73** (connectivity).  Splitting any set of edges of a consistently oriented closed mesh succeeds (no array is accessed out of range and none of
the assertions fails).  The result is again a consistently oriented closed mesh with one more vertex and two more triangles per edge, together with a
correct edge data structure.  The old vertices and their target lengths keep their numbers and values; vertex `n + j` is the midpoint of the `j`-th edge and gets
the average target lengths; the edges that are not to be split are still there, and the others are replaced by their two halves. -/
theorem C73_connectivity (S : SplitState) (todo : List ℕ) (hS : IsEdgeMap S) (hM : ClosedOriented S.V.size (triList S.F))
    (hhigh : S.high.size = S.V.size) (hlow : S.low.size = S.V.size) (hnd : todo.Nodup) (hlt : ∀ u ∈ todo, u < S.uE.rows) :
    ∃ S', splitEdges S todo = some S' ∧ IsEdgeMap S' ∧ ClosedOriented S'.V.size (triList S'.F) ∧
      S'.V.size = S.V.size + todo.length ∧ S'.high.size = S'.V.size ∧ S'.low.size = S'.V.size ∧
      S'.F.rows = S.F.rows + 2 * todo.length ∧ S'.uE.rows = S.uE.rows + 3 * todo.length ∧
      (∀ v < S.V.size, S'.V.val v = S.V.val v ∧ S'.high.val v = S.high.val v ∧ S'.low.val v = S.low.val v) ∧
      (∀ u < S.uE.rows, u ∉ todo → edgeRow S'.uE u = edgeRow S.uE u) ∧
      (∀ j (hj : j < todo.length), ∃ a b, Undir (edgeRow S.uE todo[j]) ⟨a, b⟩ ∧
        edgeRow S'.uE todo[j] = ⟨S.V.size + j, a⟩ ∧ edgeRow S'.uE (S.uE.rows + 3 * j + 2) = ⟨S.V.size + j, b⟩ ∧
        S'.V.val (S.V.size + j) = (1 / 2 : ℝ) • (S.V.val a + S.V.val b) ∧
        S'.high.val (S.V.size + j) = (S.high.val a + S.high.val b) / 2 ∧ S'.low.val (S.V.size + j) = (S.low.val a + S.low.val b) / 2) := by
  have h0 := sinv_of_spec hS hM (le_of_eq hhigh.symm) (le_of_eq hlow.symm)
  obtain ⟨S', hS', p⟩ := splitEdges_prog h0 hS.psize todo hnd hlt
  obtain ⟨s1, s2⟩ := spec_of_sinv p.inv p.ur p.pr
  refine ⟨S', hS', s1, by rw [p.vr]; exact s2, p.vr, by rw [p.hr, p.vr], by rw [p.lr, p.vr], p.inv.fr, p.ur, p.vold, p.old, ?_⟩
  intro j hj
  exact p.vnew j hj

/-- **C73** (geometry).  The split mesh describes the same surface: it consists of the same points, every new triangle is a part of an old one with the
same orientation, and the area and the enclosed (signed) volume are the same. -/
theorem C73_same_surface (S : SplitState) (todo : List ℕ) (hS : IsEdgeMap S) (hM : ClosedOriented S.V.size (triList S.F))
    (hhigh : S.high.size = S.V.size) (hlow : S.low.size = S.V.size) (hnd : todo.Nodup) (hlt : ∀ u ∈ todo, u < S.uE.rows) (S' : SplitState)
    (h : splitEdges S todo = some S') :
    (∀ x, OnSurface S'.V.val (triList S'.F) x ↔ OnSurface S.V.val (triList S.F) x) ∧
    (∀ t' ∈ triList S'.F, ∃ t ∈ triList S.F,
      (∀ x, InTri3 x (S'.V.val t'.a) (S'.V.val t'.b) (S'.V.val t'.c) → InTri3 x (S.V.val t.a) (S.V.val t.b) (S.V.val t.c)) ∧
      ∃ r : ℝ, 0 < r ∧ triNrm (S'.V.val t'.a) (S'.V.val t'.b) (S'.V.val t'.c) = r • triNrm (S.V.val t.a) (S.V.val t.b) (S.V.val t.c)) ∧
    meshSum triArea3 S'.V.val (triList S'.F) = meshSum triArea3 S.V.val (triList S.F) ∧
    meshSum triVolume S'.V.val (triList S'.F) = meshSum triVolume S.V.val (triList S.F) := by
  have h0 := sinv_of_spec hS hM (le_of_eq hhigh.symm) (le_of_eq hlow.symm)
  obtain ⟨S'', hS'', p⟩ := splitEdges_prog h0 hS.psize todo hnd hlt
  rw [h] at hS''
  cases hS''
  have hr : S'.F.rows = S.F.rows + 2 * todo.length := p.inv.fr
  refine ⟨?_, ?_, ?_, ?_⟩
  · intro x
    rw [onSurface_triList, onSurface_triList, hr]
    exact p.surf x
  · intro t' ht'
    unfold triList at ht'
    obtain ⟨f, hf, rfl⟩ := List.mem_map.mp ht'
    rw [List.mem_range, hr] at hf
    obtain ⟨g, hg, x1, x2⟩ := p.part f hf
    exact ⟨_, List.mem_map.mpr ⟨g, List.mem_range.mpr hg, rfl⟩, x1, x2⟩
  · rw [meshSum_triList, meshSum_triList, hr]
    refine p.sum triArea3 ?_ ?_
    · intro a b c; unfold triArea3; rw [triNormal_cyc]
    · intro a b c
      unfold triArea3
      obtain ⟨n1, n2⟩ := triNormal_split a b c
      have hsq : ∀ v : V3 ℝ, Real.sqrt (V3.normSq ((1 / 2 : ℝ) • v)) = Real.sqrt (V3.normSq v) / 2 := by
        intro v
        have : V3.normSq ((1 / 2 : ℝ) • v) = (1 / 2) ^ 2 * V3.normSq v := by unfold V3.normSq V3.dot; simp; ring
        rw [this, Real.sqrt_mul (by positivity), Real.sqrt_sq (by norm_num)]
        ring
      rw [n1, n2, hsq]
      ring
  · rw [meshSum_triList, meshSum_triList, hr]
    refine p.sum triVolume ?_ ?_
    · intro a b c; unfold triVolume V3.dot V3.cross; simp only; ring
    · intro a b c; unfold triVolume V3.dot V3.cross mid3; simp; ring

/-- **C74** (violated).  For a mesh with a boundary edge the renumbering loop accesses a second side of that edge, which does not exist: an out-of-range access, for every
choice of the edges to split. -/
theorem C74_boundary_violated (S : SplitState) (todo : List ℕ) (hS : IsEdgeMap S) (hM : OrientedManifold (triList S.F))
    (e : Edge) (he : IsBdrySide (triList S.F) e) : splitEdges S todo = none := by
  obtain ⟨he1, he2⟩ := he
  obtain ⟨f, hf, c, hc, rfl⟩ := (mem_sides_triList S.F e).mp he1
  have hnd := (nodup_sides_triList S.F).mp hM.1
  have hix : f + c * S.F.rows < 3 * S.F.rows := by
    have : c * S.F.rows ≤ 2 * S.F.rows := Nat.mul_le_mul_right _ (by omega)
    omega
  obtain ⟨hl, hu⟩ := hS.lab _ hix
  obtain ⟨o1, o2, o3⟩ := hS.occ _ hl
  have hE : ∀ f < S.F.rows, ∀ c < 3, edgeRow S.E (f + c * S.F.rows) = ⟨S.F.val f ((c + 1) % 3), S.F.val f ((c + 2) % 3)⟩ := by
    intro f hf c hc
    have := hS.side f hf ⟨c, hc⟩
    rw [side_fin] at this
    exact this
  have only : ∀ x ∈ S.uE2E.val (S.EMAP.val (f + c * S.F.rows)), x = f + c * S.F.rows := by
    intro x hx
    obtain ⟨hx1, hx2⟩ := (o3 x).mp hx
    have hm0 : 0 < S.F.rows := by omega
    have hxd : x = x % S.F.rows + x / S.F.rows * S.F.rows := by rw [Nat.mul_comm]; exact (Nat.mod_add_div x _).symm
    have hg : x % S.F.rows < S.F.rows := Nat.mod_lt _ hm0
    have hd : x / S.F.rows < 3 := by rw [Nat.div_lt_iff_lt_mul hm0]; exact hx1
    have hu' := (hS.lab x hx1).2
    rw [hx2] at hu'
    rw [hxd, hE _ hg _ hd] at hu'
    rw [hE f hf c hc] at hu
    unfold edgeRow at hu hu'
    rw [undir_iff] at hu hu'
    have : (S.F.val (x % S.F.rows) ((x / S.F.rows + 1) % 3) = S.F.val f ((c + 1) % 3) ∧ S.F.val (x % S.F.rows) ((x / S.F.rows + 2) % 3) = S.F.val f ((c + 2) % 3)) ∨
        (S.F.val (x % S.F.rows) ((x / S.F.rows + 1) % 3) = S.F.val f ((c + 2) % 3) ∧ S.F.val (x % S.F.rows) ((x / S.F.rows + 2) % 3) = S.F.val f ((c + 1) % 3)) := by
      rcases hu with ⟨p1, p2⟩ | ⟨p1, p2⟩ <;> rcases hu' with ⟨q1, q2⟩ | ⟨q1, q2⟩ <;> rw [p1] at q1 <;> rw [p2] at q2 <;> simp [q1, q2]
    rcases this with ⟨p1, p2⟩ | ⟨p1, p2⟩
    · obtain ⟨r1, r2⟩ := hnd _ hg _ hd f hf c hc p1 p2
      rw [hxd, r1, r2]
    · exfalso
      exact he2 ((mem_sides_triList S.F _).mpr ⟨_, hg, _, hd, by rw [p1, p2]; rfl⟩)
  have hlen : (S.uE2E.val (S.EMAP.val (f + c * S.F.rows))).length < 2 := by
    by_contra hge
    push Not at hge
    match hL : S.uE2E.val (S.EMAP.val (f + c * S.F.rows)), hge with
    | x :: y :: l, _ =>
      rw [hL] at o1 only
      have hx := only x (by simp)
      have hy := only y (by simp)
      simp [hx, hy] at o1
  unfold splitEdges
  simp only [shiftTwins_boundary S.F.rows todo.length S.uE2E _ (by rw [hS.psize]; exact hl) hlen, Option.bind_eq_bind, Option.bind_none]

/-! Non-vacuity: a tetrahedron -/

/-- the arrays of a tetrahedron -/
noncomputable def tetState : SplitState where
  V := ⟨4, fun i => if i = 0 then ⟨0, 0, 0⟩ else if i = 1 then ⟨1, 0, 0⟩ else if i = 2 then ⟨0, 1, 0⟩ else ⟨0, 0, 1⟩⟩
  F := ⟨4, 3, fun f c => ([[0, 2, 1], [0, 1, 3], [1, 2, 3], [2, 0, 3]].getD f []).getD c 0⟩
  E := ⟨12, 2, fun f c => ([[2, 1], [1, 3], [2, 3], [0, 3], [1, 0], [3, 0], [3, 1], [3, 2], [0, 2], [0, 1], [1, 2], [2, 0]].getD f []).getD c 0⟩
  uE := ⟨6, 2, fun f c => ([[0, 1], [0, 2], [0, 3], [1, 2], [1, 3], [2, 3]].getD f []).getD c 0⟩
  EMAP := ⟨12, fun f => [3, 4, 5, 2, 0, 2, 4, 5, 1, 0, 3, 1].getD f 0⟩
  uE2E := ⟨6, fun f => [[4, 9], [8, 11], [3, 5], [0, 10], [1, 6], [2, 7]].getD f []⟩
  high := ⟨4, fun _ => 1⟩
  low := ⟨4, fun _ => 0⟩

theorem tetState_edgeMap : IsEdgeMap tetState := by
  refine ⟨rfl, rfl, rfl, rfl, rfl, rfl, ?_, ?_, ?_, ?_⟩
  · intro f hf c
    have hf' : f < 4 := hf
    interval_cases f <;> fin_cases c <;> rfl
  · intro h hh
    have hh' : h < 12 := hh
    interval_cases h <;> simp [tetState, edgeRow, Undir, Edge.flip]
  · intro u hu u' hu'
    have hh' : u < 6 := hu
    have hh'' : u' < 6 := hu'
    interval_cases u <;> interval_cases u' <;> simp [tetState, edgeRow, Undir, Edge.flip]
  · intro u hu
    have h1 : ∀ u < 6, ([[4, 9], [8, 11], [3, 5], [0, 10], [1, 6], [2, 7]].getD u []).Nodup ∧
      [[4, 9], [8, 11], [3, 5], [0, 10], [1, 6], [2, 7]].getD u [] ≠ ([] : List ℕ) ∧
      (∀ h ∈ [[4, 9], [8, 11], [3, 5], [0, 10], [1, 6], [2, 7]].getD u [], h < 12 ∧ [3, 4, 5, 2, 0, 2, 4, 5, 1, 0, 3, 1].getD h 0 = u) ∧
      (∀ h < 12, [3, 4, 5, 2, 0, 2, 4, 5, 1, 0, 3, 1].getD h 0 = u → h ∈ [[4, 9], [8, 11], [3, 5], [0, 10], [1, 6], [2, 7]].getD u []) := by decide
    obtain ⟨a, b, c, d⟩ := h1 u hu
    exact ⟨a, b, fun h => ⟨c h, fun x => d h x.1 x.2⟩⟩

theorem tetState_closed : ClosedOriented tetState.V.size (triList tetState.F) := by
  have : triList tetState.F = [⟨0, 2, 1⟩, ⟨0, 1, 3⟩, ⟨1, 2, 3⟩, ⟨2, 0, 3⟩] := rfl
  rw [this]
  refine ⟨by decide, by decide, ?_, by show InRange _ 4; decide⟩
  unfold NoTwin SameCorners
  simp only [List.pairwise_cons, List.mem_cons, List.not_mem_nil, or_false, forall_eq_or_imp, forall_eq, IsEmpty.forall_iff, implies_true, List.Pairwise.nil, and_true]
  refine ⟨⟨fun h => ?_, fun h => ?_, fun h => ?_⟩, ⟨fun h => ?_, fun h => ?_⟩, fun h => ?_⟩
  all_goals
    have a := h 0
    have b := h 1
    have c := h 2
    have d := h 3
    revert a b c d
    decide

/-- the hypotheses of C73 are met: two edges of a tetrahedron can be split -/
example : ∃ S', splitEdges tetState [3, 0] = some S' ∧ ClosedOriented 6 (triList S'.F) ∧ S'.F.rows = 8 ∧ S'.V.val 5 = ⟨1 / 2, 0, 0⟩ := by
  obtain ⟨S', h1, _, h3, h4, _, _, h7, _, _, _, h11⟩ := C73_connectivity tetState [3, 0] tetState_edgeMap tetState_closed rfl rfl (by decide)
    (by intro u hu; simp at hu; show u < 6; omega)
  refine ⟨S', h1, by rw [h4] at h3; exact h3, h7, ?_⟩
  obtain ⟨a, b, x1, _, _, x4, _⟩ := h11 1 (by simp)
  have hsz : tetState.V.size = 4 := rfl
  rw [hsz] at x4
  rw [show (5 : ℕ) = 4 + 1 from rfl, x4]
  have : Undir (⟨0, 1⟩ : Edge) ⟨a, b⟩ := x1
  rw [undir_iff] at this
  rcases this with ⟨rfl, rfl⟩ | ⟨rfl, rfl⟩ <;> ext <;> simp [tetState]

/-- the arrays of a single triangle -/
noncomputable def oneTriState : SplitState where
  V := ⟨3, fun i => if i = 0 then ⟨0, 0, 0⟩ else if i = 1 then ⟨1, 0, 0⟩ else ⟨0, 1, 0⟩⟩
  F := ⟨1, 3, fun _ c => [0, 1, 2].getD c 0⟩
  E := ⟨3, 2, fun f c => ([[1, 2], [2, 0], [0, 1]].getD f []).getD c 0⟩
  uE := ⟨3, 2, fun f c => ([[0, 1], [0, 2], [1, 2]].getD f []).getD c 0⟩
  EMAP := ⟨3, fun f => [2, 1, 0].getD f 0⟩
  uE2E := ⟨3, fun f => [[2], [1], [0]].getD f []⟩
  high := ⟨3, fun _ => 1⟩
  low := ⟨3, fun _ => 0⟩

/-- the hypotheses of C74 are met -/
example : splitEdges oneTriState [0] = none := by
  refine C74_boundary_violated oneTriState [0] ?_ ?_ ⟨0, 1⟩ ?_
  · refine ⟨rfl, rfl, rfl, rfl, rfl, rfl, ?_, ?_, ?_, ?_⟩
    · intro f hf c
      have hf' : f < 1 := hf
      interval_cases f; fin_cases c <;> rfl
    · intro h hh
      have hh' : h < 3 := hh
      interval_cases h <;> simp [oneTriState, edgeRow, Undir, Edge.flip]
    · intro u hu u' hu'
      have hh' : u < 3 := hu
      have hh'' : u' < 3 := hu'
      interval_cases u <;> interval_cases u' <;> simp [oneTriState, edgeRow, Undir, Edge.flip]
    · intro u hu
      have hh' : u < 3 := hu
      interval_cases u <;> refine ⟨by simp [oneTriState], by simp [oneTriState], ?_⟩
      all_goals
        intro h
        constructor
        · intro hm
          simp [oneTriState] at hm
          subst hm; simp [oneTriState]
        · rintro ⟨h1, h2⟩
          have h1' : h < 3 := h1
          interval_cases h <;> simp [oneTriState] at h2 ⊢
  · show OrientedManifold [⟨0, 1, 2⟩]; decide
  · unfold IsBdrySide; show _ ∈ sides [⟨0, 1, 2⟩] ∧ _ ∉ sides [⟨0, 1, 2⟩]; decide

end Gpy
