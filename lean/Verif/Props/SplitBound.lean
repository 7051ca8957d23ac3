import Verif.Proofs.SplitBound
import Verif.Props.SplitEdges

/-! # C75: which edges the remesher splits, and what happens to the feature edges -/

set_option autoImplicit false
namespace Gpy

/-- `e` (in one or the other direction) is an edge of the mesh -/
def IsMeshEdge (S : SplitState) (e : Edge) : Prop := ∃ e' ∈ sides (triList S.F), Undir e' e

/-- `x` is a point of the segment `a b` -/
def InSeg3 (x a b : V3 ℝ) : Prop := ∃ u v : ℝ, 0 ≤ u ∧ 0 ≤ v ∧ u + v = 1 ∧ x = u • a + v • b

/-- the edge is longer than the average of the bounds at its ends -/
def TooLong (S : SplitState) (e : Edge) : Prop :=
  (S.high.val e.s + S.high.val e.t) / 2 < Real.sqrt (V3.normSq (S.V.val e.s - S.V.val e.t))

theorem inSeg3_symm (x a b : V3 ℝ) : InSeg3 x a b ↔ InSeg3 x b a := by
  constructor <;> (rintro ⟨u, v, hu, hv, hs, rfl⟩; exact ⟨v, u, hv, hu, by linarith, by ext <;> simp <;> ring⟩)

theorem inSeg3_split (x a b : V3 ℝ) : InSeg3 x a b ↔ InSeg3 x a (mid3 a b) ∨ InSeg3 x (mid3 a b) b := by
  unfold mid3
  constructor
  · rintro ⟨u, v, hu, hv, hs, rfl⟩
    rcases le_total v u with h | h
    · left; exact ⟨u - v, 2 * v, by linarith, by linarith, by linarith, by ext <;> simp <;> ring⟩
    · right; exact ⟨2 * u, v - u, by linarith, by linarith, by linarith, by ext <;> simp <;> ring⟩
  · rintro (⟨u, v, hu, hv, hs, rfl⟩ | ⟨u, v, hu, hv, hs, rfl⟩)
    · exact ⟨u + v / 2, v / 2, by linarith, by linarith, by linarith, by ext <;> simp <;> ring⟩
    · exact ⟨u / 2, u / 2 + v, by linarith, by linarith, by linarith, by ext <;> simp <;> ring⟩

theorem inSeg3_undir (x : V3 ℝ) (V : ℕ → V3 ℝ) {e e' : Edge} (h : Undir e e') : InSeg3 x (V e.s) (V e.t) ↔ InSeg3 x (V e'.s) (V e'.t) := by
  rcases h with rfl | rfl
  · rfl
  · exact inSeg3_symm x _ _

theorem tooLong_undir (S : SplitState) {e e' : Edge} (h : Undir e e') : TooLong S e ↔ TooLong S e' := by
  rcases h with rfl | rfl
  · rfl
  · unfold TooLong Edge.flip
    simp only
    have : V3.normSq (S.V.val e.s - S.V.val e.t) = V3.normSq (S.V.val e.t - S.V.val e.s) := by unfold V3.normSq V3.dot; simp; ring
    rw [this, add_comm]

theorem isMeshEdge_iff {S : SplitState} (h : IsEdgeMap S) (e : Edge) : IsMeshEdge S e ↔ ∃ u < S.uE.rows, Undir (edgeRow S.uE u) e := by
  have hE : ∀ f < S.F.rows, ∀ c < 3, edgeRow S.E (f + c * S.F.rows) = ⟨S.F.val f ((c + 1) % 3), S.F.val f ((c + 2) % 3)⟩ := by
    intro f hf c hc
    have := h.side f hf ⟨c, hc⟩
    rw [side_fin] at this
    exact this
  have ixb : ∀ f c, f < S.F.rows → c < 3 → f + c * S.F.rows < 3 * S.F.rows := by
    intro f c hf hc
    have : c * S.F.rows ≤ 2 * S.F.rows := Nat.mul_le_mul_right _ (by omega)
    omega
  unfold IsMeshEdge
  constructor
  · rintro ⟨e', he', hu⟩
    obtain ⟨f, hf, c, hc, rfl⟩ := (mem_sides_triList S.F e').mp he'
    obtain ⟨h1, h2⟩ := h.lab _ (ixb f c hf hc)
    rw [hE f hf c hc] at h2
    exact ⟨_, h1, h2.symm'.trans' hu⟩
  · rintro ⟨u, hu, he⟩
    obtain ⟨_, o2, o3⟩ := h.occ u hu
    obtain ⟨x, hx⟩ := List.exists_mem_of_ne_nil _ o2
    obtain ⟨hx1, hx2⟩ := (o3 x).mp hx
    have hm0 : 0 < S.F.rows := by omega
    have hxd : x = x % S.F.rows + x / S.F.rows * S.F.rows := by rw [Nat.mul_comm]; exact (Nat.mod_add_div x _).symm
    have hg : x % S.F.rows < S.F.rows := Nat.mod_lt _ hm0
    have hd : x / S.F.rows < 3 := by rw [Nat.div_lt_iff_lt_mul hm0]; exact hx1
    have hl := (h.lab x hx1).2
    rw [hx2, hxd, hE _ hg _ hd] at hl
    exact ⟨_, (mem_sides_triList S.F _).mpr ⟨_, hg, _, hd, rfl⟩, hl.trans' he⟩

theorem mem_edgesToSplit {S : SplitState} (hS : IsEdgeMap S) (hlen : ∀ u < S.uE.rows, (S.uE2E.val u).length = 2) (feature : List ℕ) (fe : List Edge) (u : ℕ) :
    u ∈ edgesToSplit S feature fe ↔ u < S.uE.rows ∧ TooLong S (edgeRow S.uE u) ∧
      ((∃ e' ∈ fe, Undir (edgeRow S.uE u) e') ∨ ((edgeRow S.uE u).s ∉ feature ∧ (edgeRow S.uE u).t ∉ feature)) := by
  unfold edgesToSplit splitWanted TooLong
  rw [List.mem_filter, List.mem_range]
  by_cases hu : u < S.uE.rows
  · rw [← featRow_isSome]
    simp only [hlen u hu, Bool.and_eq_true, Bool.not_eq_true', Bool.and_eq_false_iff, Bool.or_eq_false_iff, decide_eq_false_iff_not, decide_eq_true_eq,
      Bool.not_eq_false', decide_true, and_true, gt_iff_lt, hu, true_and]
    tauto
  · simp [hu]

section
variable (S : SplitState) (feature : List ℕ) (fe : List Edge)

/-- the two outcomes of the pass -/
theorem splitUntilBound_cases (hS : IsEdgeMap S) (hM : ClosedOriented S.V.size (triList S.F))
    (hhigh : S.high.size = S.V.size) (hlow : S.low.size = S.V.size) :
    ∃ S', splitUntilBound S feature fe = some (S', updateFeat S.uE S.V.size fe (edgesToSplit S feature fe)) ∧
      (S' = S ∧ edgesToSplit S feature fe = [] ∨
        splitEdges S (edgesToSplit S feature fe) = some S' ∧ SplitProg S (edgesToSplit S feature fe).length (edgesToSplit S feature fe) S') := by
  have h0 := sinv_of_spec hS hM (le_of_eq hhigh.symm) (le_of_eq hlow.symm)
  have hnd : (edgesToSplit S feature fe).Nodup := List.nodup_range.filter _
  have hlt : ∀ u ∈ edgesToSplit S feature fe, u < S.uE.rows := by
    intro u hu; unfold edgesToSplit at hu; exact List.mem_range.mp (List.mem_filter.mp hu).1
  by_cases he : (edgesToSplit S feature fe).length = 0
  · have hnil := List.length_eq_zero_iff.mp he
    refine ⟨S, ?_, Or.inl ⟨rfl, hnil⟩⟩
    unfold splitUntilBound
    simp only [if_pos he, hnil]
    rfl
  · obtain ⟨S', hS', p⟩ := splitEdges_prog h0 hS.psize _ hnd hlt
    refine ⟨S', ?_, Or.inr ⟨hS', p⟩⟩
    unfold splitUntilBound
    simp only [if_neg he, hS', Option.map_some]

/-- **C75** (selection).  One splitting pass over a consistently oriented closed mesh succeeds and yields a consistently oriented closed mesh of the same surface.
An edge that is longer than the average of the bounds at its ends is replaced by its two halves, unless it has a fixed vertex as an end and is not a feature edge; all
other edges are still edges of the mesh.  No vertex moves. -/
theorem C75_selection (hS : IsEdgeMap S) (hM : ClosedOriented S.V.size (triList S.F)) (hhigh : S.high.size = S.V.size) (hlow : S.low.size = S.V.size) :
    ∃ S' fe', splitUntilBound S feature fe = some (S', fe') ∧ IsEdgeMap S' ∧ ClosedOriented S'.V.size (triList S'.F) ∧
      S.V.size ≤ S'.V.size ∧ S'.high.size = S'.V.size ∧ S'.low.size = S'.V.size ∧
      (∀ v < S.V.size, S'.V.val v = S.V.val v ∧ S'.high.val v = S.high.val v ∧ S'.low.val v = S.low.val v) ∧
      (∀ x, OnSurface S'.V.val (triList S'.F) x ↔ OnSurface S.V.val (triList S.F) x) ∧
      (∀ e, IsMeshEdge S e → TooLong S e → ((∃ e' ∈ fe, Undir e e') ∨ (e.s ∉ feature ∧ e.t ∉ feature)) →
        ¬ IsMeshEdge S' e ∧ ∃ w, S.V.size ≤ w ∧ w < S'.V.size ∧ S'.V.val w = (1 / 2 : ℝ) • (S.V.val e.s + S.V.val e.t) ∧
          IsMeshEdge S' ⟨e.s, w⟩ ∧ IsMeshEdge S' ⟨w, e.t⟩) ∧
      (∀ e, IsMeshEdge S e → ¬ (TooLong S e ∧ ((∃ e' ∈ fe, Undir e e') ∨ (e.s ∉ feature ∧ e.t ∉ feature))) → IsMeshEdge S' e) := by
  have h0 := sinv_of_spec hS hM (le_of_eq hhigh.symm) (le_of_eq hlow.symm)
  have hlen : ∀ u < S.uE.rows, (S.uE2E.val u).length = 2 := fun u hu => h0.pl u (by rw [hS.psize]; exact hu)
  have elig : ∀ e e', Undir e e' → (((∃ e0 ∈ fe, Undir e e0) ∨ (e.s ∉ feature ∧ e.t ∉ feature)) ↔ ((∃ e0 ∈ fe, Undir e' e0) ∨ (e'.s ∉ feature ∧ e'.t ∉ feature))) := by
    intro e e' hu
    have h1 : (∃ e0 ∈ fe, Undir e e0) ↔ (∃ e0 ∈ fe, Undir e' e0) :=
      ⟨fun ⟨x, hx, h⟩ => ⟨x, hx, hu.symm'.trans' h⟩, fun ⟨x, hx, h⟩ => ⟨x, hx, hu.trans' h⟩⟩
    rw [h1]
    rcases hu with rfl | rfl
    · rfl
    · exact or_congr Iff.rfl And.comm
  obtain ⟨S', hS', hcase⟩ := splitUntilBound_cases S feature fe hS hM hhigh hlow
  refine ⟨S', _, hS', ?_⟩
  rcases hcase with ⟨rfl, hnil⟩ | ⟨hsp, p⟩
  · refine ⟨hS, hM, le_refl _, hhigh, hlow, fun v hv => ⟨rfl, rfl, rfl⟩, fun x => Iff.rfl, ?_, fun e he _ => he⟩
    intro e he hl hel
    exfalso
    obtain ⟨u, hu, hue⟩ := (isMeshEdge_iff hS e).mp he
    have : u ∈ edgesToSplit S' feature fe := (mem_edgesToSplit hS hlen feature fe u).mpr ⟨hu, (tooLong_undir S' hue).mpr hl, (elig _ _ hue).mpr hel⟩
    rw [hnil] at this
    simp at this
  · obtain ⟨s1, s2⟩ := spec_of_sinv p.inv p.ur p.pr
    refine ⟨s1, by rw [p.vr]; exact s2, by rw [p.vr]; omega, by rw [p.hr, p.vr], by rw [p.lr, p.vr], p.vold, ?_, ?_, ?_⟩
    · intro x
      rw [onSurface_triList, onSurface_triList, p.inv.fr]
      exact p.surf x
    · intro e he hl hel
      obtain ⟨u, hu, hue⟩ := (isMeshEdge_iff hS e).mp he
      have hmem : u ∈ edgesToSplit S feature fe := (mem_edgesToSplit hS hlen feature fe u).mpr ⟨hu, (tooLong_undir S hue).mpr hl, (elig _ _ hue).mpr hel⟩
      obtain ⟨j, hj, hju⟩ := List.getElem_of_mem hmem
      obtain ⟨a, b, y1, y2, y3, y4, _⟩ := p.vnew j hj
      rw [hju] at y1 y2
      have hab : (a = e.s ∧ b = e.t) ∨ (a = e.t ∧ b = e.s) := by
        have := hue.symm'.trans' y1
        obtain ⟨c, d⟩ := e
        rw [undir_iff] at this
        exact this
      constructor
      · intro he'
        obtain ⟨u', hu', hue'⟩ := (isMeshEdge_iff s1 e).mp he'
        -- the ends of an old edge are old vertices
        have hends : e.s < S.V.size ∧ e.t < S.V.size := by
          obtain ⟨e0, he0, hu0⟩ := he
          obtain ⟨f, hf, c, hc, rfl⟩ := (mem_sides_triList S.F e0).mp he0
          have y1 := (h0.hd f hf ((c + 1) % 3) (by omega)).1
          have y2 := (h0.hd f hf ((c + 2) % 3) (by omega)).1
          obtain ⟨x, y⟩ := e
          rw [undir_iff] at hu0
          simp only
          omega
        have nofirst : (edgeRow S'.uE u').s < S.V.size := by
          obtain ⟨x, y⟩ := e
          have : (edgeRow S'.uE u').s = x ∨ (edgeRow S'.uE u').s = y := by
            generalize edgeRow S'.uE u' = r at hue'
            obtain ⟨r1, r2⟩ := r
            rw [undir_iff] at hue'
            simp only
            omega
          simp only at hends
          omega
        by_cases hk : u' < S.uE.rows
        · by_cases hm : u' ∈ edgesToSplit S feature fe
          · obtain ⟨i, hi, hiu⟩ := List.getElem_of_mem hm
            obtain ⟨a', b', _, z2, _⟩ := p.vnew i hi
            rw [hiu] at z2
            rw [z2] at nofirst
            simp only at nofirst
            omega
          · rw [p.old u' hk hm] at hue'
            have := hS.uniq u' hk u hu (hue'.trans' hue.symm')
            rw [this] at hm
            exact hm hmem
        · have := p.newE u' (by omega) (by rw [← p.ur]; exact hu')
          omega
      · refine ⟨S.V.size + j, by omega, by rw [p.vr]; omega, ?_, ?_, ?_⟩
        · rw [y4]
          unfold mid3
          rcases hab with ⟨rfl, rfl⟩ | ⟨rfl, rfl⟩
          · rfl
          · ext <;> simp <;> ring
        all_goals
          rw [isMeshEdge_iff s1]
          have r1 : u < S'.uE.rows := by rw [p.ur]; omega
          have r2 : S.uE.rows + 3 * j + 2 < S'.uE.rows := by rw [p.ur]; omega
          rcases hab with ⟨rfl, rfl⟩ | ⟨rfl, rfl⟩
        · exact ⟨u, r1, by rw [y2, undir_iff]; right; exact ⟨rfl, rfl⟩⟩
        · exact ⟨_, r2, by rw [y3, undir_iff]; right; exact ⟨rfl, rfl⟩⟩
        · exact ⟨_, r2, by rw [y3, undir_iff]; left; exact ⟨rfl, rfl⟩⟩
        · exact ⟨u, r1, by rw [y2, undir_iff]; left; exact ⟨rfl, rfl⟩⟩
    · intro e he hno
      obtain ⟨u, hu, hue⟩ := (isMeshEdge_iff hS e).mp he
      have hm : u ∉ edgesToSplit S feature fe := by
        intro hm
        obtain ⟨_, h1, h2⟩ := (mem_edgesToSplit hS hlen feature fe u).mp hm
        exact hno ⟨(tooLong_undir S hue).mp h1, (elig _ _ hue).mp h2⟩
      rw [isMeshEdge_iff s1]
      exact ⟨u, by rw [p.ur]; omega, by rw [p.old u hu hm]; exact hue⟩

/-- **C75** (feature edges).  If the feature edges are different edges of the mesh, then so are the feature edges after the pass, and they cover the same points. -/
theorem C75_feature_edges (hS : IsEdgeMap S) (hM : ClosedOriented S.V.size (triList S.F)) (hhigh : S.high.size = S.V.size) (hlow : S.low.size = S.V.size)
    (hfe : fe.Pairwise (fun e e' => ¬ Undir e e')) (hmesh : ∀ e ∈ fe, IsMeshEdge S e) (S' : SplitState) (fe' : List Edge)
    (h : splitUntilBound S feature fe = some (S', fe')) :
    fe'.Pairwise (fun e e' => ¬ Undir e e') ∧ (∀ e ∈ fe', IsMeshEdge S' e) ∧
    (∀ x, (∃ e ∈ fe', InSeg3 x (S'.V.val e.s) (S'.V.val e.t)) ↔ (∃ e ∈ fe, InSeg3 x (S.V.val e.s) (S.V.val e.t))) ∧
    (∀ e ∈ fe, ¬ TooLong S e → e ∈ fe') := by
  have h0 := sinv_of_spec hS hM (le_of_eq hhigh.symm) (le_of_eq hlow.symm)
  have hlen : ∀ u < S.uE.rows, (S.uE2E.val u).length = 2 := fun u hu => h0.pl u (by rw [hS.psize]; exact hu)
  have hnd : (edgesToSplit S feature fe).Nodup := List.nodup_range.filter _
  have hlt : ∀ u ∈ edgesToSplit S feature fe, u < S.uE.rows := fun u hu => ((mem_edgesToSplit hS hlen feature fe u).mp hu).1
  have huq : ∀ u ∈ edgesToSplit S feature fe, ∀ u' ∈ edgesToSplit S feature fe, Undir (edgeRow S.uE u) (edgeRow S.uE u') → u = u' :=
    fun u hu u' hu' he => hS.uniq u (hlt u hu) u' (hlt u' hu') he
  have ends : ∀ e, IsMeshEdge S e → e.s < S.V.size ∧ e.t < S.V.size ∧ e.s ≠ e.t := by
    rintro e ⟨e0, he0, hu0⟩
    obtain ⟨f, hf, c, hc, rfl⟩ := (mem_sides_triList S.F e0).mp he0
    have y1 := (h0.hd f hf ((c + 1) % 3) (by omega))
    have y2 := (h0.hd f hf ((c + 2) % 3) (by omega)).1
    rw [(Cyc.mk' c hc).s11] at y1
    obtain ⟨x, y⟩ := e
    rw [undir_iff] at hu0
    simp only
    omega
  have uends : ∀ u ∈ edgesToSplit S feature fe, (edgeRow S.uE u).s < S.V.size ∧ (edgeRow S.uE u).t < S.V.size ∧ (edgeRow S.uE u).s ≠ (edgeRow S.uE u).t :=
    fun u hu => ends _ ((isMeshEdge_iff hS _).mpr ⟨u, hlt u hu, Or.inl rfl⟩)
  obtain ⟨S'', hS'', hcase⟩ := splitUntilBound_cases S feature fe hS hM hhigh hlow
  rw [h] at hS''
  obtain ⟨rfl, rfl⟩ : S' = S'' ∧ fe' = updateFeat S.uE S.V.size fe (edgesToSplit S feature fe) := by cases hS''; exact ⟨rfl, rfl⟩
  refine ⟨updateFeat_pairwise _ _ _ _ hfe hnd huq uends (fun e he => ⟨(ends e (hmesh e he)).1, (ends e (hmesh e he)).2.1⟩), ?_, ?_, ?_⟩
  · intro e he
    rcases hcase with ⟨rfl, hnil⟩ | ⟨hsp, p⟩
    · rw [hnil] at he
      exact hmesh e he
    · obtain ⟨s1, s2⟩ := spec_of_sinv p.inv p.ur p.pr
      rw [mem_updateFeat _ _ _ _ hfe hnd huq] at he
      rw [isMeshEdge_iff s1]
      rcases he with ⟨he, hno⟩ | ⟨j, hj, _, he⟩
      · obtain ⟨u, hu, hue⟩ := (isMeshEdge_iff hS e).mp (hmesh e he)
        have hm : u ∉ edgesToSplit S feature fe := fun hm => hno u hm hue
        exact ⟨u, by rw [p.ur]; omega, by rw [p.old u hu hm]; exact hue⟩
      · obtain ⟨a, b, y1, y2, y3, _⟩ := p.vnew j hj
        have r1 : (edgesToSplit S feature fe)[j] < S'.uE.rows := by rw [p.ur]; have := hlt _ (List.getElem_mem hj); omega
        have r2 : S.uE.rows + 3 * j + 2 < S'.uE.rows := by rw [p.ur]; omega
        generalize (edgesToSplit S feature fe)[j] = u at *
        generalize edgeRow S.uE u = eu at *
        obtain ⟨c, d⟩ := eu
        rw [undir_iff] at y1
        simp only at he
        rcases y1 with ⟨rfl, rfl⟩ | ⟨rfl, rfl⟩ <;> rcases he with rfl | rfl
        · exact ⟨u, r1, by rw [y2, undir_iff]; right; exact ⟨rfl, rfl⟩⟩
        · exact ⟨_, r2, by rw [y3, undir_iff]; left; exact ⟨rfl, rfl⟩⟩
        · exact ⟨_, r2, by rw [y3, undir_iff]; right; exact ⟨rfl, rfl⟩⟩
        · exact ⟨u, r1, by rw [y2, undir_iff]; left; exact ⟨rfl, rfl⟩⟩
  · intro x
    rcases hcase with ⟨rfl, hnil⟩ | ⟨hsp, p⟩
    · rw [hnil]; exact Iff.rfl
    · have hold : ∀ e, IsMeshEdge S e → (InSeg3 x (S'.V.val e.s) (S'.V.val e.t) ↔ InSeg3 x (S.V.val e.s) (S.V.val e.t)) := by
        intro e he
        have := ends e he
        rw [(p.vold _ this.1).1, (p.vold _ this.2.1).1]
      -- the two halves of a split edge
      have halves : ∀ j (hj : j < (edgesToSplit S feature fe).length),
          InSeg3 x (S.V.val (edgeRow S.uE (edgesToSplit S feature fe)[j]).s) (S.V.val (edgeRow S.uE (edgesToSplit S feature fe)[j]).t) ↔
          InSeg3 x (S'.V.val (edgeRow S.uE (edgesToSplit S feature fe)[j]).s) (S'.V.val (S.V.size + j)) ∨
          InSeg3 x (S'.V.val (S.V.size + j)) (S'.V.val (edgeRow S.uE (edgesToSplit S feature fe)[j]).t) := by
        intro j hj
        obtain ⟨a, b, y1, _, _, y4, _⟩ := p.vnew j hj
        have he := uends _ (List.getElem_mem hj)
        rw [(p.vold _ he.1).1, (p.vold _ he.2.1).1]
        generalize edgeRow S.uE (edgesToSplit S feature fe)[j] = eu at *
        obtain ⟨c, d⟩ := eu
        have : S'.V.val (S.V.size + j) = mid3 (S.V.val c) (S.V.val d) := by
          rw [y4]
          rw [undir_iff] at y1
          rcases y1 with ⟨rfl, rfl⟩ | ⟨rfl, rfl⟩
          · rfl
          · exact mid3_comm _ _
        rw [this]
        exact inSeg3_split x _ _
      constructor
      · rintro ⟨e, he, hx⟩
        rw [mem_updateFeat _ _ _ _ hfe hnd huq] at he
        rcases he with ⟨he, hno⟩ | ⟨j, hj, ⟨e', he', hu'⟩, he⟩
        · exact ⟨e, he, (hold e (hmesh e he)).mp hx⟩
        · refine ⟨e', he', ?_⟩
          rw [← inSeg3_undir x S.V.val hu', halves j hj]
          rcases he with rfl | rfl
          · left; exact hx
          · right; exact hx
      · rintro ⟨e, he, hx⟩
        by_cases hsp : ∃ u ∈ edgesToSplit S feature fe, Undir (edgeRow S.uE u) e
        · obtain ⟨u, hu, hue⟩ := hsp
          obtain ⟨j, hj, rfl⟩ := List.getElem_of_mem hu
          rw [← inSeg3_undir x S.V.val hue, halves j hj] at hx
          rcases hx with hx | hx
          · exact ⟨_, (mem_updateFeat _ _ _ _ hfe hnd huq _).mpr (Or.inr ⟨j, hj, ⟨e, he, hue⟩, Or.inl rfl⟩), hx⟩
          · exact ⟨_, (mem_updateFeat _ _ _ _ hfe hnd huq _).mpr (Or.inr ⟨j, hj, ⟨e, he, hue⟩, Or.inr rfl⟩), hx⟩
        · push Not at hsp
          exact ⟨e, (mem_updateFeat _ _ _ _ hfe hnd huq _).mpr (Or.inl ⟨he, hsp⟩), (hold e (hmesh e he)).mpr hx⟩
  · intro e he hl
    rw [mem_updateFeat _ _ _ _ hfe hnd huq]
    left
    refine ⟨he, ?_⟩
    intro u hu hue
    exact hl ((tooLong_undir S hue).mp ((mem_edgesToSplit hS hlen feature fe u).mp hu).2.1)
end

/-! Non-vacuity: the tetrahedron with bound 1: the three edges of length √2 are too long; edge 1-2 is a feature edge, vertex 3 is fixed. -/

example : ∃ S' fe', splitUntilBound tetState [3] [⟨2, 1⟩] = some (S', fe') ∧ ¬ IsMeshEdge S' ⟨1, 2⟩ ∧ IsMeshEdge S' ⟨1, 3⟩ ∧ (∀ e ∈ fe', IsMeshEdge S' e) := by
  have hsq : (1 : ℝ) < Real.sqrt 2 := by
    rw [Real.lt_sqrt (by norm_num)]; norm_num
  obtain ⟨S', fe', h1, _, _, _, _, _, _, _, h9, h10⟩ := C75_selection tetState [3] [⟨2, 1⟩] tetState_edgeMap tetState_closed rfl rfl
  have m12 : IsMeshEdge tetState ⟨1, 2⟩ := (isMeshEdge_iff tetState_edgeMap _).mpr ⟨3, by decide, Or.inl rfl⟩
  have m13 : IsMeshEdge tetState ⟨1, 3⟩ := (isMeshEdge_iff tetState_edgeMap _).mpr ⟨4, by decide, Or.inl rfl⟩
  refine ⟨S', fe', h1, ?_, ?_, ?_⟩
  · refine (h9 ⟨1, 2⟩ m12 ?_ (Or.inl ⟨⟨2, 1⟩, by simp, Or.inr rfl⟩)).1
    unfold TooLong
    simp only [tetState, V3.normSq, V3.dot]
    norm_num
    exact hsq
  · refine h10 ⟨1, 3⟩ m13 ?_
    rintro ⟨_, h | h⟩
    · obtain ⟨e', he', hu⟩ := h
      simp at he'
      subst he'
      rw [undir_iff] at hu
      omega
    · simp at h
  · refine (C75_feature_edges tetState [3] [⟨2, 1⟩] tetState_edgeMap tetState_closed rfl rfl (by simp) ?_ S' fe' h1).2.1
    intro e he
    simp at he
    subst he
    exact (isMeshEdge_iff tetState_edgeMap _).mpr ⟨3, by decide, Or.inr rfl⟩

end Gpy
