import Verif.Proofs.Collapse
import Verif.Spec.Relax
import Mathlib.Tactic.FinCases
import Mathlib.Tactic.IntervalCases

/-! # C78: the collapsing pass of the remesher -/

set_option autoImplicit false
namespace Gpy

/-- **C78** (the result).  Whatever edges `igl::decimate` collapses, in whatever order: on a closed mesh whose feature vertices and feature edges are vertices and edges of the mesh, the code after it succeeds
(no out-of-range access, all searches in the union-find structure end), and there is a map `new` from old to new vertices as `Collapsed` says: the new mesh is closed and is the image of the
old one, fixed vertices stay in place and nothing is merged into them, the feature edges are the images of the old ones and are edges of the new mesh, and the
length bounds are inherited. -/
theorem C78_collapsed (A : ℕ → List ℕ) (V : Arr (V3 ℝ)) (F : List Tri) (high low : Arr ℝ) (feature : List ℕ) (fe : List Edge) (U : Arr (V3 ℝ)) (G : List Tri)
    (I : List ℕ) (merges : List (ℕ × ℕ)) (hF : ClosedOriented V.size F) (hh : high.size = V.size) (hl : low.size = V.size)
    (hfx : ∀ f ∈ feature, UsedIn F f) (hfe : ∀ e ∈ fe, ∃ e' ∈ sides F, Undir e e')
    (hD : IsDecimated ⟨A, high.val, low.val, feature, fe⟩ V F U G I merges) :
    ∃ out, afterDecimate V.size I merges high low feature fe = some out ∧ ∃ new, Collapsed V F high low feature fe U G out new :=
  collapsed_main hF hh hl hfx hfe hD

/-- **C78** (which edges may be collapsed).  A collapsed edge is at most as long as the mean of the lower bounds of its ends and none of its ends is fixed.  An end on a feature line (by its number) decides about
the place of the new vertex; if both ends are on feature lines then the edge is a feature edge and not both are corners, and a corner stays in place.  Otherwise
the new vertex is the midpoint.  No edge from the new vertex to an old neighbour of an end that is not on a feature line is longer than the upper bound. -/
theorem C78_allowed (C : CollapseIn) (V : ℕ → V3 ℝ) (F : List Tri) (N : List ℕ) (a b : ℕ) (p : V3 ℝ) (h : collapseCost C V F N a b = some p) :
    a ∉ C.fixed ∧ b ∉ C.fixed ∧ dist3 (V a) (V b) ≤ (C.low a + C.low b) / 2 ∧
    (featDeg C.fe a = 0 → featDeg C.fe b = 0 → p = (1 / 2 : ℝ) • (V a + V b)) ∧
    (0 < featDeg C.fe a → featDeg C.fe b = 0 → p = V a) ∧
    (featDeg C.fe a = 0 → 0 < featDeg C.fe b → p = V b) ∧
    (0 < featDeg C.fe a → 0 < featDeg C.fe b → (∃ e ∈ C.fe, Undir ⟨a, b⟩ e) ∧ (p = V a ∨ p = V b) ∧
      (featDeg C.fe a ≠ 2 → featDeg C.fe b = 2 ∧ p = V a) ∧ (featDeg C.fe b ≠ 2 → featDeg C.fe a = 2 ∧ p = V b)) ∧
    (featDeg C.fe a = 0 → ∀ j ∈ C.A a, dist3 (V j) p ≤ C.high a) ∧ (featDeg C.fe b = 0 → ∀ j ∈ C.A b, dist3 (V j) p ≤ C.high b) := by
  have hp := collapseCost_place h
  obtain ⟨f1, f2⟩ := collapsePlace_fixed hp
  refine ⟨f1, f2, ?_⟩
  unfold collapseCost at h
  rw [hp] at h
  simp only [Option.bind_eq_bind, Option.bind_some] at h
  split_ifs at h with h1 h2 h3 h4
  refine ⟨not_lt.1 h1, ?_⟩
  unfold collapsePlace at hp
  rw [if_neg (by rintro (h | h); exacts [f1 h, f2 h])] at hp
  simp only at hp
  refine ⟨?_, ?_, ?_, ?_, ?_, ?_⟩
  · intro ha hb
    simp [ha, hb] at hp
    rw [← hp]; ext <;> simp
  · intro ha hb
    have ha' : featDeg C.fe a ≥ 1 := ha
    simp [ha', hb] at hp
    exact hp.symm
  · intro ha hb
    have hb' : featDeg C.fe b ≥ 1 := hb
    simp [ha, hb'] at hp
    exact hp.symm
  · intro ha hb
    have ha' : featDeg C.fe a ≥ 1 := ha
    have hb' : featDeg C.fe b ≥ 1 := hb
    rw [if_pos ⟨ha', hb'⟩] at hp
    by_cases he : ∃ e ∈ C.fe, Undir ⟨a, b⟩ e
    · rw [if_neg (not_not.2 he)] at hp
      refine ⟨he, ?_⟩
      by_cases ca : featDeg C.fe a ≠ 2 <;> by_cases cb : featDeg C.fe b ≠ 2
      · rw [if_pos ⟨ca, cb⟩] at hp; simp at hp
      · rw [if_neg (by rintro ⟨_, h⟩; exact cb h), if_pos ca] at hp
        simp only [Option.some.injEq] at hp
        exact ⟨Or.inl hp.symm, fun _ => ⟨not_not.1 cb, hp.symm⟩, fun h => absurd h cb⟩
      · rw [if_neg (by rintro ⟨h, _⟩; exact ca h), if_neg ca, if_pos cb] at hp
        simp only [Option.some.injEq] at hp
        exact ⟨Or.inr hp.symm, fun h => absurd h ca, fun _ => ⟨not_not.1 ca, hp.symm⟩⟩
      · rw [if_neg (by rintro ⟨h, _⟩; exact ca h), if_neg ca, if_neg cb] at hp
        simp only [Option.some.injEq] at hp
        exact ⟨Or.inl hp.symm, fun h => absurd h ca, fun h => absurd h cb⟩
    · rw [if_pos he] at hp; simp at hp
  · intro ha j hj
    by_contra hc
    exact h3 ⟨by omega, j, hj, not_le.1 hc⟩
  · intro hb j hj
    by_contra hc
    exact h2 ⟨by omega, j, hj, not_le.1 hc⟩

/-! ## two defects -/

instance (t u : Tri) : Decidable (SameCorners t u) :=
  decidable_of_iff ((∀ v ∈ [t.a, t.b, t.c], v = u.a ∨ v = u.b ∨ v = u.c) ∧ (∀ v ∈ [u.a, u.b, u.c], v = t.a ∨ v = t.b ∨ v = t.c)) (by
    unfold SameCorners
    simp only [List.mem_cons, List.not_mem_nil, or_false]
    exact ⟨fun h v => ⟨h.1 v, h.2 v⟩, fun h => ⟨fun v => (h v).1, fun v => (h v).2⟩⟩)

instance (F : List Tri) : Decidable (NoTwin F) := by unfold NoTwin; infer_instance

theorem closedOriented_of {n : ℕ} {F : List Tri} (h : OrientedManifold F ∧ (∀ e ∈ sides F, e.flip ∈ sides F) ∧ NoTwin F ∧ InRange F n) : ClosedOriented n F :=
  ⟨h.1, h.2.1, h.2.2.1, h.2.2.2⟩

theorem normalize_up {k : ℝ} (hk : 0 < k) : eigenNormalize ⟨0, 0, k⟩ = ⟨0, 0, 1⟩ := by
  have h1 : V3.normSq (⟨0, 0, k⟩ : V3 ℝ) = k ^ 2 := by simp [V3.normSq, V3.dot]; ring
  unfold eigenNormalize
  rw [h1, if_pos (by positivity), Real.sqrt_sq hk.le]
  ext <;> simp
  exact inv_mul_cancel₀ hk.ne'

theorem normalize_zero : eigenNormalize ⟨0, 0, 0⟩ = ⟨0, 0, 0⟩ := by
  unfold eigenNormalize
  rw [if_neg (by simp [V3.normSq, V3.dot])]

theorem flat_turn {V : ℕ → V3 ℝ} {a b : ℕ} {p : V3 ℝ} {t : Tri} {k k' : ℝ} (hk : 0 < k) (hk' : 0 ≤ k')
    (h1 : V3.cross (V t.b - V t.a) (V t.c - V t.a) = ⟨0, 0, k⟩)
    (h2 : V3.cross (afterCollapse V a b p t.b - afterCollapse V a b p t.a) (afterCollapse V a b p t.c - afterCollapse V a b p t.a) = ⟨0, 0, k'⟩) :
    ¬ faceTurns V a b p t := by
  unfold faceTurns
  simp only
  rw [h1, h2, normalize_up hk]
  rcases hk'.eq_or_lt with h | h
  · rw [← h, normalize_zero]; simp [V3.dot, V3.normSq]
  · rw [normalize_up h]; norm_num [V3.dot, V3.normSq]

/-- a closed mesh with 7 vertices; the vertices 0 to 5 are in a plane -/
def crF : List Tri := [⟨0, 1, 2⟩, ⟨1, 0, 3⟩, ⟨2, 1, 4⟩, ⟨0, 2, 5⟩, ⟨1, 3, 4⟩, ⟨2, 4, 5⟩, ⟨0, 5, 3⟩, ⟨4, 3, 6⟩, ⟨5, 4, 6⟩, ⟨3, 5, 6⟩]
noncomputable def crV (i : ℕ) : V3 ℝ := if i = 0 then ⟨2, 0, 0⟩ else if i = 1 then ⟨0, 0, 0⟩ else if i = 2 then ⟨0, -3, 0⟩ else if i = 3 then ⟨0, 8, 0⟩ else
  if i = 4 then ⟨-8, -5, 0⟩ else if i = 5 then ⟨8, -6, 0⟩ else ⟨0, -1, -8⟩
/-- its adjacency list (`igl::adjacency_list`) -/
def crA (v : ℕ) : List ℕ := (adjListF crF).val v

theorem crF_closed : ClosedOriented 7 crF := closedOriented_of (by decide +kernel)

/-- what the callback sees: target length 10, no fixed vertices, one feature edge from 1 to 3 -/
noncomputable def crC : CollapseIn := ⟨crA, fun _ => 14, fun _ => 7, [], [⟨1, 3⟩]⟩


/-- the faces around a vertex -/
def faceList (F : List Tri) (x : ℕ) : List ℕ := (List.range F.length).filter (fun f => F.getD f ⟨0, 0, 0⟩ ≠ ⟨0, 0, 0⟩ ∧ (F.getD f ⟨0, 0, 0⟩).has x)

theorem faceList_around (F : List Tri) (x : ℕ) : AroundVertex F (faceList F x) x := by
  intro f
  unfold faceList
  rw [List.mem_filter, List.mem_range]
  rw [decide_eq_true_eq]
  simp only [List.getD]
  constructor
  · rintro ⟨hf, h1, h2⟩
    rw [List.getElem?_eq_getElem hf] at h1 h2
    exact ⟨F[f], List.getElem?_eq_getElem hf, h1, h2⟩
  · rintro ⟨t, ht, h1, h2⟩
    obtain ⟨hf, _⟩ := List.getElem?_eq_some_iff.1 ht
    rw [ht]
    exact ⟨hf, h1, h2⟩

theorem dist3_le {x y : V3 ℝ} {r : ℝ} (hr : 0 ≤ r) (h : V3.normSq (x - y) ≤ r ^ 2) : dist3 x y ≤ r := Real.sqrt_le_iff.2 ⟨hr, h⟩

theorem cost_ok {C : CollapseIn} {V : ℕ → V3 ℝ} {F : List Tri} {N : List ℕ} {a b : ℕ} {p : V3 ℝ} (hp : collapsePlace C V a b = some p)
    (h1 : dist3 (V a) (V b) ≤ (C.low a + C.low b) / 2) (h2 : featDeg C.fe b = 0 → ∀ j ∈ C.A b, dist3 (V j) p ≤ C.high b)
    (h3 : featDeg C.fe a = 0 → ∀ j ∈ C.A a, dist3 (V j) p ≤ C.high a)
    (h4 : ∀ f ∈ N, ¬ (f = 0 ∨ f = N.length - 1) → ∀ t, F[f]? = some t → ¬ faceTurns V a b p t) : collapseCost C V F N a b = some p := by
  unfold collapseCost
  rw [hp]
  simp only [Option.bind_eq_bind, Option.bind_some]
  rw [if_neg (not_lt.2 h1), if_neg, if_neg, if_neg]
  · rintro ⟨f, hf, hn, t, ht, hc⟩; exact h4 f hf hn t ht hc
  · rintro ⟨hn, j, hj, hc⟩; exact absurd (h3 (by omega) j hj) (not_le.2 hc)
  · rintro ⟨hn, j, hj, hc⟩; exact absurd (h2 (by omega) j hj) (not_le.2 hc)

/-- after the first collapse -/
noncomputable def crV1 (i : ℕ) : V3 ℝ := if i = 0 then ⟨0, 0, 0⟩ else crV i
def crF1 : List Tri := crF.map (collapseTri 0 1)

theorem cr_step1 : CollapseStep crC 7 0 1 ⟨0, 0, 0⟩ ⟨crV, crF, []⟩ ⟨crV1, crF1, [(0, 1)]⟩ := by
  refine ⟨?_, ⟨crV, crF, faceList crF 0, 0, rfl, rfl, Or.inl rfl, faceList_around _ _, ?_⟩, ?_, rfl, rfl, closedOriented_of (by decide +kernel)⟩
  · exact ⟨⟨0, 1⟩, by decide +kernel, Or.inl rfl⟩
  · apply cost_ok
    · have h0 : featDeg crC.fe 0 = 0 := rfl
      have h1 : featDeg crC.fe 1 = 1 := rfl
      unfold collapsePlace
      simp [h0, h1, show crC.fixed = [] from rfl, crV]
    · apply dist3_le <;> norm_num [crC, crV, V3.normSq, V3.dot]
    · intro h; exact absurd h (by decide +kernel)
    · intro _
      have hA : ∀ j ∈ crA 0, j ∈ [1, 2, 3, 5] := by decide +kernel
      intro j hj
      have hj := hA j hj
      fin_cases hj <;> apply dist3_le <;> norm_num [crC, crV, V3.normSq, V3.dot]
    · have hN : faceList crF 0 = [0, 1, 3, 6] := by decide +kernel
      rw [hN]
      intro f hf hn t ht
      fin_cases hf
      · simp at hn
      · obtain rfl : (⟨1, 0, 3⟩ : Tri) = t := by simpa [crF] using ht
        apply flat_turn (k := 16) (k' := 0) <;> norm_num [afterCollapse, crV, V3.cross]
      · simp at hn
      · obtain rfl : (⟨0, 5, 3⟩ : Tri) = t := by simpa [crF] using ht
        apply flat_turn (k := 36) (k' := 64) <;> norm_num [afterCollapse, crV, V3.cross]
  · funext i
    simp only [crV1, crV, Function.update_apply]
    split_ifs <;> simp_all

/-- after the second collapse -/
noncomputable def crV2 (i : ℕ) : V3 ℝ := if i = 0 ∨ i = 2 then ⟨0, -3 / 2, 0⟩ else crV1 i
def crF2 : List Tri := crF1.map (collapseTri 0 2)

theorem cr_step2 : CollapseStep crC 7 0 2 ⟨0, -3 / 2, 0⟩ ⟨crV1, crF1, [(0, 1)]⟩ ⟨crV2, crF2, [(0, 1), (0, 2)]⟩ := by
  refine ⟨?_, ⟨crV1, crF1, faceList crF1 0, 0, rfl, rfl, Or.inl rfl, faceList_around _ _, ?_⟩, ?_, rfl, rfl, closedOriented_of (by decide +kernel)⟩
  · exact ⟨⟨0, 2⟩, by decide +kernel, Or.inl rfl⟩
  · apply cost_ok
    · have h0 : featDeg crC.fe 0 = 0 := rfl
      have h1 : featDeg crC.fe 2 = 0 := rfl
      unfold collapsePlace
      simp [h0, h1, show crC.fixed = [] from rfl, crV1, crV]
      ext <;> norm_num
    · apply dist3_le <;> norm_num [crC, crV1, crV, V3.normSq, V3.dot]
    · intro _
      have hA : ∀ j ∈ crA 2, j ∈ [0, 1, 4, 5] := by decide +kernel
      intro j hj
      have hj := hA j hj
      fin_cases hj <;> apply dist3_le <;> norm_num [crC, crV1, crV, V3.normSq, V3.dot]
    · intro _
      have hA : ∀ j ∈ crA 0, j ∈ [1, 2, 3, 5] := by decide +kernel
      intro j hj
      have hj := hA j hj
      fin_cases hj <;> apply dist3_le <;> norm_num [crC, crV1, crV, V3.normSq, V3.dot]
    · have hN : faceList crF1 0 = [2, 3, 4, 6] := by decide +kernel
      rw [hN]
      intro f hf hn t ht
      fin_cases hf
      · obtain rfl : (⟨2, 0, 4⟩ : Tri) = t := by
          have : crF1[2]? = some ⟨2, 0, 4⟩ := by decide +kernel
          rw [this] at ht; simpa using ht
        apply flat_turn (k := 24) (k' := 0) <;> norm_num [afterCollapse, crV1, crV, V3.cross]
      · simp at hn
      · obtain rfl : (⟨0, 3, 4⟩ : Tri) = t := by
          have : crF1[4]? = some ⟨0, 3, 4⟩ := by decide +kernel
          rw [this] at ht; simpa using ht
        apply flat_turn (k := 64) (k' := 76) <;> norm_num [afterCollapse, crV1, crV, V3.cross]
      · obtain rfl : (⟨0, 5, 3⟩ : Tri) = t := by
          have : crF1[6]? = some ⟨0, 5, 3⟩ := by decide +kernel
          rw [this] at ht; simpa using ht
        apply flat_turn (k := 64) (k' := 76) <;> norm_num [afterCollapse, crV1, crV, V3.cross]
  · funext i
    simp only [crV2, crV1, crV, Function.update_apply]
    split_ifs <;> simp_all

def crI : List ℕ := [0, 3, 4, 5, 6]
def crG : List Tri := [⟨0, 1, 2⟩, ⟨0, 2, 3⟩, ⟨0, 3, 1⟩, ⟨2, 1, 4⟩, ⟨3, 2, 4⟩, ⟨1, 3, 4⟩]
noncomputable def crU : Arr (V3 ℝ) := ⟨5, fun s => crV2 (crI.getD s 0)⟩

theorem cr_decimated : IsDecimated ⟨(adjListF crF).val, fun _ => 14, fun _ => 7, [], [⟨1, 3⟩]⟩ ⟨7, crV⟩ crF crU crG crI [(0, 1), (0, 2)] := by
  refine ⟨crV2, crF2, ?_, by decide +kernel, rfl, ?_, by decide +kernel⟩
  · exact (Relation.ReflTransGen.single ⟨0, 1, _, cr_step1⟩).tail ⟨0, 2, _, cr_step2⟩
  · intro s h
    simp [crU, List.getD, List.getElem?_eq_getElem h]

/-- **C78 fails** for crease ends.  A vertex where a feature line ends (or branches, or that is just on a feature line) may leave the feature line: the survivor of a collapse keeps the smaller of the two numbers, but
`feat_deg` is looked up by number.  Here the end 1 of the feature line is at its place after the first collapse, but has number 0 and is moved to a midpoint by the next one.  Nothing else is
to be collapsed: all remaining edges are longer than the bound.  The target length is 10. -/
theorem C78_crease_violated : ∃ (V : Arr (V3 ℝ)) (F : List Tri) (fe : List Edge) (U : Arr (V3 ℝ)) (G : List Tri) (I : List ℕ) (merges : List (ℕ × ℕ)) (out : CollapseOut) (new : ℕ → ℕ),
    ClosedOriented V.size F ∧ (∀ e ∈ fe, ∃ e' ∈ sides F, Undir e e') ∧
    IsDecimated ⟨(adjListF F).val, fun _ => 14, fun _ => 7, [], fe⟩ V F U G I merges ∧ (∀ e ∈ sides G, 7 < dist3 (U.val e.s) (U.val e.t)) ∧
    afterDecimate V.size I merges ⟨V.size, fun _ => 14⟩ ⟨V.size, fun _ => 7⟩ [] fe = some out ∧
    Collapsed V F ⟨V.size, fun _ => 14⟩ ⟨V.size, fun _ => 7⟩ [] fe U G out new ∧
    ∃ e ∈ out.fe, featDeg out.fe e.s = 1 ∧ ¬ OnPolyline V.val fe (U.val e.s) := by
  have hfe : ∀ e ∈ [(⟨1, 3⟩ : Edge)], ∃ e' ∈ sides crF, Undir e e' := by decide +kernel
  obtain ⟨out, h1, new, h2⟩ := C78_collapsed (adjListF crF).val ⟨7, crV⟩ crF ⟨7, fun _ => 14⟩ ⟨7, fun _ => 7⟩ [] [⟨1, 3⟩] crU crG crI [(0, 1), (0, 2)] crF_closed rfl rfl (by simp) hfe cr_decimated
  have hout : out.fe = [⟨0, 1⟩] := by
    have : afterDecimate 7 crI [(0, 1), (0, 2)] ⟨7, fun _ => 14⟩ ⟨7, fun _ => 7⟩ [] [⟨1, 3⟩] = some out := h1
    have h3 : ∃ o, afterDecimate 7 crI [(0, 1), (0, 2)] ⟨7, fun _ => 14⟩ ⟨7, fun _ => 7⟩ [] [⟨1, 3⟩] = some o ∧ o.fe = [⟨0, 1⟩] := ⟨_, rfl, rfl⟩
    obtain ⟨o, h4, h5⟩ := h3
    rw [this] at h4
    cases h4
    exact h5
  refine ⟨⟨7, crV⟩, crF, [⟨1, 3⟩], crU, crG, crI, [(0, 1), (0, 2)], out, new, crF_closed, hfe, cr_decimated, ?_, h1, h2, ⟨0, 1⟩, by rw [hout]; simp, by rw [hout]; rfl, ?_⟩
  · intro e he
    have hs : sides crG = [⟨1, 2⟩, ⟨2, 0⟩, ⟨0, 1⟩, ⟨2, 3⟩, ⟨3, 0⟩, ⟨0, 2⟩, ⟨3, 1⟩, ⟨1, 0⟩, ⟨0, 3⟩, ⟨1, 4⟩, ⟨4, 2⟩, ⟨2, 1⟩, ⟨2, 4⟩, ⟨4, 3⟩, ⟨3, 2⟩, ⟨3, 4⟩, ⟨4, 1⟩, ⟨1, 3⟩] := by decide +kernel
    rw [hs] at he
    unfold dist3
    rw [Real.lt_sqrt (by norm_num)]
    fin_cases he <;> norm_num [crU, crI, crV2, crV1, crV, V3.normSq, V3.dot]
  · rintro ⟨e, he, u, u0, _, hp⟩
    have he' : e = ⟨1, 3⟩ := by simpa using he
    subst he'
    have hy := congrArg V3.y hp
    norm_num [crU, crI, crV2, crV1, crV] at hy
    linarith

/-- an octahedron; the vertices 0 to 4 are in a plane -/
def foF : List Tri := [⟨0, 2, 3⟩, ⟨0, 3, 4⟩, ⟨0, 4, 1⟩, ⟨0, 1, 2⟩, ⟨3, 2, 5⟩, ⟨4, 3, 5⟩, ⟨1, 4, 5⟩, ⟨2, 1, 5⟩]
noncomputable def foV (i : ℕ) : V3 ℝ := if i = 0 then ⟨0, 0, 0⟩ else if i = 1 then ⟨10, 0, 0⟩ else if i = 2 then ⟨2, 1, 0⟩ else if i = 3 then ⟨2, 3, 0⟩ else
  if i = 4 then ⟨-3, -3, 0⟩ else ⟨0, 0, -10⟩

/-- **C78 fails** for fold-overs.  A collapse may turn a face upside down (the face `0 2 3`, which is in the way of the vertex 0): the code means to leave out the first and the last
face of its list, which contain the collapsed edge, but compares the number of the face in the mesh with `0` and `N.size()-1`, so the faces with these numbers are never checked. -/
theorem C78_foldover_violated : ∃ (V : ℕ → V3 ℝ) (F : List Tri) (a b : ℕ) (p : V3 ℝ) (s' : DState), ClosedOriented 6 F ∧
    CollapseStep ⟨(adjListF F).val, fun _ => 28, fun _ => 14, [], []⟩ 6 a b p ⟨V, F, []⟩ s' ∧
    ∃ t ∈ F, t.has a ∧ ¬ t.has b ∧ t ∈ s'.F ∧
      V3.dot (V3.cross (V t.b - V t.a) (V t.c - V t.a)) (V3.cross (s'.V t.b - s'.V t.a) (s'.V t.c - s'.V t.a)) < 0 := by
  refine ⟨foV, foF, 0, 1, ⟨5, 0, 0⟩, ⟨Function.update (Function.update foV 0 ⟨5, 0, 0⟩) 1 ⟨5, 0, 0⟩, foF.map (collapseTri 0 1), [(0, 1)]⟩, closedOriented_of (by decide +kernel), ?_,
    ⟨0, 2, 3⟩, by simp [foF], Or.inl rfl, by decide, by decide +kernel, ?_⟩
  · refine ⟨?_, ⟨foV, foF, faceList foF 0, 0, rfl, rfl, Or.inl rfl, faceList_around _ _, ?_⟩, rfl, rfl, rfl, closedOriented_of (by decide +kernel)⟩
    · exact ⟨⟨0, 1⟩, by decide +kernel, Or.inl rfl⟩
    · apply cost_ok
      · have h0 : ∀ v, featDeg [] v = 0 := fun _ => rfl
        unfold collapsePlace
        simp [h0, foV]
        ext <;> norm_num
      · apply dist3_le <;> norm_num [foV, V3.normSq, V3.dot]
      · intro _
        have hA : ∀ j ∈ (adjListF foF).val 1, j ∈ [0, 2, 4, 5] := by decide +kernel
        intro j hj
        have hj := hA j hj
        fin_cases hj <;> apply dist3_le <;> norm_num [foV, V3.normSq, V3.dot]
      · intro _
        have hA : ∀ j ∈ (adjListF foF).val 0, j ∈ [1, 2, 3, 4] := by decide +kernel
        intro j hj
        have hj := hA j hj
        fin_cases hj <;> apply dist3_le <;> norm_num [foV, V3.normSq, V3.dot]
      · have hN : faceList foF 0 = [0, 1, 2, 3] := by decide +kernel
        rw [hN]
        intro f hf hn t ht
        fin_cases hf
        · simp at hn
        · obtain rfl : (⟨0, 3, 4⟩ : Tri) = t := by simpa [foF] using ht
          apply flat_turn (k := 3) (k' := 33) <;> norm_num [afterCollapse, foV, V3.cross]
        · obtain rfl : (⟨0, 4, 1⟩ : Tri) = t := by simpa [foF] using ht
          apply flat_turn (k := 30) (k' := 0) <;> norm_num [afterCollapse, foV, V3.cross]
        · simp at hn
  · norm_num [foV, V3.cross, V3.dot, Function.update_apply]

end Gpy
