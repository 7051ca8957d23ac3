import Verif.Spec.Collapse
import Verif.Proofs.Flip

/-! What the collapses of `igl::decimate` do to the mesh. -/

set_option autoImplicit false
namespace Gpy

/-- the vertex into which `v` has been merged -/
def repOf (merges : List (ℕ × ℕ)) (v : ℕ) : ℕ := merges.foldl (fun x m => mergeTo m.1 m.2 x) v

theorem repOf_snoc (m : List (ℕ × ℕ)) (a b v : ℕ) : repOf (m ++ [(a, b)]) v = mergeTo a b (repOf m v) := by
  simp [repOf]

theorem mergeTo_of_ne {a b v : ℕ} (ha : v ≠ a) (hb : v ≠ b) : mergeTo a b v = v := by
  unfold mergeTo; rw [if_neg]; omega

theorem mergeTo_left (a b : ℕ) : mergeTo a b a = min a b := by unfold mergeTo; split_ifs <;> omega
theorem mergeTo_right (a b : ℕ) : mergeTo a b b = min a b := by unfold mergeTo; split_ifs <;> omega

theorem mergeTo_eq_iff {a b v w : ℕ} : mergeTo a b v = mergeTo a b w ↔ v = w ∨ ((v = a ∨ v = b) ∧ (w = a ∨ w = b)) := by
  unfold mergeTo; split_ifs <;> omega

theorem mergeTo_min {a b v : ℕ} (h : v = a ∨ v = b) : mergeTo a b v = min a b := by
  rcases h with rfl | rfl
  · exact mergeTo_left _ _
  · exact mergeTo_right _ _

theorem proper_map {a b : ℕ} (hab : a ≠ b) {t : Tri} (ht : t.proper) : (t.map (mergeTo a b)).proper ↔ ¬ (t.has a ∧ t.has b) := by
  unfold Tri.proper Tri.has Tri.map at *
  simp only [ne_eq, mergeTo_eq_iff]
  omega

theorem proper_ne {t : Tri} (ht : t.proper) : t ≠ ⟨0, 0, 0⟩ := by rintro rfl; simp [Tri.proper] at ht

theorem proper_alive {F : List Tri} (h : ∀ t ∈ F, t.proper) : alive F = F := by
  unfold alive; rw [List.filter_eq_self]; intro t ht; simpa using proper_ne (h t ht)

/-- one collapse on the live faces -/
theorem alive_collapse {a b : ℕ} (hab : a ≠ b) {F : List Tri} (h : ∀ t ∈ alive F, t.proper) :
    alive (F.map (collapseTri a b)) = ((alive F).map (Tri.map (mergeTo a b))).filter (fun t => t.proper) := by
  induction F with
  | nil => rfl
  | cons t F ih =>
    by_cases ht : t = ⟨0, 0, 0⟩
    · subst ht
      have h1 : collapseTri a b ⟨0, 0, 0⟩ = ⟨0, 0, 0⟩ := by
        have h0 : ¬ (0 = max a b) := by omega
        unfold collapseTri Tri.map mergeTo
        simp only [h0, if_false, ite_self]
      have h2 : alive ((⟨0, 0, 0⟩ : Tri) :: F) = alive F := by simp [alive]
      rw [h2] at h ⊢
      rw [List.map_cons, h1, ← ih h]
      simp [alive]
    · have h2 : alive (t :: F) = t :: alive F := by simp [alive, ht]
      rw [h2] at h ⊢
      have hp : t.proper := h t (by simp)
      have ih' := ih (fun u hu => h u (by simp [hu]))
      rw [List.map_cons, List.map_cons, List.filter_cons, ← ih']
      by_cases hc : t.has a ∧ t.has b
      · have : ¬ (t.map (mergeTo a b)).proper := by rw [proper_map hab hp]; simpa using hc
        simp [collapseTri, hc, alive, this]
      · have hq : (t.map (mergeTo a b)).proper := by rw [proper_map hab hp]; exact hc
        have := proper_ne hq
        simp [collapseTri, hc, alive, hq, this]

theorem mem_sides_cyc {F : List Tri} {e : Edge} : e ∈ sides F ↔ ∃ t ∈ F, ∃ c, IsCyc t e.s e.t c := by
  rw [mem_sides_iff]
  constructor
  · rintro ⟨t, ht, h⟩
    refine ⟨t, ht, ?_⟩
    simp only [List.mem_cons, List.not_mem_nil, or_false] at h
    rcases h with rfl | rfl | rfl
    · exact ⟨t.a, Or.inr (Or.inr rfl)⟩
    · exact ⟨t.b, Or.inr (Or.inl rfl)⟩
    · exact ⟨t.c, Or.inl rfl⟩
  · rintro ⟨t, ht, c, h⟩
    refine ⟨t, ht, ?_⟩
    rw [h.sides.mem_iff]
    simp

theorem IsCyc.map {t : Tri} {a b c : ℕ} (f : ℕ → ℕ) (h : IsCyc t a b c) : IsCyc (t.map f) (f a) (f b) (f c) := by
  rcases h with rfl | rfl | rfl <;> simp [IsCyc, Tri.map]

theorem IsCyc.rot {t : Tri} {a b c : ℕ} (h : IsCyc t a b c) : IsCyc t b c a := by
  rcases h with h | h | h
  · exact Or.inr (Or.inr h)
  · exact Or.inl h
  · exact Or.inr (Or.inl h)

theorem noTwin_ne {F : List Tri} (h : NoTwin F) {t u : Tri} (ht : t ∈ F) (hu : u ∈ F) (hne : t ≠ u) : ¬ SameCorners t u := by
  haveI : Std.Symm (fun t u => ¬ SameCorners t u) := ⟨fun x y hxy hyx => hxy (fun v => (hyx v).symm)⟩
  exact List.Pairwise.forall h ht hu hne

theorem cyc_twin {F : List Tri} (h : NoTwin F) {t u : Tri} (ht : t ∈ F) (hu : u ∈ F) {x y z : ℕ} (h1 : IsCyc t x y z) (h2 : IsCyc u z y x)
    (hx : x ≠ y) (hy : y ≠ z) (hz : z ≠ x) : False := by
  refine noTwin_ne h ht hu ?_ ?_
  · rintro rfl
    rcases h1 with rfl | rfl | rfl <;> rcases h2 with h | h | h <;> simp at h <;> omega
  · intro v
    rw [h1.mem v, h2.mem v]
    constructor <;> rintro (h | h | h) <;> simp [h]

/-- a side that does not vanish is still a side -/
theorem side_merge {n a b : ℕ} (hab : a ≠ b) {F : List Tri} (hF : ClosedOriented n F) {e : Edge} (he : e ∈ sides F)
    (hne : mergeTo a b e.s ≠ mergeTo a b e.t) :
    (⟨mergeTo a b e.s, mergeTo a b e.t⟩ : Edge) ∈ sides ((F.map (Tri.map (mergeTo a b))).filter (fun t => t.proper)) := by
  have key : ∀ t ∈ F, ∀ x y z, IsCyc t x y z → mergeTo a b x = mergeTo a b e.s → mergeTo a b y = mergeTo a b e.t → ¬ (t.has a ∧ t.has b) →
      (⟨mergeTo a b e.s, mergeTo a b e.t⟩ : Edge) ∈ sides ((F.map (Tri.map (mergeTo a b))).filter (fun t => t.proper)) := by
    intro t ht x y z h hx hy hn
    rw [mem_sides_cyc]
    refine ⟨t.map (mergeTo a b), ?_, mergeTo a b z, ?_⟩
    · rw [List.mem_filter]
      exact ⟨List.mem_map_of_mem ht, by simpa using (proper_map hab (hF.manifold.2 t ht)).2 hn⟩
    · have := h.map (mergeTo a b)
      rw [hx, hy] at this
      exact this
  obtain ⟨t, ht, z, hc⟩ := mem_sides_cyc.1 he
  by_cases hn : t.has a ∧ t.has b
  · have hd := hc.nondeg.1 (hF.manifold.2 t ht)
    have hab' : (a = e.s ∨ a = e.t ∨ a = z) ∧ (b = e.s ∨ b = e.t ∨ b = z) := ⟨(hc.mem a).1 hn.1, (hc.mem b).1 hn.2⟩
    have hne' := fun h => hne (mergeTo_eq_iff.2 h)
    -- the third corner is one of the ends of the collapsed edge
    have hz : z = a ∨ z = b := by
      by_contra hz
      apply hne'
      right
      omega
    rcases (by omega : ((e.s = a ∨ e.s = b) ∧ ¬ (e.t = a ∨ e.t = b)) ∨ ((e.t = a ∨ e.t = b) ∧ ¬ (e.s = a ∨ e.s = b))) with ⟨hs, hs'⟩ | ⟨hs, hs'⟩
    · -- side t → z of the face; its flip z → t
      have hfl := hF.closed ⟨e.t, z⟩ (mem_sides_cyc.2 ⟨t, ht, e.s, hc.rot⟩)
      obtain ⟨u, hu, w, hcu⟩ := mem_sides_cyc.1 hfl
      have hcu' : IsCyc u z e.t w := hcu
      have hdu := hcu'.nondeg.1 (hF.manifold.2 u hu)
      refine key u hu z e.t w hcu' ?_ rfl ?_
      · rw [mergeTo_min hz, mergeTo_min hs]
      · intro hboth
        have h1 := (hcu'.mem a).1 hboth.1
        have h2 := (hcu'.mem b).1 hboth.2
        have hw : w = e.s := by omega
        rw [hw] at hcu'
        exact cyc_twin hF.simple ht hu hc hcu' hd.1 hd.2.1 hd.2.2
    · have hfl := hF.closed ⟨z, e.s⟩ (mem_sides_cyc.2 ⟨t, ht, e.t, hc.rot.rot⟩)
      obtain ⟨u, hu, w, hcu⟩ := mem_sides_cyc.1 hfl
      have hcu' : IsCyc u e.s z w := hcu
      have hdu := hcu'.nondeg.1 (hF.manifold.2 u hu)
      refine key u hu e.s z w hcu' rfl ?_ ?_
      · rw [mergeTo_min hz, mergeTo_min hs]
      · intro hboth
        have h1 := (hcu'.mem a).1 hboth.1
        have h2 := (hcu'.mem b).1 hboth.2
        have hw : w = e.t := by omega
        rw [hw] at hcu'
        exact cyc_twin hF.simple ht hu hc.rot hcu' hd.2.1 hd.2.2 hd.1
  · exact key t ht e.s e.t z hc rfl rfl hn

theorem usedIn_iff {F : List Tri} {v : ℕ} : UsedIn F v ↔ 0 < cornerCount F v := by
  unfold UsedIn cornerCount
  rw [List.count_pos_iff, List.mem_flatMap]
  simp [Tri.has]

theorem usedIn_side {F : List Tri} {v : ℕ} : UsedIn F v ↔ ∃ e ∈ sides F, e.s = v := by
  constructor
  · rintro ⟨t, ht, h⟩
    rcases h with rfl | rfl | rfl
    · exact ⟨⟨t.a, t.b⟩, mem_sides_cyc.2 ⟨t, ht, t.c, Or.inl rfl⟩, rfl⟩
    · exact ⟨⟨t.b, t.c⟩, mem_sides_cyc.2 ⟨t, ht, t.a, Or.inr (Or.inr rfl)⟩, rfl⟩
    · exact ⟨⟨t.c, t.a⟩, mem_sides_cyc.2 ⟨t, ht, t.b, Or.inr (Or.inl rfl)⟩, rfl⟩
  · rintro ⟨e, he, rfl⟩
    obtain ⟨t, ht, c, h⟩ := mem_sides_cyc.1 he
    exact ⟨t, ht, (h.mem _).2 (Or.inl rfl)⟩

theorem used_merge {n a b : ℕ} {F : List Tri} (hF : ClosedOriented n F) (hE : ∃ e ∈ sides F, Undir ⟨a, b⟩ e) {v : ℕ} (hv : UsedIn F v) :
    UsedIn ((F.map (Tri.map (mergeTo a b))).filter (fun t => t.proper)) (mergeTo a b v) := by
  have hE' : (⟨a, b⟩ : Edge) ∈ sides F := by
    obtain ⟨e, he, rfl | rfl⟩ := hE
    · exact he
    · exact hF.closed _ he
  obtain ⟨u, hu, z, hz⟩ := mem_sides_cyc.1 hE'
  have hz : IsCyc u a b z := hz
  have hd := hz.nondeg.1 (hF.manifold.2 u hu)
  have hab := hd.1
  rw [usedIn_side]
  by_cases hvab : v = a ∨ v = b
  · have := side_merge hab hF (e := ⟨b, z⟩) (mem_sides_cyc.2 ⟨u, hu, a, hz.rot⟩) (by
      intro h; rw [mergeTo_eq_iff] at h; simp only at h; omega)
    exact ⟨_, this, by rw [mergeTo_min hvab, mergeTo_right]⟩
  · obtain ⟨e, he, rfl⟩ := usedIn_side.1 hv
    obtain ⟨t, ht, w, hw⟩ := mem_sides_cyc.1 he
    have hdt := hw.nondeg.1 (hF.manifold.2 t ht)
    have := side_merge hab hF he (by
      intro h; rw [mergeTo_eq_iff] at h; omega)
    exact ⟨_, this, rfl⟩

theorem map_map_tri (f g : ℕ → ℕ) (t : Tri) : (t.map f).map g = t.map (fun v => g (f v)) := rfl

theorem proper_of_map {f : ℕ → ℕ} {t : Tri} (h : (t.map f).proper) : t.proper := by
  unfold Tri.proper Tri.map at *
  simp only at h
  refine ⟨fun e => h.1 (by rw [e]), fun e => h.2.1 (by rw [e]), fun e => h.2.2 (by rw [e])⟩

theorem filter_map_filter (L : List Tri) (f : ℕ → ℕ) :
    ((L.filter (fun t => t.proper)).map (Tri.map f)).filter (fun t => t.proper) = (L.map (Tri.map f)).filter (fun t => t.proper) := by
  induction L with
  | nil => rfl
  | cons t L ih =>
    by_cases h : t.proper
    · simp only [List.filter_cons, h, decide_true, if_true, List.map_cons]
      rw [ih]
    · have : ¬ (t.map f).proper := fun h' => h (proper_of_map h')
      simp only [List.filter_cons, h, decide_false, Bool.false_eq_true, if_false, List.map_cons, this]
      exact ih

/-- the invariant of the run -/
structure RunInv (C : CollapseIn) (n : ℕ) (V : ℕ → V3 ℝ) (F : List Tri) (s : DState) : Prop where
  closed : ClosedOriented n (alive s.F)
  faces : alive s.F = (F.map (Tri.map (repOf s.merges))).filter (fun t => t.proper)
  self : ∀ v, UsedIn (alive s.F) v → repOf s.merges v = v
  used : ∀ v, UsedIn F v → UsedIn (alive s.F) (repOf s.merges v)
  back : ∀ v, UsedIn (alive s.F) v → UsedIn F v
  side : ∀ e ∈ sides F, repOf s.merges e.s ≠ repOf s.merges e.t → (⟨repOf s.merges e.s, repOf s.merges e.t⟩ : Edge) ∈ sides (alive s.F)
  fixed : ∀ f ∈ C.fixed, (∀ v, repOf s.merges v = f ↔ v = f) ∧ s.V f = V f
  lt : ∀ v < n, repOf s.merges v < n

theorem collapseCost_place {C : CollapseIn} {V : ℕ → V3 ℝ} {F : List Tri} {N : List ℕ} {a b : ℕ} {p : V3 ℝ} (h : collapseCost C V F N a b = some p) :
    collapsePlace C V a b = some p := by
  unfold collapseCost at h
  cases hp : collapsePlace C V a b with
  | none => rw [hp] at h; simp at h
  | some q =>
    rw [hp] at h
    simp only [Option.bind_eq_bind, Option.bind_some] at h
    split_ifs at h
    exact h

theorem collapsePlace_fixed {C : CollapseIn} {V : ℕ → V3 ℝ} {a b : ℕ} {p : V3 ℝ} (h : collapsePlace C V a b = some p) : a ∉ C.fixed ∧ b ∉ C.fixed := by
  unfold collapsePlace at h
  by_cases hc : a ∈ C.fixed ∨ b ∈ C.fixed
  · rw [if_pos hc] at h; simp at h
  · exact not_or.1 hc

theorem CollapseStep.free {C : CollapseIn} {n a b : ℕ} {p : V3 ℝ} {s s' : DState} (h : CollapseStep C n a b p s s') : a ∉ C.fixed ∧ b ∉ C.fixed := by
  obtain ⟨_, _, _, _, _, _, _, _, hc⟩ := h.cost
  exact collapsePlace_fixed (collapseCost_place hc)

theorem RunInv.step {C : CollapseIn} {n : ℕ} {V : ℕ → V3 ℝ} {F : List Tri} {s s' : DState} {a b : ℕ} {p : V3 ℝ} (h : RunInv C n V F s)
    (hs : CollapseStep C n a b p s s') : RunInv C n V F s' ∧ repOf s.merges a = a ∧ repOf s.merges b = b ∧ a ≠ b ∧ a < n ∧ b < n := by
  have hE' : (⟨a, b⟩ : Edge) ∈ sides (alive s.F) := by
    obtain ⟨e, he, rfl | rfl⟩ := hs.edge
    · exact he
    · exact h.closed.closed _ he
  obtain ⟨u, hu, z, hz⟩ := mem_sides_cyc.1 hE'
  have hz : IsCyc u a b z := hz
  have hd := hz.nondeg.1 (h.closed.manifold.2 u hu)
  have hab := hd.1
  have hua : UsedIn (alive s.F) a := ⟨u, hu, (hz.mem a).2 (Or.inl rfl)⟩
  have hub : UsedIn (alive s.F) b := ⟨u, hu, (hz.mem b).2 (Or.inr (Or.inl rfl))⟩
  have hlt : a < n ∧ b < n := by
    have := h.closed.range u hu
    rcases hz with rfl | rfl | rfl <;> simp only at this <;> omega
  have hal : alive s'.F = ((alive s.F).map (Tri.map (mergeTo a b))).filter (fun t => t.proper) := by
    rw [hs.F]; exact alive_collapse hab h.closed.manifold.2
  have hrep : ∀ v, repOf s'.merges v = mergeTo a b (repOf s.merges v) := by intro v; rw [hs.merges, repOf_snoc]
  have ha := h.self a hua
  have hb := h.self b hub
  refine ⟨⟨hs.valid, ?_, ?_, ?_, ?_, ?_, ?_, ?_⟩, ha, hb, hab, hlt⟩
  · rw [hal, h.faces, filter_map_filter, List.map_map]
    congr 1
    apply List.map_congr_left
    intro t _
    simp only [Function.comp_apply, map_map_tri]
    unfold Tri.map
    simp only [hrep]
  · intro v hv
    rw [hrep]
    rw [hal] at hv
    obtain ⟨t, ht, hvt⟩ := hv
    rw [List.mem_filter, List.mem_map] at ht
    obtain ⟨⟨t0, ht0, rfl⟩, _⟩ := ht
    obtain ⟨w, hw, rfl⟩ : ∃ w, t0.has w ∧ v = mergeTo a b w := by
      rcases hvt with rfl | rfl | rfl
      · exact ⟨t0.a, Or.inl rfl, rfl⟩
      · exact ⟨t0.b, Or.inr (Or.inl rfl), rfl⟩
      · exact ⟨t0.c, Or.inr (Or.inr rfl), rfl⟩
    have hw' := h.self w ⟨t0, ht0, hw⟩
    by_cases hwab : w = a ∨ w = b
    · rw [mergeTo_min hwab]
      rcases min_choice a b with hm | hm
      · rw [hm, ha, mergeTo_left, hm]
      · rw [hm, hb, mergeTo_right, hm]
    · rw [not_or] at hwab
      rw [mergeTo_of_ne hwab.1 hwab.2, hw', mergeTo_of_ne hwab.1 hwab.2]
  · intro v hv
    rw [hal, hrep]
    exact used_merge h.closed hs.edge (h.used v hv)
  · intro v hv
    rw [hal] at hv
    obtain ⟨t, ht, hvt⟩ := hv
    rw [List.mem_filter, List.mem_map] at ht
    obtain ⟨⟨t0, ht0, rfl⟩, _⟩ := ht
    obtain ⟨w, hw, rfl⟩ : ∃ w, t0.has w ∧ v = mergeTo a b w := by
      rcases hvt with rfl | rfl | rfl
      · exact ⟨t0.a, Or.inl rfl, rfl⟩
      · exact ⟨t0.b, Or.inr (Or.inl rfl), rfl⟩
      · exact ⟨t0.c, Or.inr (Or.inr rfl), rfl⟩
    by_cases hwab : w = a ∨ w = b
    · rw [mergeTo_min hwab]
      rcases min_choice a b with hm | hm
      · rw [hm]; exact h.back a hua
      · rw [hm]; exact h.back b hub
    · rw [not_or] at hwab
      rw [mergeTo_of_ne hwab.1 hwab.2]
      exact h.back w ⟨t0, ht0, hw⟩
  · intro e he hne
    rw [hal]
    rw [hrep, hrep] at hne ⊢
    have hne0 : repOf s.merges e.s ≠ repOf s.merges e.t := fun h => hne (by rw [h])
    exact side_merge hab h.closed (h.side e he hne0) hne
  · intro f hf
    have hfa : f ≠ a := by rintro rfl; exact hs.free.1 hf
    have hfb : f ≠ b := by rintro rfl; exact hs.free.2 hf
    obtain ⟨q1, q2⟩ := h.fixed f hf
    refine ⟨?_, ?_⟩
    · intro v
      rw [hrep, ← q1 v]
      unfold mergeTo
      split_ifs <;> omega
    · rw [hs.V, Function.update_of_ne hfb, Function.update_of_ne hfa, q2]
  · intro v hv
    rw [hrep]
    have := h.lt v hv
    unfold mergeTo
    split_ifs <;> omega

theorem RunInv.init {C : CollapseIn} {n : ℕ} {V : ℕ → V3 ℝ} {F : List Tri} (hF : ClosedOriented n F) : RunInv C n V F ⟨V, F, []⟩ := by
  have h0 : alive F = F := proper_alive hF.manifold.2
  have hr : ∀ v, repOf [] v = v := fun _ => rfl
  have hm : F.map (Tri.map (repOf [])) = F := by
    conv_rhs => rw [← List.map_id F]
    rfl
  refine ⟨?_, ?_, ?_, ?_, ?_, ?_, ?_, ?_⟩
  · show ClosedOriented n (alive F); rw [h0]; exact hF
  · show alive F = _
    rw [h0, hm, List.filter_eq_self.2]
    intro t ht
    exact decide_eq_true (hF.manifold.2 t ht)
  · intro v _; rfl
  · intro v hv
    show UsedIn (alive F) v
    rw [h0]; exact hv
  · intro v
    show UsedIn (alive F) v → _
    rw [h0]; exact id
  · intro e he _
    show _ ∈ sides (alive F)
    rw [h0]; exact he
  · intro f _; exact ⟨fun v => Iff.rfl, rfl⟩
  · intro v hv; exact hv

end Gpy
