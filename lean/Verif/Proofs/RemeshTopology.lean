import Verif.Props.SubdivTopology
import Verif.Proofs.Remesh

/-! Topology of the passes of the remesher. -/

set_option autoImplicit false
namespace Gpy

theorem mem_usedSet {F : List Tri} {v : ℕ} : v ∈ (F.flatMap (fun t => [t.a, t.b, t.c])).toFinset ↔ UsedIn F v := by
  rw [List.mem_toFinset, List.mem_flatMap]
  simp [UsedIn, Tri.has]

/-- `f` takes the components of `F` to those of `F'`, and the Euler characteristic (of closed meshes) is the same -/
structure Topo (F F' : List Tri) (f : ℕ → ℕ) : Prop where
  used : ∀ i, UsedIn F i → UsedIn F' (f i)
  conn : ∀ i j, UsedIn F i → UsedIn F j → (MeshReach F i j ↔ MeshReach F' (f i) (f j))
  onto : ∀ m, UsedIn F' m → ∃ i, UsedIn F i ∧ MeshReach F' (f i) m
  euler : 2 * numUsed F' + F.length = 2 * numUsed F + F'.length

theorem Topo.refl (F : List Tri) : Topo F F id := ⟨fun _ h => h, fun _ _ _ _ => Iff.rfl, fun m h => ⟨m, h, .refl⟩, rfl⟩

theorem Topo.trans {F F' F'' : List Tri} {f g : ℕ → ℕ} (h : Topo F F' f) (h' : Topo F' F'' g) : Topo F F'' (g ∘ f) := by
  refine ⟨fun i hi => h'.used _ (h.used i hi), fun i j hi hj => (h.conn i j hi hj).trans (h'.conn _ _ (h.used i hi) (h.used j hj)), ?_, ?_⟩
  · intro m hm
    obtain ⟨x, hx, r⟩ := h'.onto m hm
    obtain ⟨i, hi, r'⟩ := h.onto x hx
    exact ⟨i, hi, ((h'.conn _ _ (h.used i hi) hx).mp r').trans r⟩
  · have := h.euler; have := h'.euler; omega

theorem MeshReach.used {F : List Tri} {i j : ℕ} (h : MeshReach F i j) (hi : UsedIn F i) : UsedIn F j := by
  induction h with
  | refl => exact hi
  | tail _ h _ =>
    rcases h with h | h
    · obtain ⟨t, ht, c, hc⟩ := mem_sides_cyc.1 h
      exact ⟨t, ht, (hc.mem _).2 (Or.inr (Or.inl rfl))⟩
    · obtain ⟨t, ht, c, hc⟩ := mem_sides_cyc.1 h
      exact ⟨t, ht, (hc.mem _).2 (Or.inl rfl)⟩

theorem side_used {F : List Tri} {e : Edge} (h : e ∈ sides F) : UsedIn F e.s ∧ UsedIn F e.t := by
  obtain ⟨t, ht, c, hc⟩ := mem_sides_cyc.1 h
  exact ⟨⟨t, ht, (hc.mem _).2 (Or.inl rfl)⟩, ⟨t, ht, (hc.mem _).2 (Or.inr (Or.inl rfl))⟩⟩

/-- paths are taken to paths if sides are -/
theorem reach_map {F F' : List Tri} {f : ℕ → ℕ} (h : ∀ e ∈ sides F, MeshReach F' (f e.s) (f e.t)) {i j : ℕ} (hr : MeshReach F i j) : MeshReach F' (f i) (f j) := by
  induction hr with
  | refl => exact .refl
  | tail _ hs ih =>
    rcases hs with hs | hs
    · exact ih.trans (h _ hs)
    · exact ih.trans (h _ hs).symm

/-- a property that is constant on sides is constant on components -/
theorem reach_label {F : List Tri} {P : ℕ → Prop} (h : ∀ e ∈ sides F, (P e.s ↔ P e.t)) {i j : ℕ} (hr : MeshReach F i j) : P i ↔ P j := by
  induction hr with
  | refl => rfl
  | tail _ hs ih =>
    rcases hs with hs | hs
    · exact ih.trans (h _ hs)
    · exact ih.trans (h _ hs).symm

/-! ### flips -/

theorem IsFlip.reach {v1 v2 v3 v4 : ℕ} {F F' : List Tri} (h : IsFlip v1 v2 v3 v4 F F') (i j : ℕ) : MeshReach F i j ↔ MeshReach F' i j := by
  obtain ⟨C, s1, s2, c1, c2, c3, c4⟩ := h.sides
  have m1 : ∀ e ∈ C, e ∈ Gpy.sides F := fun e he => s1.mem_iff.mpr (by simp [he])
  have m2 : ∀ e ∈ C, e ∈ Gpy.sides F' := fun e he => s2.mem_iff.mpr (by simp [he])
  constructor
  · refine reach_map (f := id) (fun e he => ?_)
    have he := s1.mem_iff.mp he
    have h12 : MeshReach F' v1 v2 := (MeshReach.side (m2 _ c1)).trans (MeshReach.side (m2 _ c2))
    simp only [List.mem_cons] at he
    rcases he with rfl | rfl | he
    · exact h12
    · exact h12.symm
    · exact MeshReach.side (m2 e he)
  · refine reach_map (f := id) (fun e he => ?_)
    have he := s2.mem_iff.mp he
    have h34 : MeshReach F v3 v4 := (MeshReach.side (m1 _ c2)).trans (MeshReach.side (m1 _ c3))
    simp only [List.mem_cons] at he
    rcases he with rfl | rfl | he
    · exact h34
    · exact h34.symm
    · exact MeshReach.side (m1 e he)

theorem numUsed_congr {F F' : List Tri} (h : ∀ v, UsedIn F' v ↔ UsedIn F v) : numUsed F' = numUsed F := by
  unfold numUsed
  congr 1
  ext v
  rw [mem_usedSet, mem_usedSet, h]

theorem IsFlip.topo {v1 v2 v3 v4 : ℕ} {F F' : List Tri} (h : IsFlip v1 v2 v3 v4 F F') : Topo F F' id := by
  have hu : ∀ v, UsedIn F' v ↔ UsedIn F v := fun v => by rw [usedIn_iff, usedIn_iff]; exact h.used v
  refine ⟨fun i hi => (hu i).mpr hi, fun i j _ _ => h.reach i j, fun m hm => ⟨m, (hu m).mp hm, .refl⟩, ?_⟩
  rw [numUsed_congr hu, h.length]

/-! ### renumbering -/

theorem topo_rename {F : List Tri} (g : ℕ → ℕ) (hg : ∀ v w, UsedIn F v → UsedIn F w → g v = g w → v = w) : Topo F (F.map (Tri.map g)) g := by
  have hs : sides (F.map (Tri.map g)) = (sides F).map (fun e => (⟨g e.s, g e.t⟩ : Edge)) := by
    unfold sides
    rw [List.flatMap_map, List.map_flatMap]
    rfl
  have hused : ∀ i, UsedIn F i → UsedIn (F.map (Tri.map g)) (g i) := by
    rintro i ⟨t, ht, h⟩
    refine ⟨t.map g, List.mem_map_of_mem ht, ?_⟩
    rcases h with rfl | rfl | rfl <;> simp [Tri.has, Tri.map]
  have hfwd : ∀ i j, MeshReach F i j → MeshReach (F.map (Tri.map g)) (g i) (g j) := by
    intro i j h
    refine reach_map (f := g) (fun e he => ?_) h
    exact MeshReach.side (e := ⟨g e.s, g e.t⟩) (by rw [hs]; exact List.mem_map_of_mem he)
  refine ⟨hused, fun i j hi hj => ⟨hfwd i j, fun h => ?_⟩, ?_, ?_⟩
  · -- label: being the image of something reachable
    have hl : ∀ e ∈ sides (F.map (Tri.map g)), ((∃ x, UsedIn F x ∧ MeshReach F i x ∧ g x = e.s) ↔ ∃ x, UsedIn F x ∧ MeshReach F i x ∧ g x = e.t) := by
      intro e he
      rw [hs] at he
      obtain ⟨e', he', rfl⟩ := List.mem_map.mp he
      obtain ⟨u1, u2⟩ := side_used he'
      simp only
      constructor
      · rintro ⟨x, hx, hr, hxe⟩
        have := hg _ _ hx u1 hxe
        subst this
        exact ⟨e'.t, u2, hr.trans (MeshReach.side he'), rfl⟩
      · rintro ⟨x, hx, hr, hxe⟩
        have := hg _ _ hx u2 hxe
        subst this
        exact ⟨e'.s, u1, hr.trans (MeshReach.side he').symm, rfl⟩
    obtain ⟨x, hx, hr, hxj⟩ := (reach_label (P := fun y => ∃ x, UsedIn F x ∧ MeshReach F i x ∧ g x = y) hl h).mp ⟨i, hi, .refl, rfl⟩
    have := hg _ _ hx hj hxj
    subst this
    exact hr
  · intro m hm
    obtain ⟨w, hw, rfl⟩ := usedIn_map hm
    exact ⟨w, hw, .refl⟩
  · have : numUsed (F.map (Tri.map g)) = numUsed F := by
      unfold numUsed
      have he : ((F.map (Tri.map g)).flatMap (fun t => [t.a, t.b, t.c])).toFinset = ((F.flatMap (fun t => [t.a, t.b, t.c])).toFinset).image g := by
        ext v
        rw [mem_usedSet, Finset.mem_image]
        simp only [mem_usedSet]
        exact ⟨fun h => usedIn_map h, by rintro ⟨w, hw, rfl⟩; exact hused w hw⟩
      rw [he, Finset.card_image_of_injOn]
      intro v hv w hw
      rw [Finset.mem_coe, mem_usedSet] at hv hw
      exact hg v w hv hw
    rw [this, List.length_map]

/-! ### collapses -/

/-- exactly two faces of a closed mesh contain an edge -/
theorem countP_edge {a b : ℕ} (hab : a ≠ b) (F : List Tri) (hp : ∀ t ∈ F, t.proper) :
    F.countP (fun t => t.has a ∧ t.has b) = (sides F).count ⟨a, b⟩ + (sides F).count ⟨b, a⟩ := by
  induction F with
  | nil => rfl
  | cons t F ih =>
    have ht := hp t (by simp)
    rw [List.countP_cons, ih (fun u hu => hp u (by simp [hu])), sides_cons, List.count_append, List.count_append]
    have key : (if decide (t.has a ∧ t.has b) = true then 1 else 0) = List.count (⟨a, b⟩ : Edge) [t.side 0, t.side 1, t.side 2] + List.count (⟨b, a⟩ : Edge) [t.side 0, t.side 1, t.side 2] := by
      obtain ⟨x, y, z⟩ := t
      obtain ⟨p1, p2, p3⟩ := ht
      simp only [Tri.side, List.count_cons, List.count_nil, beq_iff_eq, Edge.mk.injEq, Tri.has, decide_eq_true_eq, eq_comm (a := a), eq_comm (a := b)] at *
      by_cases h1 : x = a <;> by_cases h2 : x = b <;> by_cases h3 : y = a <;> by_cases h4 : y = b <;> by_cases h5 : z = a <;> by_cases h6 : z = b <;>
        first | (exfalso; omega) | simp [h1, h2, h3, h4, h5, h6, hab, Ne.symm hab]
    omega

theorem topo_collapse {n a b : ℕ} {F : List Tri} (hF : ClosedOriented n F) (hE : ∃ e ∈ sides F, Undir ⟨a, b⟩ e) :
    Topo F ((F.map (Tri.map (mergeTo a b))).filter (fun t => t.proper)) (mergeTo a b) := by
  have hE' : (⟨a, b⟩ : Edge) ∈ sides F := by
    obtain ⟨e, he, rfl | rfl⟩ := hE
    · exact he
    · exact hF.closed _ he
  have hab : a ≠ b := side_ne hF.manifold hE'
  have hua : UsedIn F a := (side_used hE').1
  have hub : UsedIn F b := (side_used hE').2
  have same : ∀ v w, mergeTo a b v = mergeTo a b w → MeshReach F v w := by
    intro v w h
    rcases mergeTo_eq_iff.mp h with rfl | ⟨h1, h2⟩
    · exact .refl
    · have := MeshReach.side hE'
      rcases h1 with rfl | rfl <;> rcases h2 with rfl | rfl
      · exact .refl
      · exact this
      · exact this.symm
      · exact .refl
  set G := (F.map (Tri.map (mergeTo a b))).filter (fun t => t.proper) with hG
  have hused : ∀ i, UsedIn F i → UsedIn G (mergeTo a b i) := fun i hi => used_merge hF hE hi
  have hback : ∀ m, UsedIn G m → ∃ i, UsedIn F i ∧ mergeTo a b i = m := by
    rintro m ⟨t, ht, hm⟩
    exact usedIn_map ⟨t, (List.mem_filter.mp ht).1, hm⟩
  have hsideG : ∀ e ∈ sides G, ∃ e' ∈ sides F, e.s = mergeTo a b e'.s ∧ e.t = mergeTo a b e'.t := by
    intro e he
    obtain ⟨t, ht, c, hc⟩ := mem_sides_cyc.1 he
    obtain ⟨u, hu, rfl⟩ := List.mem_map.mp (List.mem_filter.mp ht).1
    rcases hc with hc | hc | hc <;> simp only [Tri.map, Tri.mk.injEq] at hc
    · exact ⟨_, side_mem_of hu 2, hc.1.symm, hc.2.1.symm⟩
    · exact ⟨_, side_mem_of hu 1, hc.2.2.symm, hc.1.symm⟩
    · exact ⟨_, side_mem_of hu 0, hc.2.1.symm, hc.2.2.symm⟩
  refine ⟨hused, fun i j hi hj => ⟨fun h => ?_, fun h => ?_⟩, ?_, ?_⟩
  · refine reach_map (f := mergeTo a b) (fun e he => ?_) h
    by_cases hne : mergeTo a b e.s = mergeTo a b e.t
    · rw [hne]; exact .refl
    · exact MeshReach.side (side_merge hab hF he hne)
  · have hl : ∀ e ∈ sides G, ((∀ x, mergeTo a b x = e.s → MeshReach F i x) ↔ ∀ x, mergeTo a b x = e.t → MeshReach F i x) := by
      intro e he
      obtain ⟨e', he', h1, h2⟩ := hsideG e he
      rw [h1, h2]
      constructor
      · intro hx x hx'
        exact ((hx e'.s rfl).trans (MeshReach.side he')).trans (same _ _ hx').symm
      · intro hx x hx'
        exact ((hx e'.t rfl).trans (MeshReach.side he').symm).trans (same _ _ hx').symm
    exact (reach_label (P := fun y => ∀ x, mergeTo a b x = y → MeshReach F i x) hl h).mp (fun x hx => (same _ _ hx).symm) j rfl
  · intro m hm
    obtain ⟨i, hi, rfl⟩ := hback m hm
    exact ⟨i, hi, .refl⟩
  · have h1 : numUsed G + 1 = numUsed F := by
      unfold numUsed
      have he : (G.flatMap (fun t => [t.a, t.b, t.c])).toFinset = ((F.flatMap (fun t => [t.a, t.b, t.c])).toFinset).erase (max a b) := by
        ext v
        rw [mem_usedSet, Finset.mem_erase, mem_usedSet]
        constructor
        · intro h
          obtain ⟨i, hi, rfl⟩ := hback v h
          by_cases hx : i = a ∨ i = b
          · rw [mergeTo_min hx]
            refine ⟨by omega, ?_⟩
            rcases min_choice a b with h | h <;> rw [h] <;> assumption
          · have : mergeTo a b i = i := mergeTo_of_ne (by tauto) (by tauto)
            rw [this]
            refine ⟨?_, hi⟩
            rcases max_choice a b with h | h <;> rw [h] <;> tauto
        · rintro ⟨h1, h2⟩
          have := hused v h2
          rwa [show mergeTo a b v = v by unfold mergeTo; rw [if_neg h1]] at this
      rw [he, Finset.card_erase_add_one]
      rw [mem_usedSet]
      rcases max_choice a b with h | h <;> rw [h] <;> assumption
    have h2 : G.length + 2 = F.length := by
      have hp : ∀ t ∈ F, t.proper := hF.manifold.2
      have hc := countP_edge hab F hp
      rw [List.count_eq_one_of_mem hF.manifold.1 hE', List.count_eq_one_of_mem hF.manifold.1 (show (⟨b, a⟩ : Edge) ∈ sides F from hF.closed _ hE')] at hc
      have hl : G.length = F.countP (fun t => !decide (t.has a ∧ t.has b)) := by
        rw [hG, ← List.countP_eq_length_filter, List.countP_map]
        apply List.countP_congr
        intro t ht
        simp only [Function.comp, decide_eq_true_eq, Bool.not_eq_true', decide_eq_false_iff_not]
        exact proper_map hab (hp t ht)
      have := List.length_eq_countP_add_countP (fun t : Tri => decide (t.has a ∧ t.has b)) (l := F)
      rw [hl, this, hc]
      simp only [decide_eq_true_eq, decide_not]
      omega
    omega

end Gpy
