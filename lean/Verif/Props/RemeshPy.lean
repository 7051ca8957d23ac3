import Verif.Proofs.RemeshPy

/-! # C80: `remesh_botsch` as it is called from Python -/

set_option autoImplicit false
namespace Gpy
open Np

theorem Edge.sort_le (e : Edge) : e.sort.s ≤ e.sort.t := by rw [Edge.sort_s, Edge.sort_t]; omega

theorem Edge.sort_undir (e : Edge) : Undir e.sort e := Edge.sort_eq_iff.1 (Edge.sort_sort e).symm

theorem Edge.sort_eq_of {e a : Edge} (hs : e.s ≤ e.t) (hu : Undir e a) : a.sort = e := by
  rw [Edge.sort_eq_iff.2 hu, Edge.sort_eq_self_iff.2 hs]

theorem side_unique {F : List Tri} (hF : OrientedManifold F) {f g : ℕ} {t u : Tri} {i j : Fin 3} (hf : F[f]? = some t) (hg : F[g]? = some u) (h : t.side i = u.side j) : t = u := by
  have := halfedgeAt_unique hF (e := u.side j) ⟨f, t, i, rfl, hf, h⟩ ⟨g, u, j, rfl, hg, rfl⟩
  simp only [Prod.mk.injEq, Nat.cast_inj] at this
  rw [this.1, hg] at hf
  exact (Option.some.inj hf).symm

theorem unitNormal_unique {V : List (V3 ℝ)} {t : Tri} {n m : V3 ℝ} (hn : IsUnitNormal V t n) (hm : IsUnitNormal V t m) : n = m := by
  obtain ⟨n1, n2, n3, n4⟩ := hn
  obtain ⟨m1, m2, m3, m4⟩ := hm
  set p := V.getD t.b 0 - V.getD t.a 0
  set q := V.getD t.c 0 - V.getD t.a 0
  have key : ∀ k : V3 ℝ, V3.normSq k = 1 → V3.dot k p = 0 → V3.dot k q = 0 → 0 < V3.dot k (V3.cross p q) →
      V3.dot k (V3.cross p q) ^ 2 = V3.normSq (V3.cross p q) ∧ V3.normSq (V3.cross p q) • k = V3.dot k (V3.cross p q) • V3.cross p q := by
    intro k k1 k2 k3 _
    have hx : (V3.cross k (V3.cross p q)).x = 0 ∧ (V3.cross k (V3.cross p q)).y = 0 ∧ (V3.cross k (V3.cross p q)).z = 0 := by
      simp only [V3.dot, V3.cross] at *
      refine ⟨?_, ?_, ?_⟩
      · linear_combination p.x * k3 - q.x * k2
      · linear_combination p.y * k3 - q.y * k2
      · linear_combination p.z * k3 - q.z * k2
    generalize V3.cross p q = c at *
    obtain ⟨x1, x2, x3⟩ := hx
    have hl := V3.lagrange k c
    rw [k1] at hl
    simp only [V3.cross] at x1 x2 x3
    have h0 : V3.normSq (V3.cross k c) = 0 := by simp only [V3.normSq, V3.dot, V3.cross, x1, x2, x3]; ring
    rw [h0] at hl
    refine ⟨by linarith, ?_⟩
    ext <;> simp [V3.normSq, V3.dot]
    · linear_combination (-c.z) * x2 + c.y * x3
    · linear_combination c.z * x1 - c.x * x3
    · linear_combination (-c.y) * x1 + c.x * x2
  obtain ⟨a1, a2⟩ := key n n1 n2 n3 n4
  obtain ⟨b1, b2⟩ := key m m1 m2 m3 m4
  have e : V3.dot n (V3.cross p q) = V3.dot m (V3.cross p q) := by
    have : (V3.dot n (V3.cross p q) - V3.dot m (V3.cross p q)) * (V3.dot n (V3.cross p q) + V3.dot m (V3.cross p q)) = 0 := by linear_combination a1 - b1
    rcases mul_eq_zero.1 this with h | h <;> linarith
  rw [e, ← b2] at a2
  have hc : V3.normSq (V3.cross p q) ≠ 0 := by
    rw [← a1]; positivity
  have hx := congrArg V3.x a2
  have hy := congrArg V3.y a2
  have hz := congrArg V3.z a2
  simp only [V3.smul_x, V3.smul_y, V3.smul_z] at hx hy hz
  ext
  · exact mul_left_cancel₀ hc hx
  · exact mul_left_cancel₀ hc hy
  · exact mul_left_cancel₀ hc hz

theorem closed_incid_two {n : ℕ} {F : List Tri} (hF : ClosedOriented n F) {e : Edge} (he : e ∈ sides F) : incid F e = 2 := by
  apply incid_eq_two hF.manifold
  unfold incid
  have hsub : [e, e.flip] ⊆ (sides F).filter (fun h => Undir e h) := by
    intro x hx
    rw [List.mem_filter]
    rcases List.mem_pair.1 hx with rfl | rfl
    · exact ⟨he, by simp [Undir]⟩
    · exact ⟨hF.closed e he, by simp [Undir]⟩
  have hnd : [e, e.flip].Nodup := by simpa using side_not_loop hF.manifold he
  exact (List.subperm_of_subset hnd hsub).length_le

theorem closed_boundary {n : ℕ} {F : List Tri} (hF : ClosedOriented n F) (hne : F ≠ []) : boundaryVertices F = some [] := by
  obtain ⟨B, h1, _, h3⟩ := C04_boundary_vertices F hne
  rw [h1]
  congr 1
  rw [List.eq_nil_iff_forall_not_mem]
  intro v hv
  obtain ⟨e, he, hi, _⟩ := (h3 v).1 hv
  rw [closed_incid_two hF he] at hi
  omega

theorem closed_nonManifold {n : ℕ} {F : List Tri} (hF : ClosedOriented n F) (hne : F ≠ []) : nonManifoldEdges F = some [] := by
  obtain ⟨B, h1, _, h3⟩ := C04_non_manifold_edges F hne
  rw [h1]
  congr 1
  rw [List.eq_nil_iff_forall_not_mem]
  intro e he
  obtain ⟨_, hi⟩ := (h3 e).1 he
  have := incid_eq_two hF.manifold (e := e) (by omega)
  omega

theorem mem_sharpSides {F : List Tri} {Θ : List (Row3 (Option ℝ))} {thr : ℝ} {c : Fin 3} (hl : Θ.length = F.length) {e : Edge} :
    e ∈ sharpSides F Θ thr c ↔ ∃ (f : ℕ) (t : Tri) (r : Row3 (Option ℝ)) (θ : ℝ), F[f]? = some t ∧ Θ[f]? = some r ∧ r.get c = some θ ∧ θ > thr ∧ e = t.side c := by
  unfold sharpSides npMask
  simp only [List.mem_map, List.mem_filter]
  constructor
  · rintro ⟨t, ⟨p, ⟨hp, hs⟩, rfl⟩, rfl⟩
    obtain ⟨f, hf⟩ := List.mem_iff_getElem?.1 hp
    rw [List.getElem?_zip_eq_some] at hf
    obtain ⟨hf1, hf2⟩ := hf
    rw [List.getElem?_map] at hf2
    cases hr : Θ[f]? with
    | none => rw [hr] at hf2; simp at hf2
    | some r =>
      rw [hr] at hf2
      simp only [Option.map_some, Option.some.injEq] at hf2
      rw [← hf2] at hs
      unfold sharper at hs
      cases hg : r.get c with
      | none => rw [hg] at hs; simp at hs
      | some θ =>
        rw [hg] at hs
        exact ⟨f, p.1, r, θ, hf1, hr, hg, by simpa using hs, rfl⟩
  · rintro ⟨f, t, r, θ, hf, hr, hg, hθ, rfl⟩
    refine ⟨t, ⟨(t, true), ⟨?_, rfl⟩, rfl⟩, rfl⟩
    rw [List.mem_iff_getElem?]
    refine ⟨f, ?_⟩
    rw [List.getElem?_zip_eq_some]
    refine ⟨hf, ?_⟩
    rw [List.getElem?_map, hr]
    simp [hg, sharper, hθ]

/-- The edge `e` of the mesh is sharp: the angle between the unit normals of the two triangles at `e` is larger than `deg` degrees. -/
def IsSharp (V : List (V3 ℝ)) (F : List Tri) (deg : ℝ) (e : Edge) : Prop :=
  ∃ t ∈ F, ∃ u ∈ F, ∃ (i j : Fin 3) (n m : V3 ℝ), Undir e (t.side i) ∧ u.side j = (t.side i).flip ∧ IsUnitNormal V t n ∧ IsUnitNormal V u m ∧
    deg * (Real.pi / 180) < Real.arccos (V3.dot n m)

/-- **C80** (feature detection).  With `detect_feature_edges`, the feature edges are the given ones and the sharp edges of the mesh, each once, written with the smaller vertex first. -/
theorem C80_detect (V : List (V3 ℝ)) (F : List Tri) (fe : List Edge) (deg : ℝ) (hne : F ≠ []) (hF : InRange F V.length) (hman : OrientedManifold F) (hA : ∀ t ∈ F, PosArea V t) :
    ∃ D, detectFeatureEdges V F fe deg = some D ∧ D.Pairwise (fun e e' => ¬ Undir e e') ∧
      ∀ e, e ∈ D ↔ e.s ≤ e.t ∧ ((∃ e' ∈ fe, Undir e e') ∨ IsSharp V F deg e) := by
  obtain ⟨Θ, h1, h2, h3⟩ := C71_dihedral_angles V F hne hF hman hA
  set thr := deg * (Real.pi / 180) with hthr
  refine ⟨_, by unfold detectFeatureEdges; simp only [h1, Option.bind_eq_bind, Option.bind_some]; rfl, ?_, ?_⟩
  · refine (npUnique_pairwise_lt _).imp_of_mem ?_
    intro e e' he he' hlt hu
    rw [mem_npUnique, List.mem_map] at he he'
    obtain ⟨a, _, rfl⟩ := he
    obtain ⟨b, _, rfl⟩ := he'
    have s1 := Edge.sort_le a
    have s2 := Edge.sort_le b
    rw [Edge.lt_def] at hlt
    rcases hu with hu | hu
    · rw [hu] at hlt; omega
    · rw [hu] at hlt s2; simp [Edge.flip] at hlt s2; omega
  · intro e
    have hsharp : ∀ c, (∃ a ∈ sharpSides F Θ thr c, a.sort = e) ↔ e.s ≤ e.t ∧ ∃ (f : ℕ) (t : Tri) (r : Row3 (Option ℝ)) (θ : ℝ), F[f]? = some t ∧ Θ[f]? = some r ∧ r.get c = some θ ∧ θ > thr ∧ Undir e (t.side c) := by
      intro c
      constructor
      · rintro ⟨a, ha, rfl⟩
        obtain ⟨f, t, r, θ, q1, q2, q3, q4, rfl⟩ := (mem_sharpSides h2).1 ha
        exact ⟨Edge.sort_le _, f, t, r, θ, q1, q2, q3, q4, Edge.sort_undir _⟩
      · rintro ⟨hs, f, t, r, θ, q1, q2, q3, q4, hu⟩
        exact ⟨t.side c, (mem_sharpSides h2).2 ⟨f, t, r, θ, q1, q2, q3, q4, rfl⟩, (Edge.sort_eq_of hs hu)⟩
    have hS : IsSharp V F deg e ↔ ∃ (c : Fin 3) (f : ℕ) (t : Tri) (r : Row3 (Option ℝ)) (θ : ℝ), F[f]? = some t ∧ Θ[f]? = some r ∧ r.get c = some θ ∧ θ > thr ∧ Undir e (t.side c) := by
      constructor
      · rintro ⟨t, ht, u, hu, i, j, n, m, q1, q2, q3, q4, q5⟩
        obtain ⟨f, hf⟩ := List.mem_iff_getElem?.1 ht
        obtain ⟨r, hr, h | ⟨g, u', j', n', m', θ, r', p1, p2, p3, p4, p5, p6, p7, p8, _⟩⟩ := h3 f t i hf
        · exfalso
          have hi := h.1
          have he : t.side i ∈ sides F := mem_sides.2 ⟨f, t, i, hf, rfl⟩
          obtain ⟨g, hg⟩ := List.mem_iff_getElem?.1 hu
          have he' : (t.side i).flip ∈ sides F := mem_sides.2 ⟨g, u, j, hg, q2⟩
          have hsub : [t.side i, (t.side i).flip] ⊆ (sides F).filter (fun h => Undir (t.side i) h) := by
            intro x hx
            rw [List.mem_filter]
            rcases List.mem_pair.1 hx with rfl | rfl
            · exact ⟨he, by simp [Undir]⟩
            · exact ⟨he', by simp [Undir]⟩
          have hnd : [t.side i, (t.side i).flip].Nodup := by simpa using side_not_loop hman he
          have := (List.subperm_of_subset hnd hsub).length_le
          unfold incid at hi
          simp only [List.length_cons, List.length_nil] at this
          omega
        · have hn : n' = n := unitNormal_unique p3 q3
          have huu : u' = u := by
            obtain ⟨g', hg'⟩ := List.mem_iff_getElem?.1 hu
            exact side_unique hman p1 hg' (p2.trans q2.symm)
          subst huu
          have hm : m' = m := unitNormal_unique p4 q4
          subst hn hm
          refine ⟨i, f, t, r, θ, hf, hr, p5, ?_, q1⟩
          have : Real.arccos (V3.dot n' m') = θ := by rw [← p8, Real.arccos_cos p6 p7]
          rw [← this]; exact q5
      · rintro ⟨c, f, t, r, θ, q1, q2, q3, q4, q5⟩
        obtain ⟨r0, hr, h | ⟨g, u', j', n', m', θ', r', p1, p2, p3, p4, p5, p6, p7, p8, _⟩⟩ := h3 f t c q1
        · rw [q2] at hr; cases hr; rw [q3] at h; exact absurd h.2 (by simp)
        · rw [q2] at hr; cases hr
          rw [q3] at p5; cases p5
          refine ⟨t, List.mem_of_getElem? q1, u', List.mem_of_getElem? p1, c, j', n', m', q5, p2, p3, p4, ?_⟩
          rw [← p8, Real.arccos_cos p6 p7]; exact q4
    rw [mem_npUnique, List.map_append, List.map_append, List.map_append]
    simp only [List.mem_append, List.mem_map]
    rw [hsharp 0, hsharp 1, hsharp 2, hS]
    constructor
    · rintro (⟨a, ha, rfl⟩ | (⟨hs, h⟩ | ⟨hs, h⟩) | ⟨hs, h⟩)
      · exact ⟨Edge.sort_le _, Or.inl ⟨a, ha, Edge.sort_undir _⟩⟩
      · exact ⟨hs, Or.inr ⟨0, h⟩⟩
      · exact ⟨hs, Or.inr ⟨1, h⟩⟩
      · exact ⟨hs, Or.inr ⟨2, h⟩⟩
    · rintro ⟨hs, ⟨a, ha, hu⟩ | ⟨c, h⟩⟩
      · exact Or.inl ⟨a, ha, Edge.sort_eq_of hs hu⟩
      · match c with
        | 0 => exact Or.inr (Or.inl (Or.inl ⟨hs, h⟩))
        | 1 => exact Or.inr (Or.inl (Or.inr ⟨hs, h⟩))
        | 2 => exact Or.inr (Or.inr ⟨hs, h⟩)

/-- `fs` lists the different members of `l` in the order in which they first occur in `l`. -/
def FirstOccurrences (l fs : List ℕ) : Prop := fs.Nodup ∧ (∀ v, v ∈ fs ↔ v ∈ l) ∧ fs.Pairwise (fun a b => l.idxOf a < l.idxOf b)

/-- The feature edges: the given ones, or with `detect_feature_edges` also the sharp ones. -/
def IsFeatureEdge (V : List (V3 ℝ)) (F : List Tri) (fe : List Edge) (detect : Bool) (deg : ℝ) (e : Edge) : Prop :=
  (∃ e' ∈ fe, Undir e e') ∨ (detect = true ∧ IsSharp V F deg e)

theorem undir_map {f : ℕ → ℕ} {e e' : Edge} (h : Undir e e') : Undir (⟨f e.s, f e.t⟩ : Edge) ⟨f e'.s, f e'.t⟩ := by
  rcases h with rfl | rfl
  · exact Or.inl rfl
  · exact Or.inr rfl

theorem undir_map_inj {f : ℕ → ℕ} {n : ℕ} (hi : ∀ v < n, ∀ w < n, f v = f w → v = w) {e e' : Edge} (h1 : e.s < n) (h2 : e.t < n) (h3 : e'.s < n) (h4 : e'.t < n)
    (h : Undir (⟨f e.s, f e.t⟩ : Edge) ⟨f e'.s, f e'.t⟩) : Undir e e' := by
  rcases h with h | h
  · simp only [Edge.mk.injEq] at h
    exact Or.inl (Edge.eq_iff.2 ⟨hi _ h3 _ h1 h.1, hi _ h4 _ h2 h.2⟩)
  · simp only [Edge.flip, Edge.mk.injEq] at h
    exact Or.inr (Edge.eq_iff.2 ⟨hi _ h3 _ h2 h.1, hi _ h4 _ h1 h.2⟩)

theorem sides_lt {n : ℕ} {F : List Tri} (hF : ClosedOriented n F) {e e' : Edge} (he' : e' ∈ sides F) (hu : Undir e e') : e.s < n ∧ e.t < n := by
  obtain ⟨t, ht, c, hc⟩ := mem_sides_cyc.1 he'
  have u1 := used_lt hF ⟨t, ht, (hc.mem _).2 (Or.inl rfl)⟩
  have u2 := used_lt hF ⟨t, ht, (hc.mem _).2 (Or.inr (Or.inl rfl))⟩
  rcases hu with rfl | rfl
  · exact ⟨u1, u2⟩
  · exact ⟨u2, u1⟩

/-- the mesh that C++ gets -/
theorem wrapper_prepare (L : Libigl) (junk : ℕ → ℕ) (V : List (V3 ℝ)) (F : List Tri) (iters : ℕ) (h : Option ℝ) (project : Bool) (feature : List ℕ) (fe : List Edge)
    (detect : Bool) (deg : ℝ) (hF : ClosedOriented V.length F) (hne : F ≠ []) (hfeat : ∀ v ∈ feature, UsedIn F v) (hfe : ∀ e ∈ fe, ∃ e' ∈ sides F, Undir e e')
    (honce : detect = false → fe.Pairwise (fun e e' => ¬ Undir e e')) (hA : detect = true → ∀ t ∈ F, PosArea V t) :
    ∃ (P : PyMesh) (f : ℕ → ℕ) (D : List Edge) (h0 : ℝ), P.V.length = V.length ∧ (∀ v < V.length, P.V.getD (f v) 0 = V.getD v 0) ∧ P.F = F.map (Tri.map f) ∧
      P.fe = D.map (fun e => (⟨f e.s, f e.t⟩ : Edge)) ∧ (∀ e ∈ D, IsFeatureEdge V F fe detect deg e) ∧ (fe = [] → detect = false → D = []) ∧ (∀ e ∈ D, e.s < V.length ∧ e.t < V.length) ∧
      P.feature = List.range (uniqueInOrder feature).length ∧
      (∀ (j : ℕ) (h : j < (uniqueInOrder feature).length), f (uniqueInOrder feature)[j] = j) ∧
      (∀ v < V.length, ∀ w < V.length, f v = f w → v = w) ∧
      Remeshable (uniqueInOrder feature).length ⟨P.V.length, fun i => P.V.getD i 0⟩ P.F P.fe ∧
      remeshBotsch L junk V F iters h project feature fe detect deg =
        (remeshBotschCpp L ⟨P.V.length, fun i => P.V.getD i 0⟩ P.F ⟨P.V.length, fun _ => h0⟩ iters P.feature P.fe project).map (fun M => (M.V, M.F)) := by
  have hVne : V ≠ [] := by
    obtain ⟨t, F', rfl⟩ := List.exists_cons_of_ne_nil hne
    rintro rfl
    have := (hF.range t (by simp)).1
    simp at this
  -- the target length
  obtain ⟨h0, hh0⟩ : ∃ h0, targetLength V F h = some h0 := by
    cases h with
    | some h => exact ⟨h, rfl⟩
    | none =>
      show ∃ h0, meanHalfedge V F = some h0
      unfold meanHalfedge halfedgeLengthsSquared
      rw [if_neg (by simp [hVne, hne])]
      have : ∀ t ∈ F, (do
          let a ← V[t.a]?
          let b ← V[t.b]?
          let c ← V[t.c]?
          some (Row3.mk (V3.normSq (c - b)) (V3.normSq (a - c)) (V3.normSq (b - a))) : Option (Row3 ℝ)) =
          some (Row3.mk (V3.normSq (V.getD t.c 0 - V.getD t.b 0)) (V3.normSq (V.getD t.a 0 - V.getD t.c 0)) (V3.normSq (V.getD t.b 0 - V.getD t.a 0))) := by
        intro t ht
        obtain ⟨a, b, c⟩ := hF.range t ht
        simp [List.getElem?_eq_getElem a, List.getElem?_eq_getElem b, List.getElem?_eq_getElem c]
      rw [mapM_eq_some_map this]
      exact ⟨_, rfl⟩
  -- the feature edges
  obtain ⟨D, hD, hD1, hD2, hD3, hD4⟩ : ∃ D, chooseFeatureEdges V F fe detect deg = some D ∧ D.Pairwise (fun e e' => ¬ Undir e e') ∧
      (∀ e ∈ D, ∃ e' ∈ sides F, Undir e e') ∧ (∀ e ∈ D, IsFeatureEdge V F fe detect deg e) ∧ (fe = [] → detect = false → D = []) := by
    cases detect with
    | false => exact ⟨fe, rfl, honce rfl, hfe, fun e he => Or.inl ⟨e, he, Or.inl rfl⟩, fun h _ => h⟩
    | true =>
      obtain ⟨D, d1, d2, d3⟩ := C80_detect V F fe deg hne hF.range hF.manifold (hA rfl)
      refine ⟨D, by simpa [chooseFeatureEdges] using d1, d2, ?_, fun e he => ((d3 e).1 he).2.imp id (fun h => ⟨rfl, h⟩), by simp⟩
      intro e he
      rcases ((d3 e).1 he).2 with ⟨e', he', hu⟩ | ⟨t, ht, _, _, i, _, _, _, hu, _⟩
      · obtain ⟨e'', he'', hu'⟩ := hfe e' he'
        refine ⟨e'', he'', ?_⟩
        rcases hu with rfl | rfl <;> rcases hu' with rfl | rfl
        · exact Or.inl rfl
        · exact Or.inr rfl
        · exact Or.inr rfl
        · exact Or.inl rfl
      · obtain ⟨f, hf⟩ := List.mem_iff_getElem?.1 ht
        exact ⟨t.side i, mem_sides.2 ⟨f, t, i, hf, rfl⟩, hu⟩
  have hDl : ∀ e ∈ D, e.s < V.length ∧ e.t < V.length := fun e he => by
    obtain ⟨e', he', hu⟩ := hD2 e he
    exact sides_lt hF he' hu
  -- the new order
  obtain ⟨P, f, m1, m2, m3, m4, m5, m6, m7, m8, m9⟩ : ∃ (P : PyMesh) (f : ℕ → ℕ), arrangeMesh junk V F feature D = some P ∧
      P.V.length = V.length ∧ (∀ v < V.length, f v < V.length) ∧
      (∀ v < V.length, ∀ w < V.length, f v = f w → v = w) ∧ (∀ v < V.length, P.V.getD (f v) 0 = V.getD v 0) ∧ P.F = F.map (Tri.map f) ∧
      P.fe = D.map (fun e => (⟨f e.s, f e.t⟩ : Edge)) ∧ P.feature = List.range (uniqueInOrder feature).length ∧
      (∀ (j : ℕ) (h : j < (uniqueInOrder feature).length), f (uniqueInOrder feature)[j] = j) := by
    unfold arrangeMesh
    by_cases hf : feature = []
    · subst hf
      have hu : uniqueInOrder [] = [] := uniqueInOrder_self List.nodup_nil
      refine ⟨⟨V, F, [], D⟩, id, by simp, rfl, fun _ h => h, fun _ _ _ _ h => h, fun _ _ => rfl, ?_, ?_, by rw [hu]; rfl, fun j hj => absurd hj (by rw [hu]; simp)⟩
      · show F = F.map (Tri.map id)
        rw [show Tri.map id = id from rfl, List.map_id]
      · show D = D.map _
        rw [show (fun e : Edge => (⟨id e.s, id e.t⟩ : Edge)) = id from rfl, List.map_id]
    · rw [if_pos hf]
      exact moveToFront_ok junk hF.range (fun v hv => used_lt hF (hfeat v hv)) hDl
  have hcl : ClosedOriented P.V.length P.F := by
    rw [m6]
    exact closed_map hF f (fun v w hv hw => m4 v (used_lt hF hv) w (used_lt hF hw)) (fun v hv => by rw [m2]; exact m3 v (used_lt hF hv))
  have hPne : P.F ≠ [] := by rw [m6]; simpa using hne
  refine ⟨P, f, D, h0, m2, m5, m6, m7, hD3, hD4, hDl, m8, m9, m4, ⟨hcl, hPne, ?_, ?_, ?_⟩, ?_⟩
  · intro j hj
    have := List.getElem_mem hj
    rw [(uniqueInOrder_spec feature).2.1] at this
    obtain ⟨t, ht, hv⟩ := hfeat _ this
    rw [m6]
    refine ⟨t.map f, List.mem_map_of_mem ht, ?_⟩
    rw [← m9 j hj]
    rcases hv with hv | hv | hv
    · exact Or.inl (congrArg f hv)
    · exact Or.inr (Or.inl (congrArg f hv))
    · exact Or.inr (Or.inr (congrArg f hv))
  · intro e he
    rw [m7, List.mem_map] at he
    obtain ⟨e0, he0, rfl⟩ := he
    obtain ⟨e', he', hu⟩ := hD2 e0 he0
    refine ⟨⟨f e'.s, f e'.t⟩, ?_, undir_map hu⟩
    rw [m6, sides_map]
    exact List.mem_map_of_mem he'
  · rw [m7, List.pairwise_map]
    refine hD1.imp_of_mem ?_
    intro a b ha hb hab hu
    exact hab (undir_map_inj m4 (hDl a ha).1 (hDl a ha).2 (hDl b hb).1 (hDl b hb).2 hu)
  · unfold remeshBotsch
    have hb := closed_boundary hF hne
    have hnm := closed_nonManifold hcl hPne
    simp only [hh0, hD, hb, List.append_nil, m1, hnm, Option.bind_eq_bind, Option.bind_some, ne_eq, not_true_eq_false, if_false]
    cases remeshBotschCpp L ⟨P.V.length, fun i => P.V.getD i 0⟩ P.F ⟨P.V.length, fun _ => h0⟩ iters P.feature P.fe project <;> rfl

/-- **C80** (the result).  Called on a closed mesh, whose vertices may come in any order, `remesh_botsch` returns a closed mesh in which every vertex is used.  The given fixed vertices are the first vertices of the
result, at their old places, in the given order (repetitions are dropped). -/
theorem C80_remesh (L : Libigl) (hL : LibOk L) (junk : ℕ → ℕ) (V : List (V3 ℝ)) (F : List Tri) (iters : ℕ) (h : Option ℝ) (project : Bool) (feature : List ℕ) (fe : List Edge)
    (detect : Bool) (deg : ℝ) (hF : ClosedOriented V.length F) (hne : F ≠ []) (hfeat : ∀ v ∈ feature, UsedIn F v) (hfe : ∀ e ∈ fe, ∃ e' ∈ sides F, Undir e e')
    (honce : detect = false → fe.Pairwise (fun e e' => ¬ Undir e e')) (hA : detect = true → ∀ t ∈ F, PosArea V t) :
    ∃ U G, remeshBotsch L junk V F iters h project feature fe detect deg = some (U, G) ∧ ClosedOriented U.size G ∧ G ≠ [] ∧ (0 < iters → ∀ v < U.size, UsedIn G v) ∧
      ∃ fs, FirstOccurrences feature fs ∧ (feature.Nodup → fs = feature) ∧ fs.length ≤ U.size ∧ ∀ (j : ℕ) (hj : j < fs.length), U.val j = V.getD fs[j] 0 := by
  obtain ⟨P, f, D, h0, m1, m2, m3, m4, _, _, _, m5, m6, _, m7, m8⟩ := wrapper_prepare L junk V F iters h project feature fe detect deg hF hne hfeat hfe honce hA
  obtain ⟨M, a1, a2, a3, a4, a5⟩ := C79_remesh L hL ⟨P.V.length, fun i => P.V.getD i 0⟩ P.F ⟨P.V.length, fun _ => h0⟩ iters (uniqueInOrder feature).length P.fe project m7 rfl
  rw [m8, m5, a1]
  refine ⟨M.V, M.F, rfl, a2.closed, a2.nonempty, a5, uniqueInOrder feature, uniqueInOrder_spec feature, uniqueInOrder_self, a3, ?_⟩
  intro j hj
  rw [a4 j hj]
  have hv : (uniqueInOrder feature)[j] < V.length := used_lt hF (hfeat _ (((uniqueInOrder_spec feature).2.1 _).1 (List.getElem_mem hj)))
  have := m2 _ hv
  rw [m6 j hj] at this
  exact this

/-- **C80** (projection).  With `project=True` and without feature edges, every vertex of the result lies on the original surface.  With feature edges there are edges of the new mesh (the new
feature edges) such that this holds except possibly where these end or branch; and vertices with two feature edges, except the given fixed ones, lie on the original feature edges. -/
theorem C80_surface (L : Libigl) (hL : LibOk L) (junk : ℕ → ℕ) (V : List (V3 ℝ)) (F : List Tri) (iters : ℕ) (h : Option ℝ) (feature : List ℕ) (fe : List Edge)
    (detect : Bool) (deg : ℝ) (hF : ClosedOriented V.length F) (hne : F ≠ []) (hfeat : ∀ v ∈ feature, UsedIn F v) (hfe : ∀ e ∈ fe, ∃ e' ∈ sides F, Undir e e')
    (honce : detect = false → fe.Pairwise (fun e e' => ¬ Undir e e')) (hA : detect = true → ∀ t ∈ F, PosArea V t) (hi : 0 < iters) :
    ∃ U G, remeshBotsch L junk V F iters h true feature fe detect deg = some (U, G) ∧
      (fe = [] → detect = false → ∀ v < U.size, OnSurface (fun i => V.getD i 0) F (U.val v)) ∧
      ∃ fe', (∀ e ∈ fe', ∃ e' ∈ sides G, Undir e e') ∧ (∀ v < U.size, ¬ IsFeatureCorner fe' v → OnSurface (fun i => V.getD i 0) F (U.val v)) ∧
        ∃ fs, FirstOccurrences feature fs ∧ ∀ v < U.size, fs.length ≤ v → (featNbrs fe' v).length = 2 →
          ∃ e, IsFeatureEdge V F fe detect deg e ∧ OnSeg3 (V.getD e.s 0) (V.getD e.t 0) (U.val v) := by
  obtain ⟨P, f, D, h0, m1, m2, m3, m4, m4a, m4b, m4c, m5, m6, _, m7, m8⟩ := wrapper_prepare L junk V F iters h true feature fe detect deg hF hne hfeat hfe honce hA
  obtain ⟨M, a1, a2, a3, a4⟩ := C79_surface L hL ⟨P.V.length, fun i => P.V.getD i 0⟩ P.F ⟨P.V.length, fun _ => h0⟩ iters (uniqueInOrder feature).length P.fe m7 rfl hi
  obtain ⟨M', b1, b2, _⟩ := C79_remesh L hL ⟨P.V.length, fun i => P.V.getD i 0⟩ P.F ⟨P.V.length, fun _ => h0⟩ iters (uniqueInOrder feature).length P.fe true m7 rfl
  rw [a1] at b1
  cases b1
  rw [m8, m5, a1]
  have hsurf : ∀ x, OnSurface (fun i => P.V.getD i 0) P.F x → OnSurface (fun i => V.getD i 0) F x := by
    intro x hx
    rw [m3] at hx
    exact (onSurface_map hF.range m2 x).1 hx
  have hc : ∀ v < M.V.size, ¬ IsFeatureCorner M.fe v → OnSurface (fun i => V.getD i 0) F (M.V.val v) := fun v hv hc => hsurf _ (a2 v hv (Or.inl hc))
  refine ⟨M.V, M.F, rfl, ?_, M.fe, b2.feEdges, hc, uniqueInOrder feature, uniqueInOrder_spec feature, ?_⟩
  · intro h1 h2 v hv
    have he : P.fe = [] := by rw [m4, m4b h1 h2]; rfl
    refine hc v hv ?_
    rw [a4 he]
    rintro ⟨h, _⟩
    exact h rfl
  · intro v hv hk hl
    obtain ⟨e, he, hs⟩ := a3 v hv hk hl
    rw [m4, List.mem_map] at he
    obtain ⟨e0, he0, rfl⟩ := he
    refine ⟨e0, m4a e0 he0, ?_⟩
    simp only [m2 _ (m4c e0 he0).1, m2 _ (m4c e0 he0).2] at hs
    exact hs

/-- the octahedron as lists; the vertices 3 and 1 are to be fixed -/
example : ∃ U G, remeshBotsch simpleLib (fun _ => 7) ((List.range 6).map foV) foF 10 (some 1) true [3, 1, 3] [⟨2, 1⟩] false 45 = some (U, G) ∧ U.val 0 = foV 3 ∧ U.val 1 = foV 1 := by
  have hF : ClosedOriented ((List.range 6).map foV).length foF := closedOriented_of (by decide +kernel)
  obtain ⟨U, G, h1, _, _, _, fs, h5, _, _, h8⟩ := C80_remesh simpleLib simpleLib_ok (fun _ => 7) ((List.range 6).map foV) foF 10 (some 1) true [3, 1, 3] [⟨2, 1⟩] false 45 hF (by decide)
    (by unfold UsedIn; decide +kernel) (by decide +kernel) (fun _ => by decide +kernel) (by simp)
  have hfs : fs = [3, 1] := by
    have hp : fs.Perm [3, 1] := (List.perm_ext_iff_of_nodup h5.1 (by decide)).2 (fun v => by rw [h5.2.1]; simp; tauto)
    refine hp.eq_of_pairwise (fun a b _ _ x y => absurd y (lt_asymm x)) h5.2.2 (by decide)
  subst hfs
  exact ⟨U, G, h1, by simpa using h8 0 (by simp), by simpa using h8 1 (by simp)⟩

/-- two triangles that meet at a right angle: their common edge is found at 45 degrees -/
example : ∃ D, detectFeatureEdges [⟨0, 0, 0⟩, ⟨1, 0, 0⟩, ⟨0, 1, 0⟩, ⟨0, 0, 1⟩] [⟨0, 1, 2⟩, ⟨1, 0, 3⟩] [] 45 = some D ∧ (⟨0, 1⟩ : Edge) ∈ D := by
  have hA : ∀ t ∈ [(⟨0, 1, 2⟩ : Tri), ⟨1, 0, 3⟩], PosArea [⟨0, 0, 0⟩, ⟨1, 0, 0⟩, ⟨0, 1, 0⟩, ⟨0, 0, 1⟩] t := by
    intro t ht
    rcases List.mem_pair.1 ht with rfl | rfl
    · intro h; have := congrArg V3.z h; simp [V3.cross] at this
    · intro h; have := congrArg V3.y h; simp [V3.cross] at this
  obtain ⟨D, h1, _, h3⟩ := C80_detect [⟨0, 0, 0⟩, ⟨1, 0, 0⟩, ⟨0, 1, 0⟩, ⟨0, 0, 1⟩] [⟨0, 1, 2⟩, ⟨1, 0, 3⟩] [] 45 (by simp) (by decide) (by decide) hA
  refine ⟨D, h1, (h3 _).2 ⟨by norm_num, Or.inr ⟨⟨0, 1, 2⟩, by simp, ⟨1, 0, 3⟩, by simp, 2, 2, ⟨0, 0, 1⟩, ⟨0, 1, 0⟩, Or.inl rfl, rfl, ?_, ?_, ?_⟩⟩⟩
  · unfold IsUnitNormal; simp [V3.cross, V3.dot, V3.normSq]
  · unfold IsUnitNormal; simp [V3.cross, V3.dot, V3.normSq]
  · have : V3.dot (⟨0, 0, 1⟩ : V3 ℝ) ⟨0, 1, 0⟩ = 0 := by simp [V3.dot]
    rw [this, Real.arccos_zero]
    have := Real.pi_pos
    linarith

end Gpy
