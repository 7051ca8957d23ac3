import Verif.Model.MinimumDistance
import Verif.Proofs.Traverse
import Verif.Proofs.ClosestPoint
import Verif.Props.PointElement
import Verif.Props.Aabb

/-! C49: `approximate_hausdorff_distance`, Python branch. -/

set_option autoImplicit false
namespace Gpy
open Np
variable {d : ℕ}

/-- the vertices of every element exist, and the element is a point, a segment of length at least `1e-10`, or a triangle of positive area in space -/
def GoodMesh (V : List (Pt d)) (F : List (List ℕ)) : Prop := ∀ es ∈ F, ∃ X, es.mapM (fun i => V[i]?) = some X ∧ GoodElem X

theorem GoodMesh.ok {V : List (Pt d)} {F : List (List ℕ)} (h : GoodMesh V F) : ElemsOk V F := by
  intro es hes
  obtain ⟨X, h1, h2⟩ := h es hes
  exact ⟨X, h1, h2.shape⟩

/-- distance from a point to element `e` -/
noncomputable def hdVal (p : Pt d) (V : List (Pt d)) (F : List (List ℕ)) (e : ℕ) : WithTop ℝ :=
  match F[e]? with
  | none => ⊤
  | some es => match squaredDistanceToElement p V es with
    | none => ⊤
    | some r => (Real.sqrt r.1 : WithTop ℝ)

theorem ptBox_le {p C W x : Pt d} (hx : InBox C W x) : pointToBoxDistance p C W ≤ pnorm (x - p) := by
  unfold pointToBoxDistance pnorm psq
  apply Real.sqrt_le_sqrt
  apply Finset.sum_le_sum
  intro i _
  obtain ⟨a, b⟩ := hx i
  simp only [Pi.sub_apply]
  split
  · next h => nlinarith
  · split
    · next h => nlinarith
    · positivity

theorem hdVal_some {p : Pt d} {V : List (Pt d)} {F : List (List ℕ)} (hF : ElemsOk V F) {e : ℕ} (he : e < F.length) :
    ∃ es r, F[e]? = some es ∧ squaredDistanceToElement p V es = some r ∧ hdVal p V F e = (Real.sqrt r.1 : WithTop ℝ) := by
  obtain ⟨es, r, h1, h2, -⟩ := elemVal_some (p := p) hF he
  exact ⟨es, r, h1, h2, by unfold hdVal; rw [h1]; simp only [h2]⟩

theorem hdVal_ge_box {p : Pt d} {V : List (Pt d)} {F : List (List ℕ)} (hF : ElemsOk V F) {n : AabbNode d} {e : ℕ}
    (h : ElemIn V F n e) : (pointToBoxDistance p n.C n.W : WithTop ℝ) ≤ hdVal p V F e := by
  unfold hdVal
  cases hes : F[e]? with
  | none => exact le_top
  | some es =>
    obtain ⟨X, h1, h2⟩ := hF es (List.mem_of_getElem? hes)
    obtain ⟨r, r1, r2, r3, _⟩ := elem_touch (p := p) h1 h2
    simp only [r1]
    rw [WithTop.coe_le_coe, r3]
    apply ptBox_le
    apply comb_inBox r2
    intro x hx
    obtain ⟨i, hi, hxi⟩ := mapM_mem h1 x hx
    exact h es hes i hi x hxi

theorem hdSearch_spec {p : Pt d} {V : List (Pt d)} {F : List (List ℕ)} {T : List (AabbNode d)} (hF : ElemsOk V F) (hd : ℝ) :
    ∀ (fuel : ℕ) (L : List (ℕ × List ℕ)) (best : WithTop ℝ), (∀ x ∈ L, Covers V F T x.1 x.2 ∧ ∀ e ∈ x.2, e < F.length) →
      (L.map (fun x => weight x.2)).sum ≤ fuel →
      ∃ b, hdSearch p V F T hd fuel (L.map (fun x => (x.1 : Int))) best = some b ∧ b ≤ best ∧
        (b ≤ hd ∨ ∀ x ∈ L, ∀ e ∈ x.2, b ≤ hdVal p V F e) ∧ (b = best ∨ ∃ e < F.length, b = hdVal p V F e) := by
  intro fuel
  induction fuel with
  | zero =>
    intro L best hL hf
    cases L with
    | nil => exact ⟨best, by simp [hdSearch], le_rfl, Or.inr (by simp), Or.inl rfl⟩
    | cons x t =>
      exfalso
      have := List.length_pos_iff.mpr (hL x (by simp)).1.ne_nil
      simp [weight] at hf
      omega
  | succ fuel ih =>
    intro L best hL hf
    cases L with
    | nil => exact ⟨best, by simp [hdSearch], le_rfl, Or.inr (by simp), Or.inl rfl⟩
    | cons x t =>
      obtain ⟨q, es⟩ := x
      obtain ⟨hc, hlt⟩ := hL (q, es) (by simp)
      have ht : ∀ x ∈ t, Covers V F T x.1 x.2 ∧ ∀ e ∈ x.2, e < F.length := fun x hx => hL x (by simp [hx])
      simp only [List.map_cons, List.sum_cons] at hf ⊢
      have hpos := List.length_pos_iff.mpr hc.ne_nil
      dsimp only at hpos hc hlt
      have hw : 1 ≤ weight es := by unfold weight; omega
      unfold hdSearch
      by_cases hb : (hd : WithTop ℝ) < best
      swap
      · rw [if_neg hb]
        exact ⟨best, rfl, le_rfl, Or.inl (not_lt.mp hb), Or.inl rfl⟩
      rw [if_pos hb]
      simp only [npGet?_natCast]
      cases hc with
      | @leaf _ e n h h1 h0 htri hbx =>
        obtain ⟨f, r, v1, v2, v3⟩ := hdVal_some (p := p) hF (hlt e (by simp))
        simp only [h, h1, Option.bind_eq_bind, Option.bind_some, if_true, htri, npGet?_natCast, v1, v2]
        obtain ⟨b, w1, w2, w3, w4⟩ := ih t (if (Real.sqrt r.1 : WithTop ℝ) < best then (Real.sqrt r.1 : WithTop ℝ) else best) ht
          (by omega)
        have hmin : (if (Real.sqrt r.1 : WithTop ℝ) < best then (Real.sqrt r.1 : WithTop ℝ) else best) ≤ best ∧
            (if (Real.sqrt r.1 : WithTop ℝ) < best then (Real.sqrt r.1 : WithTop ℝ) else best) ≤ hdVal p V F e := by
          rw [v3]
          split
          · next h => exact ⟨h.le, le_rfl⟩
          · next h => exact ⟨le_rfl, not_lt.mp h⟩
        refine ⟨b, w1, w2.trans hmin.1, ?_, ?_⟩
        · rcases w3 with w3 | w3
          · exact Or.inl w3
          · right
            intro x hx e' he'
            rcases List.mem_cons.mp hx with rfl | hx
            · simp only [List.mem_singleton] at he'
              subst he'
              exact w2.trans hmin.2
            · exact w3 x hx e' he'
        · rcases w4 with w4 | w4
          · split at w4
            · right; exact ⟨e, hlt e (by simp), by rw [w4, v3]⟩
            · left; exact w4
          · exact Or.inr w4
      | @node _ c0 c1 n l r h h0 h1 hl hr hbx =>
        have hch : n.ch1 ≠ -1 := by rw [h1]; omega
        simp only [h, hch, Option.bind_eq_bind, Option.bind_some, if_false]
        have hwa := weight_append hl.ne_nil hr.ne_nil
        change weight (l ++ r) + _ ≤ _ at hf
        split
        · obtain ⟨b, w1, w2, w3, w4⟩ := ih ((c1, r) :: (c0, l) :: t) best (by
            intro x hx
            simp only [List.mem_cons] at hx
            rcases hx with rfl | rfl | hx
            · exact ⟨hr, fun e he => hlt e (by simp [he])⟩
            · exact ⟨hl, fun e he => hlt e (by simp [he])⟩
            · exact ht x hx) (by
            simp only [List.map_cons, List.sum_cons]; omega)
          refine ⟨b, by rw [h0, h1]; exact w1, w2, ?_, w4⟩
          rcases w3 with w3 | w3
          · exact Or.inl w3
          · right
            intro x hx e he
            rcases List.mem_cons.mp hx with rfl | hx
            · rcases List.mem_append.mp he with he | he
              · exact w3 (c0, l) (by simp) e he
              · exact w3 (c1, r) (by simp) e he
            · exact w3 x (by simp [hx]) e he
        · next hp =>
          obtain ⟨b, w1, w2, w3, w4⟩ := ih t best ht (by omega)
          refine ⟨b, w1, w2, ?_, w4⟩
          rcases w3 with w3 | w3
          · exact Or.inl w3
          · right
            intro x hx e he
            rcases List.mem_cons.mp hx with rfl | hx
            · exact w2.trans ((not_lt.mp hp).trans (hdVal_ge_box hF (hbx e he)))
            · exact w3 x hx e he

/-- one side of the distance -/
theorem hdSide_spec {V : List (Pt d)} {F : List (List ℕ)} {T : List (AabbNode d)} (hF : GoodMesh V F) {es : List ℕ}
    (hc : Covers V F T 0 es) (hes : ∀ e, e ∈ es ↔ e < F.length) {fuel : ℕ} (hfuel : weight es ≤ fuel) :
    ∀ (P : List (Pt d)) (hd : ℝ), 0 ≤ hd → ∃ R, hdSide V F T fuel P hd = some R ∧ hd ≤ R ∧
      (∀ p ∈ P, ∃ x, MeshPoint V F x ∧ pnorm (x - p) ≤ R) ∧
      (R = hd ∨ ∃ p ∈ P, ∀ x, MeshPoint V F x → R ≤ pnorm (x - p)) := by
  intro P
  induction P with
  | nil => intro hd h0; exact ⟨hd, rfl, le_rfl, by simp, Or.inl rfl⟩
  | cons p P ih =>
    intro hd h0
    obtain ⟨b, b1, -, b3, b4⟩ := hdSearch_spec (p := p) hF.ok hd fuel [(0, es)] ⊤ (by
      intro x hx; simp only [List.mem_singleton] at hx; subst hx; exact ⟨hc, fun e he => (hes e).mp he⟩) (by simpa using hfuel)
    have b4' : ∃ e < F.length, b = hdVal p V F e := by
      rcases b4 with rfl | b4
      · rcases b3 with b3 | b3
        · simp at b3
        · obtain ⟨e, he⟩ := List.exists_mem_of_ne_nil _ hc.ne_nil
          exact ⟨e, (hes e).mp he, (top_le_iff.mp (b3 (0, es) (by simp) e he)).symm⟩
      · exact b4
    obtain ⟨e, he, hbe⟩ := b4'
    obtain ⟨f, r, f1, f2, f3⟩ := hdVal_some (p := p) hF.ok he
    rw [f3] at hbe
    -- the point that attains the value
    obtain ⟨X, hX, hg⟩ := hF f (List.mem_of_getElem? f1)
    obtain ⟨r', g1, g2, g3, g4⟩ := C26_point_element p V f X hX hg
    rw [f2] at g1; cases g1
    have hpt : MeshPoint V F (comb r.2 X) := ⟨f, List.mem_of_getElem? f1, X, hX, r.2, g2, rfl⟩
    have hdist : Real.sqrt r.1 = pnorm (comb r.2 X - p) := by rw [g3]; rfl
    -- lower bound
    have hlow : (∀ x ∈ [((0 : ℕ), es)], ∀ e ∈ x.2, b ≤ hdVal p V F e) → ∀ x, MeshPoint V F x → Real.sqrt r.1 ≤ pnorm (x - p) := by
      rintro hb x ⟨f', hf', X', hX', w, hw, rfl⟩
      obtain ⟨k, hk⟩ := List.getElem?_of_mem hf'
      have kl := (List.getElem?_eq_some_iff.mp hk).1
      have := hb (0, es) (by simp) k ((hes k).mpr kl)
      obtain ⟨f'', r'', k1, k2, k3⟩ := hdVal_some (p := p) hF.ok kl
      rw [hk] at k1; cases k1
      rw [hbe, k3, WithTop.coe_le_coe] at this
      refine this.trans ?_
      obtain ⟨Y, hY, hgY⟩ := hF f' hf'
      rw [hX'] at hY; cases hY
      obtain ⟨s, s1, s2, s3, s4⟩ := C26_point_element p V f' X' hX' hgY
      rw [k2] at s1; cases s1
      exact Real.sqrt_le_sqrt (s4 w hw)
    have step : hdSide V F T fuel (p :: P) hd = hdSide V F T fuel P (if Real.sqrt r.1 > hd then Real.sqrt r.1 else hd) := by
      unfold hdSide
      rw [List.foldlM_cons]
      have : hdSearch p V F T hd fuel [0] ⊤ = some ((Real.sqrt r.1 : ℝ) : WithTop ℝ) := by rw [← hbe]; simpa using b1
      rw [this]
      rfl
    rw [step]
    by_cases hgt : Real.sqrt r.1 > hd
    · rw [if_pos hgt]
      obtain ⟨R, R1, R2, R3, R4⟩ := ih (Real.sqrt r.1) (Real.sqrt_nonneg _)
      refine ⟨R, R1, hgt.le.trans R2, ?_, ?_⟩
      · intro p' hp'
        rcases List.mem_cons.mp hp' with rfl | hp'
        · exact ⟨_, hpt, by rw [← hdist]; exact R2⟩
        · exact R3 p' hp'
      · right
        rcases R4 with R4 | ⟨p', hp', R4⟩
        · refine ⟨p, by simp, ?_⟩
          rcases b3 with b3 | b3
          · rw [hbe, WithTop.coe_le_coe] at b3
            exact absurd hgt (not_lt.mpr b3)
          · rw [R4]; exact hlow b3
        · exact ⟨p', by simp [hp'], R4⟩
    · rw [if_neg hgt]
      obtain ⟨R, R1, R2, R3, R4⟩ := ih hd h0
      refine ⟨R, R1, R2, ?_, ?_⟩
      · intro p' hp'
        rcases List.mem_cons.mp hp' with rfl | hp'
        · exact ⟨_, hpt, by rw [← hdist]; exact (not_lt.mp hgt).trans R2⟩
        · exact R3 p' hp'
      · rcases R4 with R4 | ⟨p', hp', R4⟩
        · exact Or.inl R4
        · exact Or.inr ⟨p', by simp [hp'], R4⟩

/-- C49.  For two nonempty meshes of points, segments (no shorter than `1e-10`) or triangles of positive area, the Python branch of
`approximate_hausdorff_distance` stops and returns a number `R ≥ 0` such that every vertex of either mesh is within `R` of some point of the other mesh,
and `R` is the least such number: it is `0`, or some vertex of one of the meshes has distance at least `R` from every point of the other mesh. -/
theorem C49_hausdorff [NeZero d] (argsort : List ℝ → List ℕ) (hA : IsArgsort argsort) (V1 V2 : List (Pt d)) (F1 F2 : List (List ℕ))
    (hF1 : F1 ≠ []) (hF2 : F2 ≠ []) (hM1 : GoodMesh V1 F1) (hM2 : GoodMesh V2 F2) :
    ∃ (R : ℝ) (N : ℕ), (∀ fuel, N ≤ fuel → approximateHausdorffDistance argsort V1 F1 V2 F2 fuel = some R) ∧ 0 ≤ R ∧
      (∀ p ∈ V1, ∃ x, MeshPoint V2 F2 x ∧ pnorm (x - p) ≤ R) ∧
      (∀ p ∈ V2, ∃ x, MeshPoint V1 F1 x ∧ pnorm (x - p) ≤ R) ∧
      (R = 0 ∨ (∃ p ∈ V1, ∀ x, MeshPoint V2 F2 x → R ≤ pnorm (x - p)) ∨ ∃ p ∈ V2, ∀ x, MeshPoint V1 F1 x → R ≤ pnorm (x - p)) := by
  have rng : ∀ (V : List (Pt d)) (F : List (List ℕ)), GoodMesh V F → F ≠ [] → ElemsInRange F V.length ∧ V ≠ [] := by
    intro V F hM hne
    have key : ∀ (l : List ℕ) (X : List (Pt d)), l.mapM (fun i => V[i]?) = some X → ∀ i ∈ l, i < V.length := by
      intro l
      induction l with
      | nil => simp
      | cons a t ih =>
        intro X h i hi
        cases X with
        | nil => have := mapM_nil_inv h; simp at this
        | cons x X =>
          obtain ⟨a', t', h0, h1, h2⟩ := mapM_cons_inv h
          cases h0
          rcases List.mem_cons.mp hi with rfl | hi
          · exact (List.getElem?_eq_some_iff.mp h1).1
          · exact ih X h2 i hi
    have hR : ElemsInRange F V.length := by
      intro es hes
      obtain ⟨X, h1, -⟩ := hM es hes
      exact key es X h1
    refine ⟨hR, ?_⟩
    obtain ⟨es, hes⟩ := List.exists_mem_of_ne_nil _ hne
    obtain ⟨X, h1, h2⟩ := hM es hes
    have : es ≠ [] := by rintro rfl; simp at h1; subst h1; cases h2
    obtain ⟨i, hi⟩ := List.exists_mem_of_ne_nil _ this
    have := hR es hes i hi
    intro h; rw [h] at this; simp at this
  obtain ⟨r1, v1⟩ := rng V1 F1 hM1 hF1
  obtain ⟨r2, v2⟩ := rng V2 F2 hM2 hF2
  obtain ⟨T1, t1, -, ⟨L1, c1, p1⟩, -⟩ := C24_aabbtree argsort hA V1 F1 none none v1 hF1 r1
    ⟨fun v h => by simp at h, fun v h => by simp at h⟩
  obtain ⟨T2, t2, -, ⟨L2, c2, p2⟩, -⟩ := C24_aabbtree argsort hA V2 F2 none none v2 hF2 r2
    ⟨fun v h => by simp at h, fun v h => by simp at h⟩
  have m1 : ∀ e, e ∈ L1 ↔ e < F1.length := fun e => by rw [p1.mem_iff, List.mem_range]
  have m2 : ∀ e, e ∈ L2 ↔ e < F2.length := fun e => by rw [p2.mem_iff, List.mem_range]
  set N := max (max (2 * F1.length) (2 * F2.length)) (max (weight L1) (weight L2)) with hN
  have val : ∀ fuel, N ≤ fuel → ∃ R : ℝ, approximateHausdorffDistance argsort V1 F1 V2 F2 fuel = some R ∧ 0 ≤ R ∧
      (∀ p ∈ V1, ∃ x, MeshPoint V2 F2 x ∧ pnorm (x - p) ≤ R) ∧
      (∀ p ∈ V2, ∃ x, MeshPoint V1 F1 x ∧ pnorm (x - p) ≤ R) ∧
      (R = 0 ∨ (∃ p ∈ V1, ∀ x, MeshPoint V2 F2 x → R ≤ pnorm (x - p)) ∨ ∃ p ∈ V2, ∀ x, MeshPoint V1 F1 x → R ≤ pnorm (x - p)) := by
    intro fuel hf
    obtain ⟨R1, a1, a2, a3, a4⟩ := hdSide_spec hM2 c2 m2 (fuel := fuel) (by omega) V1 0 le_rfl
    obtain ⟨R, b1, b2, b3, b4⟩ := hdSide_spec hM1 c1 m1 (fuel := fuel) (by omega) V2 R1 a2
    refine ⟨R, ?_, a2.trans b2, ?_, b3, ?_⟩
    · unfold approximateHausdorffDistance
      rw [t1 fuel (by omega), t2 fuel (by omega)]
      simp only [Option.bind_eq_bind, Option.bind_some, a1, b1]
    · intro p hp
      obtain ⟨x, hx, h⟩ := a3 p hp
      exact ⟨x, hx, h.trans b2⟩
    · rcases b4 with rfl | b4
      · rcases a4 with a4 | a4
        · exact Or.inl a4
        · exact Or.inr (Or.inl a4)
      · exact Or.inr (Or.inr b4)
  -- two numbers with these properties agree
  have low : ∀ R R' : ℝ, 0 ≤ R' → (∀ p ∈ V1, ∃ x, MeshPoint V2 F2 x ∧ pnorm (x - p) ≤ R') →
      (∀ p ∈ V2, ∃ x, MeshPoint V1 F1 x ∧ pnorm (x - p) ≤ R') →
      (R = 0 ∨ (∃ p ∈ V1, ∀ x, MeshPoint V2 F2 x → R ≤ pnorm (x - p)) ∨ ∃ p ∈ V2, ∀ x, MeshPoint V1 F1 x → R ≤ pnorm (x - p)) → R ≤ R' := by
    rintro R R' h0 h1 h2 (rfl | ⟨p, hp, h⟩ | ⟨p, hp, h⟩)
    · exact h0
    · obtain ⟨x, hx, hx'⟩ := h1 p hp
      exact (h x hx).trans hx'
    · obtain ⟨x, hx, hx'⟩ := h2 p hp
      exact (h x hx).trans hx'
  obtain ⟨R, e, h0, h1, h2, h3⟩ := val N le_rfl
  refine ⟨R, N, ?_, h0, h1, h2, h3⟩
  intro fuel hf
  obtain ⟨R', e', h0', h1', h2', h3'⟩ := val fuel hf
  rw [e', le_antisymm (low R' R h0 h1 h2 h3') (low R R' h0' h1' h2' h3)]

/-- two plane polylines meet the hypotheses -/
example : GoodMesh ([![0, 0], ![1, 0], ![1, 2]] : List (Pt 2)) [[0, 1], [1, 2]] := by
  intro es hes
  simp only [List.mem_cons, List.not_mem_nil, or_false] at hes
  have s : ∀ x y : Pt 2, 1 ≤ psq (y - x) → GoodElem [x, y] := by
    intro x y h
    apply GoodElem.segment
    unfold pnorm
    exact le_trans (by norm_num) (Real.one_le_sqrt.mpr h)
  rcases hes with rfl | rfl
  · exact ⟨[![0, 0], ![1, 0]], rfl, s _ _ (by simp [psq])⟩
  · exact ⟨[![1, 0], ![1, 2]], rfl, s _ _ (by simp [psq])⟩

end Gpy
