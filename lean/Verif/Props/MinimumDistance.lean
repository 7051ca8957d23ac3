import Verif.Proofs.MinimumDistance
import Verif.Props.PointElement

/-! C27: `minimum_distance`. -/

set_option autoImplicit false
namespace Gpy
open Np

/-- every row of `F` names three vertices of `V`, which span a triangle whose normal `(y-x)×(z-y)` has a squared length above the threshold of
`triangle_triangle_distance` -/
def TriMeshOk (V : List (Pt 3)) (F : List (List ℕ)) : Prop :=
  ∀ f ∈ F, ∃ x y z, f.mapM (fun i => V[i]?) = some [x, y, z] ∧ 1e-15 < psq (pcross (y - x) (z - y))

theorem TriMeshOk.corners {V : List (Pt 3)} {F : List (List ℕ)} (h : TriMeshOk V F) {e : ℕ} (he : e < F.length) :
    ∃ f x y z, F[e]? = some f ∧ f.mapM (fun i => V[i]?) = some [x, y, z] ∧ 1e-15 < psq (pcross (y - x) (z - y)) ∧
      triCorners V F e = some (x, y, z) := by
  obtain ⟨x, y, z, h1, h2⟩ := h F[e] (List.getElem_mem he)
  refine ⟨F[e], x, y, z, List.getElem?_eq_getElem he, h1, h2, ?_⟩
  unfold triCorners
  rw [npGet?_natCast, List.getElem?_eq_getElem he]
  obtain ⟨i, t, e1, a1, a2⟩ := mapM_cons_inv h1
  obtain ⟨j, t, rfl, b1, b2⟩ := mapM_cons_inv a2
  obtain ⟨k, t, rfl, c1, c2⟩ := mapM_cons_inv b2
  obtain rfl := mapM_nil_inv c2
  simp [e1, a1, b1, c1]

theorem mapM_lt {V : List (Pt 3)} : ∀ (l : List ℕ) (X : List (Pt 3)), l.mapM (fun i => V[i]?) = some X → ∀ i ∈ l, i < V.length := by
  intro l
  induction l with
  | nil => simp
  | cons a t ih =>
    intro X h i hi
    cases X with
    | nil => have := mapM_nil_inv h; simp at this
    | cons x X =>
      obtain ⟨a', t', h0, h1, h2⟩ := mapM_cons_inv h
      cases h0
      rcases List.mem_cons.mp hi with rfl | hi
      · exact (List.getElem?_eq_some_iff.mp h1).1
      · exact ih X h2 i hi

theorem TriMeshOk.inRange {V : List (Pt 3)} {F : List (List ℕ)} (h : TriMeshOk V F) : ElemsInRange F V.length := by
  intro f hf
  obtain ⟨x, y, z, h1, -⟩ := h f hf
  exact mapM_lt f _ h1

theorem TriMeshOk.ne_nil {V : List (Pt 3)} {F : List (List ℕ)} (h : TriMeshOk V F) (hne : F ≠ []) : V ≠ [] := by
  obtain ⟨f, hf⟩ := List.exists_mem_of_ne_nil _ hne
  obtain ⟨x, y, z, h1, -⟩ := h f hf
  obtain ⟨i, t, -, a1, -⟩ := mapM_cons_inv h1
  rintro rfl
  simp at a1

/-- C27.  For two nonempty triangle meshes (all indices in range, all triangles above the area threshold of `triangle_triangle_distance`, any
coordinates, touching or crossing allowed) `minimum_distance` stops and returns a number `r`, which is the distance between some point of the first and
some point of the second mesh, and no point of the first is closer than `r` to any point of the second. -/
theorem C27_minimum_distance (argsort : List ℝ → List ℕ) (hA : IsArgsort argsort) (V1 V2 : List (Pt 3)) (F1 F2 : List (List ℕ))
    (hF1 : F1 ≠ []) (hF2 : F2 ≠ []) (hM1 : TriMeshOk V1 F1) (hM2 : TriMeshOk V2 F2) :
    ∃ (r : ℝ) (N : ℕ), (∀ fuel, N ≤ fuel → minimumDistance argsort V1 F1 V2 F2 fuel = some (r : WithTop ℝ)) ∧
      (∃ x y, MeshPoint V1 F1 x ∧ MeshPoint V2 F2 y ∧ r = pnorm (x - y)) ∧
      ∀ x y, MeshPoint V1 F1 x → MeshPoint V2 F2 y → r ≤ pnorm (x - y) := by
  have no : BoundsOk V1 none none := ⟨fun v h => by simp at h, fun v h => by simp at h⟩
  have no2 : BoundsOk V2 none none := ⟨fun v h => by simp at h, fun v h => by simp at h⟩
  obtain ⟨T1, t1, -, ⟨L1, c1, p1⟩, -⟩ := C24_aabbtree argsort hA V1 F1 none none (hM1.ne_nil hF1) hF1 hM1.inRange no
  obtain ⟨T2, t2, -, ⟨L2, c2, p2⟩, -⟩ := C24_aabbtree argsort hA V2 F2 none none (hM2.ne_nil hF2) hF2 hM2.inRange no2
  have m1 : ∀ e, e ∈ L1 ↔ e < F1.length := fun e => by rw [p1.mem_iff, List.mem_range]
  have m2 : ∀ e, e ∈ L2 ↔ e < F2.length := fun e => by rw [p2.mem_iff, List.mem_range]
  have exact' : ∀ x y z x' y' z' : Pt 3, 1e-15 < psq (pcross (y - x) (z - y)) → 1e-15 < psq (pcross (y' - x') (z' - y')) →
      TtExact (x, y, z) (x', y', z') (triangleTriangleDistance (x, y, z) (x', y', z')) := by
    intro x y z x' y' z' h h'
    exact triTri_exact _ _ (by rw [pdot_self]; exact h) (by rw [pdot_self]; exact h')
  have B := minDist_bnb (V1 := V1) (V2 := V2) (F1 := F1) (F2 := F2) (T1 := T1) (T2 := T2)
    (fun e he => by obtain ⟨f, x, y, z, -, -, -, h⟩ := hM1.corners he; exact ⟨_, h⟩)
    (fun e he => by obtain ⟨f, x, y, z, -, -, -, h⟩ := hM2.corners he; exact ⟨_, h⟩)
    (by
      intro n1 n2 e1 e2 l1 l2 i1 i2
      obtain ⟨f, x, y, z, a1, a2, a3, a4⟩ := hM1.corners l1
      obtain ⟨f', x', y', z', b1, b2, b3, b4⟩ := hM2.corners l2
      obtain ⟨⟨p, q, hp, hq, e⟩, -⟩ := exact' x y z x' y' z' a3 b3
      unfold pairVal
      rw [a4, b4]
      simp only
      rw [WithTop.coe_le_coe, e]
      apply boxGap_le
      · obtain ⟨w, hw, rfl⟩ := (inTri_comb x y z p).mp hp
        apply comb_inBox hw
        intro u hu
        obtain ⟨i, hi, hui⟩ := mapM_mem a2 u hu
        exact i1 f a1 i hi u hui
      · obtain ⟨w, hw, rfl⟩ := (inTri_comb x' y' z' q).mp hq
        apply comb_inBox hw
        intro u hu
        obtain ⟨i, hi, hui⟩ := mapM_mem b2 u hu
        exact i2 f' b1 i hi u hui)
  -- the value does not depend on the fuel, as soon as there is enough
  set N := max (max (2 * F1.length) (2 * F2.length)) (weight L1 * weight L2) with hN
  have run : ∀ fuel, N ≤ fuel → minimumDistance argsort V1 F1 V2 F2 fuel = minDistLoop V1 V2 F1 F2 T1 T2 fuel [(0, 0)] ⊤ := by
    intro fuel hf
    unfold minimumDistance
    rw [t1 fuel (by omega), t2 fuel (by omega)]
    rfl
  have val : ∀ fuel, N ≤ fuel → ∃ r : ℝ, minDistLoop V1 V2 F1 F2 T1 T2 fuel [(0, 0)] ⊤ = some (r : WithTop ℝ) ∧
      (∃ x y, MeshPoint V1 F1 x ∧ MeshPoint V2 F2 y ∧ r = pnorm (x - y)) ∧
      ∀ x y, MeshPoint V1 F1 x → MeshPoint V2 F2 y → r ≤ pnorm (x - y) := by
    intro fuel hf
    obtain ⟨b, b1, b2, b3, b4⟩ := B fuel [((0, L1), (0, L2))] ⊤ (by
      intro x hx
      simp only [List.mem_singleton] at hx
      subst hx
      exact ⟨⟨c1, fun e he => (m1 e).mp he⟩, ⟨c2, fun e he => (m2 e).mp he⟩⟩) (by simp; omega)
    have b4' : ∃ e1 e2, e1 < F1.length ∧ e2 < F2.length ∧ b = pairVal V1 V2 F1 F2 e1 e2 := by
      rcases b4 with rfl | b4
      · have z1 := List.length_pos_iff.mpr hF1
        have z2 := List.length_pos_iff.mpr hF2
        refine ⟨0, 0, z1, z2, ?_⟩
        exact (top_le_iff.mp (b3 _ (List.mem_singleton_self _) 0 ((m1 0).mpr z1) 0 ((m2 0).mpr z2))).symm
      · exact b4
    obtain ⟨e1, e2, l1, l2, e⟩ := b4'
    obtain ⟨f, x, y, z, a1, a2, a3, a4⟩ := hM1.corners l1
    obtain ⟨f', x', y', z', b1', b2', b3', b4''⟩ := hM2.corners l2
    have e' : b = (triangleTriangleDistance (x, y, z) (x', y', z') : WithTop ℝ) := by
      rw [e]; unfold pairVal; rw [a4, b4'']
    refine ⟨triangleTriangleDistance (x, y, z) (x', y', z'), by rw [← e']; simpa using b1, ?_, ?_⟩
    · obtain ⟨⟨p, q, hp, hq, er⟩, -⟩ := exact' x y z x' y' z' a3 b3'
      obtain ⟨w, hw, ew⟩ := (inTri_comb x y z p).mp hp
      obtain ⟨v, hv, ev⟩ := (inTri_comb x' y' z' q).mp hq
      exact ⟨p, q, ⟨f, List.mem_of_getElem? a1, _, a2, w, hw, ew⟩, ⟨f', List.mem_of_getElem? b1', _, b2', v, hv, ev⟩, by
        rw [er, psq_neg_sub]; rfl⟩
    · rintro p q ⟨g, hg, X, hX, w, hw, ew⟩ ⟨g', hg', X', hX', w', hw', ew'⟩
      obtain ⟨k, hk⟩ := List.getElem?_of_mem hg
      obtain ⟨k', hk'⟩ := List.getElem?_of_mem hg'
      have kl := (List.getElem?_eq_some_iff.mp hk).1
      have kl' := (List.getElem?_eq_some_iff.mp hk').1
      obtain ⟨f, x, y, z, a1, a2, a3, a4⟩ := hM1.corners kl
      obtain ⟨f', x', y', z', b1', b2', b3', b4''⟩ := hM2.corners kl'
      rw [hk] at a1; cases a1
      rw [hk'] at b1'; cases b1'
      rw [hX] at a2; cases a2
      rw [hX'] at b2'; cases b2'
      have := b3 _ (List.mem_singleton_self _) k ((m1 k).mpr kl) k' ((m2 k').mpr kl')
      rw [e'] at this
      unfold pairVal at this
      rw [a4, b4''] at this
      simp only at this
      rw [WithTop.coe_le_coe] at this
      refine this.trans ?_
      have := (exact' x y z x' y' z' a3 b3').2 p q ((inTri_comb _ _ _ _).mpr ⟨w, hw, ew⟩) ((inTri_comb _ _ _ _).mpr ⟨w', hw', ew'⟩)
      rw [psq_neg_sub] at this
      exact this
  obtain ⟨r, r1, r2, r3⟩ := val N le_rfl
  refine ⟨r, N, ?_, r2, r3⟩
  intro fuel hf
  obtain ⟨r', r1', ⟨x', y', mx', my', e'⟩, r3'⟩ := val fuel hf
  obtain ⟨x, y, mx, my, e⟩ := r2
  rw [run fuel hf, r1']
  congr 2
  exact le_antisymm (e ▸ r3' x y mx my) (e' ▸ r3 x' y' mx' my')

/-- two triangles meet the hypotheses -/
example : TriMeshOk [![0, 0, 0], ![1, 0, 0], ![0, 1, 0], ![0, 0, 1]] [[0, 1, 2], [1, 3, 2]] := by
  intro f hf
  simp only [List.mem_cons, List.not_mem_nil, or_false] at hf
  rcases hf with rfl | rfl
  · exact ⟨![0, 0, 0], ![1, 0, 0], ![0, 1, 0], rfl, by (simp only [psq3, pcross, Pi.sub_apply, vec0, vec1, vec2]; norm_num)⟩
  · exact ⟨![1, 0, 0], ![0, 0, 1], ![0, 1, 0], rfl, by (simp only [psq3, pcross, Pi.sub_apply, vec0, vec1, vec2]; norm_num)⟩

end Gpy
