import Verif.Proofs.Subdivide
import Verif.Spec.Convex
import Mathlib.Data.Rat.Defs
import Mathlib.Algebra.Field.Rat
import Mathlib.Algebra.BigOperators.Group.List.Basic

/-! Property C18: `subdivide(V,F,method='upsample')` of triangle meshes. -/

set_option autoImplicit false
namespace Gpy
open Np

variable {K : Type} [Field K] {d : ℕ}

/-- C18, one step.  For a consistently oriented edge-manifold mesh with indices into `V`, the step succeeds, and there is a numbering `mid`
of the edges such that
* two triangle sides get the same number iff they are the same undirected edge, the numbers are exactly `|V|, …, |Vu|-1`, and there are as many
  as there are undirected edges;
* the first `|V|` rows of `Vu` are `V`, and the row `mid e` is the midpoint of the two ends of `e`;
* `Fu` has four rows for each triangle: three at its corners and the central one, with the orientation of the triangle;
* `S` applied to a vertex function of `V` interpolates it; in particular `Vu = S V`. -/
theorem C18_upsample_step (V : List (Fin d → K)) (F : List Tri) (hne : F ≠ []) (hF : OrientedManifold F) (hr : InRange F V.length) :
    ∃ Vu Fu S he, upsampleTriangleMesh (some V) F = some (⟨some Vu, Fu, S⟩, he) ∧ ∃ mid : Edge → ℕ,
      (∀ e ∈ sides F, ∀ e' ∈ sides F, mid e = mid e' ↔ Undir e e') ∧
      (∀ k, V.length ≤ k ∧ k < Vu.length ↔ ∃ e ∈ sides F, mid e = k) ∧
      (∃ E, IsEdgeList F E ∧ Vu.length = V.length + E.length) ∧
      (∀ k < V.length, Vu[k]? = V[k]?) ∧
      (∀ e ∈ sides F, ∀ x y, V[e.s]? = some x → V[e.t]? = some y → Vu[mid e]? = some (fun c => (x c + y c) / 2)) ∧
      Fu.length = 4 * F.length ∧
      (∀ f t, F[f]? = some t →
        Fu[f]? = some ⟨t.a, mid ⟨t.a, t.b⟩, mid ⟨t.c, t.a⟩⟩ ∧
        Fu[F.length + f]? = some ⟨mid ⟨t.a, t.b⟩, t.b, mid ⟨t.b, t.c⟩⟩ ∧
        Fu[2 * F.length + f]? = some ⟨mid ⟨t.c, t.a⟩, mid ⟨t.b, t.c⟩, t.c⟩ ∧
        Fu[3 * F.length + f]? = some ⟨mid ⟨t.c, t.a⟩, mid ⟨t.a, t.b⟩, mid ⟨t.b, t.c⟩⟩) ∧
      S.nrows = Vu.length ∧ S.ncols = V.length ∧
      (∀ k < Vu.length, ∀ c : Fin d, ∃ x, Vu[k]? = some x ∧ S.mulVec (fun j => (V.getD j 0) c) k = x c) ∧
      (∀ u : ℕ → K, (∀ k < V.length, S.mulVec u k = u k) ∧ ∀ e ∈ sides F, S.mulVec u (mid e) = (u e.s + u e.t) / 2) := by
  obtain ⟨N, S, hN, hS, hup⟩ := upsample_eq hne hF hr
  have hE : ∀ e ∈ EL F, e.s < V.length ∧ e.t < V.length := fun e he => sub_side_lt hr (mem_EL_side he)
  obtain ⟨N', hN', hl, hg⟩ := midpoints_eq V (EL F) hE
  rw [hN] at hN'
  cases hN'
  have hend : ∀ (x : Edge) (e : Edge), Undir x e → ∀ u : ℕ → K, u x.s + u x.t = u e.s + u e.t := by
    intro x e hu u
    rcases undir_ends hu with ⟨h1, h2⟩ | ⟨h1, h2⟩
    · rw [h1, h2]
    · rw [h1, h2, add_comm]
  have hmul : ∀ u : ℕ → K, (∀ k < V.length, S.mulVec u k = u k) ∧ ∀ e ∈ sides F, S.mulVec u (V.length + eidx F e) = (u e.s + u e.t) / 2 := by
    intro u
    obtain ⟨-, -, h3, h4⟩ := upMatrix_mulVec hE hS u
    refine ⟨h3, fun e he => ?_⟩
    obtain ⟨x, hx, hu⟩ := eidx_get he
    rw [h4 _ _ hx, hend x e hu u]; ring
  have hvmid : ∀ e ∈ sides F, ∀ x y, V[e.s]? = some x → V[e.t]? = some y →
      (V ++ N)[V.length + eidx F e]? = some (fun c => (x c + y c) / 2) := by
    intro e he x y hx hy
    obtain ⟨e', he', hu⟩ := eidx_get he
    rw [List.getElem?_append_right (by omega), show V.length + eidx F e - V.length = eidx F e by omega]
    rcases undir_ends hu with ⟨h1, h2⟩ | ⟨h1, h2⟩
    · rw [hg _ _ x y he' (h1 ▸ hx) (h2 ▸ hy)]
      congr 1; funext c; ring
    · rw [hg _ _ y x he' (h2 ▸ hy) (h1 ▸ hx)]
      congr 1; funext c; ring
  have hdim := upMatrix_mulVec hE hS (fun _ => 0)
  have hmidk : ∀ k, V.length ≤ k ∧ k < (V ++ N).length ↔ ∃ e ∈ sides F, V.length + eidx F e = k := by
    intro k
    rw [List.length_append, hl]
    constructor
    · rintro ⟨h1, h2⟩
      have hlt : k - V.length < (EL F).length := by omega
      have hget : (EL F)[k - V.length]? = some (EL F)[k - V.length] := List.getElem?_eq_getElem hlt
      have hm : (EL F)[k - V.length] ∈ sides F := mem_EL_side (List.getElem_mem hlt)
      refine ⟨_, hm, ?_⟩
      obtain ⟨x, hx, hu⟩ := eidx_get hm
      have := EL_unique hx hget hu
      omega
    · rintro ⟨e, he, rfl⟩
      obtain ⟨x, hx, -⟩ := eidx_get he
      have := (List.getElem?_eq_some_iff.mp hx).1
      omega
  refine ⟨V ++ N, _, S, _, hup, fun e => V.length + eidx F e, (midOk hr).inj, hmidk, ⟨EL F, ⟨EL_pairwise F, ?_⟩, by rw [List.length_append, hl]⟩,
    ?_, hvmid, length_splitT _ F, ?_, by rw [hdim.1, List.length_append, hl], hdim.2.1, ?_, hmul⟩
  · intro e
    constructor
    · rintro ⟨e', h1, h2⟩; exact ⟨e', mem_EL_side h1, h2⟩
    · rintro ⟨e', h1, h2⟩
      obtain ⟨x, hx, hu⟩ := exists_EL h1
      exact ⟨x, hx, undir_trans hu h2⟩
  · intro k hk
    exact List.getElem?_append_left hk
  · intro f t hf
    have h0 := splitT_get (fun e => V.length + eidx F e) hf 0
    have h1 := splitT_get (fun e => V.length + eidx F e) hf 1
    rw [show ((0 : Fin 4).val) * F.length + f = f by simp] at h0
    rw [show ((1 : Fin 4).val) * F.length + f = F.length + f by simp] at h1
    exact ⟨h0, h1, splitT_get _ hf 2, splitT_get _ hf 3⟩
  · intro k hk c
    by_cases h : k < V.length
    · refine ⟨V[k], by rw [List.getElem?_append_left h, List.getElem?_eq_getElem h], ?_⟩
      rw [(hmul _).1 k h]
      simp [List.getD, List.getElem?_eq_getElem h]
    · obtain ⟨e, he, rfl⟩ := (hmidk k).mp ⟨by omega, hk⟩
      have hlt := sub_side_lt hr he
      refine ⟨_, hvmid e he _ _ (List.getElem?_eq_getElem hlt.1) (List.getElem?_eq_getElem hlt.2), ?_⟩
      rw [(hmul _).2 e he]
      simp [List.getD, List.getElem?_eq_getElem hlt.1, List.getElem?_eq_getElem hlt.2]

/-- two triangles in the plane that share an edge: nine vertices, eight triangles -/
example : ((upsampleTriangleMesh (K := ℚ) (d := 2) (some [![0, 0], ![4, 0], ![0, 4], ![4, 4]]) [⟨0, 1, 2⟩, ⟨2, 1, 3⟩]).bind (fun q => q.1.Vu.map
    (fun Vu => (Vu.length, q.1.Fu)))) = some (9, [⟨0, 4, 5⟩, ⟨2, 8, 7⟩, ⟨4, 1, 8⟩, ⟨8, 1, 6⟩, ⟨5, 8, 2⟩, ⟨7, 6, 3⟩, ⟨5, 4, 8⟩, ⟨7, 8, 6⟩]) := by
  decide +kernel
example : OrientedManifold [⟨0, 1, 2⟩, ⟨2, 1, 3⟩] ∧ InRange [⟨0, 1, 2⟩, ⟨2, 1, 3⟩] 4 := by decide

/-- position of vertex `i` -/
def vpos (V : List (Fin d → K)) (i : ℕ) : Fin d → K := V.getD i 0

/-- twice the oriented area (bivector) of a triangle of the mesh; for `d = 3` its three independent entries are the entries of twice the area
vector, for `d = 2` the only one is twice the signed area -/
def biv (V : List (Fin d → K)) (t : Tri) : Fin d → Fin d → K := wedge (vpos V t.a) (vpos V t.b) (vpos V t.c)

theorem vpos_of_get {V : List (Fin d → K)} {i : ℕ} {x : Fin d → K} (h : V[i]? = some x) : vpos V i = x := by
  unfold vpos; rw [List.getD, h]; rfl

/-- the step in the form used for the iteration -/
theorem upsample_step_aux (h2 : (2 : K) ≠ 0) (V : List (Fin d → K)) (F : List Tri) (hne : F ≠ []) (hF : OrientedManifold F)
    (hr : InRange F V.length) (hT : NoTwin F) :
    ∃ Vu Fu S he, upsampleTriangleMesh (some V) F = some (⟨some Vu, Fu, S⟩, he) ∧
      Fu.length = 4 * F.length ∧ OrientedManifold Fu ∧ NoTwin Fu ∧ InRange Fu Vu.length ∧ V.length ≤ Vu.length ∧
      (∀ k < V.length, Vu[k]? = V[k]?) ∧ S.ncols = V.length ∧
      (∀ k < Vu.length, ∀ c : Fin d, S.mulVec (fun j => vpos V j c) k = vpos Vu k c) ∧
      Fu.map (fun u p q => 4 * biv Vu u p q) = F.map (biv V) ++ F.map (biv V) ++ F.map (biv V) ++ F.map (biv V) := by
  obtain ⟨Vu, Fu, S, he, hup, mid, hinj, hk, ⟨E, -, hEl⟩, hold, hmid, hlen, -, -, hnc, hSV, -⟩ := C18_upsample_step V F hne hF hr
  obtain ⟨N, S', hN, hS, hup'⟩ := upsample_eq hne hF hr
  rw [hup] at hup'
  injection hup' with hup'
  injection hup' with hup' h3
  have hVu : Vu = V ++ N := by injection hup' with h; injection h
  have hFu : Fu = splitT (fun e => V.length + eidx F e) F := by injection hup'
  have hm := midOk (F := F) hr
  have hE : ∀ e ∈ EL F, e.s < V.length ∧ e.t < V.length := fun e he => sub_side_lt hr (mem_EL_side he)
  obtain ⟨N', hN', hl, hg⟩ := midpoints_eq V (EL F) hE
  rw [hN] at hN'
  cases hN'
  have hmidlt : ∀ e ∈ sides F, V.length + eidx F e < Vu.length := by
    intro e he
    obtain ⟨x, hx, -⟩ := eidx_get he
    have := (List.getElem?_eq_some_iff.mp hx).1
    rw [hVu, List.length_append, hl]; omega
  have hpm : ∀ e ∈ sides F, ∀ c, vpos Vu (V.length + eidx F e) c = (vpos V e.s c + vpos V e.t c) / 2 := by
    intro e he c
    obtain ⟨e', he', hu⟩ := eidx_get he
    have hlt := sub_side_lt hr he
    have hget : ∀ x y, V[e'.s]? = some x → V[e'.t]? = some y → vpos Vu (V.length + eidx F e) = (fun c => (1 / 2) * (x c + y c)) := by
      intro x y hx hy
      apply vpos_of_get
      rw [hVu, List.getElem?_append_right (by omega), show V.length + eidx F e - V.length = eidx F e by omega]
      exact hg _ _ x y he' hx hy
    have hv : ∀ i < V.length, V[i]? = some (vpos V i) := by
      intro i hi; unfold vpos; rw [List.getD, List.getElem?_eq_getElem hi]; rfl
    rcases undir_ends hu with ⟨h1, h2⟩ | ⟨h1, h2⟩
    · rw [hget (vpos V e.s) (vpos V e.t) (by rw [← h1]; exact hv _ hlt.1) (by rw [← h2]; exact hv _ hlt.2)]; ring
    · rw [hget (vpos V e.t) (vpos V e.s) (by rw [← h2]; exact hv _ hlt.2) (by rw [← h1]; exact hv _ hlt.1)]; ring
  have hpo : ∀ i < V.length, vpos Vu i = vpos V i := by
    intro i hi; unfold vpos; rw [List.getD, List.getD, hold i hi]
  refine ⟨Vu, Fu, S, he, hup, hlen, hFu ▸ split_manifold hF hm hT, hFu ▸ split_noTwin hF hm hT, ?_, by omega, hold, hnc, ?_, ?_⟩
  · intro u hu
    rw [hFu] at hu
    obtain ⟨t, ht, b, rfl⟩ := mem_splitT.mp hu
    have h0 := hmidlt _ (side_mem_of ht 0)
    have h1 := hmidlt _ (side_mem_of ht 1)
    have h2 := hmidlt _ (side_mem_of ht 2)
    have := hr t ht
    fin_cases b <;> simp only [childT] <;> omega
  · intro k hk c
    obtain ⟨x, hx, h⟩ := hSV k hk c
    rw [vpos_of_get hx, ← h]
    rfl
  · have hchild : ∀ t ∈ F, ∀ b, (fun p q => 4 * biv Vu (childT (fun e => V.length + eidx F e) t b) p q) = biv V t := by
      intro t ht b
      have h0 := hpm _ (side_mem_of ht 0)
      have h1 := hpm _ (side_mem_of ht 1)
      have h2' := hpm _ (side_mem_of ht 2)
      have hra := hpo t.a (hr t ht).1
      have hrb := hpo t.b (hr t ht).2.1
      have hrc := hpo t.c (hr t ht).2.2
      funext p q
      simp only [Tri.side] at h0 h1 h2'
      fin_cases b <;> simp only [childT, biv, wedge, Tri.side, h0, h1, h2', hra, hrb, hrc] <;> field_simp <;> ring
    rw [hFu]
    unfold splitT
    simp only [List.map_append, List.map_map]
    congr 1
    · congr 1
      · congr 1
        · exact List.map_congr_left (fun t ht => hchild t ht 0)
        · exact List.map_congr_left (fun t ht => hchild t ht 1)
      · exact List.map_congr_left (fun t ht => hchild t ht 2)
    · exact List.map_congr_left (fun t ht => hchild t ht 3)

/-- C18, any number of steps.  For a consistently oriented edge-manifold mesh with no two triangles on the same three vertices, `iters=k` steps
succeed, and
* there are `4^k` times as many triangles; the new mesh again is a consistently oriented edge-manifold mesh with no two triangles on the same
  vertices, and its indices are valid;
* the first rows of `Vu` are `V`, and `Vu = S V` for the returned matrix;
* triangle `i` of the output has exactly `1/4^k` of the oriented area of triangle `i mod |F|` of the input (so the same normal). -/
theorem C18_upsample_iterate (h2 : (2 : K) ≠ 0) (V : List (Fin d → K)) (F : List Tri) (hne : F ≠ []) (hF : OrientedManifold F)
    (hr : InRange F V.length) (hT : NoTwin F) (k : ℕ) :
    ∃ Vu Fu S, subdivideUpsample k V F = some (Vu, Fu, S) ∧
      Fu.length = 4 ^ k * F.length ∧ OrientedManifold Fu ∧ NoTwin Fu ∧ InRange Fu Vu.length ∧
      V.length ≤ Vu.length ∧ (∀ i < V.length, Vu[i]? = V[i]?) ∧
      (∀ i < Vu.length, ∀ c : Fin d, vpos Vu i c = ∑ j ∈ Finset.range V.length, S i j * vpos V j c) ∧
      Fu.map (fun u p q => 4 ^ k * biv Vu u p q) = (List.replicate (4 ^ k) (F.map (biv V))).flatten := by
  induction k with
  | zero =>
    refine ⟨V, F, _, rfl, by simp, hF, hT, hr, le_refl _, fun i _ => rfl, ?_, ?_⟩
    · intro i hi c
      rw [Finset.sum_eq_single i]
      · simp [hi]
      · intro b _ hb; rw [if_neg (fun h => hb h.1.symm)]; simp
      · intro h; exact absurd (Finset.mem_range.mpr hi) h
    · simp
  | succ k ih =>
    obtain ⟨V1, F1, S1, h1, hl1, hF1, hT1, hr1, hle1, hold1, hS1, hb1⟩ := ih
    have hne1 : F1 ≠ [] := by
      intro h
      rw [h, List.length_nil] at hl1
      have := List.length_pos_iff.mpr hne
      have : 0 < 4 ^ k * F.length := Nat.mul_pos (by positivity) this
      omega
    obtain ⟨Vu, Fu, S, he, hup, hl, hFu, hTu, hru, hle, hold, hnc, hS, hb⟩ := upsample_step_aux h2 V1 F1 hne1 hF1 hr1 hT1
    refine ⟨Vu, Fu, fun i j => ∑ l ∈ Finset.range S.ncols, S.get i l * S1 l j, ?_, ?_, hFu, hTu, hru, by omega, ?_, ?_, ?_⟩
    · rw [subdivideUpsample, h1, Option.bind_some]
      simp only
      rw [hup]
      rfl
    · rw [hl, hl1, pow_succ]; ring
    · intro i hi
      rw [hold i (by omega), hold1 i hi]
    · intro i hi c
      rw [← hS i hi c]
      unfold Csr.mulVec
      rw [hnc]
      simp only [Finset.sum_mul]
      rw [Finset.sum_comm]
      apply Finset.sum_congr rfl
      intro l hl
      rw [hS1 l (Finset.mem_range.mp hl) c, Finset.mul_sum]
      apply Finset.sum_congr rfl
      intro j _
      ring
    · have hstep : Fu.map (fun u p q => (4 : K) ^ (k + 1) * biv Vu u p q)
          = (Fu.map (fun u p q => 4 * biv Vu u p q)).map (fun (B : Fin d → Fin d → K) p q => 4 ^ k * B p q) := by
        rw [List.map_map]
        apply List.map_congr_left
        intro u _
        funext p q
        simp only [Function.comp]
        ring
      rw [hstep, hb]
      have hF1b : (F1.map (biv V1)).map (fun (B : Fin d → Fin d → K) p q => 4 ^ k * B p q) = (List.replicate (4 ^ k) (F.map (biv V))).flatten := by
        rw [List.map_map, ← hb1]; rfl
      simp only [List.map_append, hF1b]
      rw [show 4 ^ (k + 1) = 4 ^ k + 4 ^ k + 4 ^ k + 4 ^ k by ring]
      simp only [List.replicate_add, List.flatten_append]

example : NoTwin [⟨0, 1, 2⟩, ⟨2, 1, 3⟩] := by
  unfold NoTwin SameCorners
  simp only [List.pairwise_cons, List.mem_cons, List.not_mem_nil, or_false, forall_eq, false_implies, implies_true, List.Pairwise.nil, and_true]
  intro h
  have := h 0
  omega

/-- The hypothesis on triangles with the same vertices cannot be dropped: a triangle glued to its reverse (a "pillow") is an oriented
manifold mesh, but its midpoints are shared by both, so that after one step each side of the two central triangles has four triangles. -/
theorem C18_pillow_counterexample : OrientedManifold [⟨0, 1, 2⟩, ⟨1, 0, 2⟩] ∧
    ∃ Fu, (upsampleTriangleMesh (K := ℚ) (d := 2) (some [![0, 0], ![4, 0], ![0, 4]]) [⟨0, 1, 2⟩, ⟨1, 0, 2⟩]).map (fun q => q.1.Fu) = some Fu ∧
      ¬ OrientedManifold Fu := by
  refine ⟨by decide, [⟨0, 3, 4⟩, ⟨1, 3, 5⟩, ⟨3, 1, 5⟩, ⟨3, 0, 4⟩, ⟨4, 5, 2⟩, ⟨5, 4, 2⟩, ⟨4, 3, 5⟩, ⟨5, 3, 4⟩], by decide +kernel, by decide +kernel⟩

/-! Total area (real coordinates). -/

theorem gram_eq_wedge (x y z : Pt d) : gram x y z = (∑ p, ∑ q, wedge x y z p q ^ 2) / 2 := by
  unfold gram pdot wedge
  have h : ∀ (a b : Fin d → ℝ), (∑ p, ∑ q, (a p * b q - a q * b p) ^ 2)
      = 2 * ((∑ i, a i * a i) * (∑ i, b i * b i) - (∑ i, a i * b i) * (∑ i, a i * b i)) := by
    intro a b
    have e : ∀ p q, (a p * b q - a q * b p) ^ 2 = (a p * a p) * (b q * b q) + (b p * b p) * (a q * a q) - 2 * ((a p * b p) * (a q * b q)) := by
      intro p q; ring
    simp only [e, Finset.sum_sub_distrib, Finset.sum_add_distrib, ← Finset.mul_sum, ← Finset.sum_mul]
    ring
  have := h (y - x) (z - x)
  simp only [Pi.sub_apply] at this ⊢
  rw [this]; ring

/-- area of a triangle of the mesh -/
noncomputable def meshArea (V : List (Pt d)) (t : Tri) : ℝ := Real.sqrt (gram (vpos V t.a) (vpos V t.b) (vpos V t.c)) / 2

/-- C18: upsampling preserves the total area. -/
theorem C18_upsample_total_area (V : List (Pt d)) (F : List Tri) (hne : F ≠ []) (hF : OrientedManifold F)
    (hr : InRange F V.length) (hT : NoTwin F) (k : ℕ) :
    ∃ Vu Fu S, subdivideUpsample k V F = some (Vu, Fu, S) ∧ (Fu.map (meshArea Vu)).sum = (F.map (meshArea V)).sum := by
  obtain ⟨Vu, Fu, S, h, -, -, -, -, -, -, -, hb⟩ := C18_upsample_iterate (by norm_num) V F hne hF hr hT k
  refine ⟨Vu, Fu, S, h, ?_⟩
  let A : (Fin d → Fin d → ℝ) → ℝ := fun B => Real.sqrt ((∑ p, ∑ q, B p q ^ 2) / 2) / 2
  have hA : ∀ (W : List (Pt d)) (t : Tri), meshArea W t = A (biv W t) := by
    intro W t; unfold meshArea; rw [gram_eq_wedge]; rfl
  have hs : ∀ B : Fin d → Fin d → ℝ, A (fun p q => 4 ^ k * B p q) = 4 ^ k * A B := by
    intro B
    show Real.sqrt _ / 2 = _ * (Real.sqrt _ / 2)
    simp only [mul_pow, ← Finset.mul_sum]
    rw [mul_div_assoc, Real.sqrt_mul (by positivity), Real.sqrt_sq (by positivity)]
    ring
  have h4 : (4 : ℝ) ^ k ≠ 0 := by positivity
  have e1 : 4 ^ k * (Fu.map (meshArea Vu)).sum = ((Fu.map (fun u p q => 4 ^ k * biv Vu u p q)).map A).sum := by
    rw [List.map_map, ← List.sum_map_mul_left]
    congr 1
    apply List.map_congr_left
    intro u _
    rw [hA]
    exact (hs _).symm
  have e2 : (((List.replicate (4 ^ k) (F.map (biv V))).flatten).map A).sum = 4 ^ k * (F.map (meshArea V)).sum := by
    have : F.map (meshArea V) = (F.map (biv V)).map A := by
      rw [List.map_map]; exact List.map_congr_left (fun t _ => hA V t)
    rw [this]
    generalize F.map (biv V) = L
    have : ∀ m : ℕ, ((List.replicate m L).flatten.map A).sum = m * (L.map A).sum := by
      intro m
      induction m with
      | zero => simp
      | succ m ih => rw [List.replicate_succ, List.flatten_cons, List.map_append, List.sum_append, ih]; push_cast; ring
    rw [this]; push_cast; rfl
  rw [hb, e2] at e1
  exact mul_left_cancel₀ h4 e1

end Gpy
