import Verif.Model.Extrinsic
import Verif.Props.Extrinsic
import Verif.Props.Edges
import Verif.Props.Laplacian

/-! C86, C87: areas from positions; signed areas of planar meshes. -/

set_option autoImplicit false
namespace Gpy
open Np Finset

theorem doublearea_eq {V : List (V3 ℝ)} {F : List Tri} (hne : F ≠ []) (hF : InRange F V.length) : doublearea V F = some (F.map (fun t => 2 * triArea V t)) := by
  unfold doublearea
  rw [hls_some hne hF]
  simp only [Option.bind_eq_bind, Option.bind_some]
  unfold doubleareaIntrinsic
  rw [if_pos]
  · rw [List.map_map]
    congr 1
    apply List.map_congr_left
    intro t _
    simp only [Function.comp, dblArea_lens, cross_cyc, triArea, V3.norm]
    ring
  · refine ⟨by simp, ?_⟩
    intro r hr
    obtain ⟨t, _, rfl⟩ := List.mem_map.mp hr
    exact ⟨V3.normSq_nonneg _, V3.normSq_nonneg _, V3.normSq_nonneg _⟩

/-- **C86** `doublearea` gives twice the area of every triangle (half the length of the cross product of two sides), degenerate ones included. -/
theorem C86_doublearea {V : List (V3 ℝ)} {F : List Tri} (hne : F ≠ []) (hF : InRange F V.length) : doublearea V F = some (F.map (fun t => 2 * triArea V t)) :=
  doublearea_eq hne hF

/-- **C86** for a mesh of triangles of positive area: `dec_h2` is the diagonal matrix of the areas, `dec_h2inv` of their inverses, and the entries of each mass matrix (and of `dec_h0`) add up to the total area. -/
theorem C86_areas {V : List (V3 ℝ)} {F : List Tri} (hne : F ≠ []) (hF : InRange F V.length) (hA : ∀ t ∈ F, PosArea V t) :
    decH2 V F = some (Csr.diags (F.map (triArea V))) ∧ decH2Inv V F = some (Csr.diags (F.map (fun t => 1 / triArea V t))) ∧
    (∀ type, ∃ M, massmatrix V F type = some M ∧ M.nrows = V.length ∧ M.ncols = V.length ∧
      ∑ i ∈ range M.nrows, ∑ j ∈ range M.ncols, M.get i j = (F.map (triArea V)).sum) ∧
    ∃ M, decH0 V F = some M ∧ M.nrows = V.length ∧ M.ncols = V.length ∧ ∀ i j, M.get i j =
      if i = j then (F.map (fun t => triArea V t / 3 * (([t.a, t.b, t.c].count i : ℕ) : ℝ))).sum else 0 := by
  set lsq := F.map (fun t => lens (V.getD t.a 0) (V.getD t.b 0) (V.getD t.c 0)) with hlsq
  have hl : LsqNonDeg lsq F := by
    refine ⟨by simp [hlsq], ?_⟩
    intro r hr
    obtain ⟨t, ht, rfl⟩ := List.mem_map.mp hr
    exact nonDeg_lens (posArea_normSq (hA t ht))
  have hd : lsq.map dblArea = F.map (fun t => 2 * triArea V t) := by
    rw [hlsq, List.map_map]
    apply List.map_congr_left
    intro t _
    simp only [Function.comp, dblArea_lens, cross_cyc, triArea, V3.norm]
    ring
  have hpos : ∀ t ∈ F, 0 < triArea V t := by
    intro t ht
    have := posArea_normSq (hA t ht)
    rw [cross_cyc] at this
    unfold triArea
    have := Real.sqrt_pos.mpr this
    linarith
  have h2 : (F.map (fun t => 2 * triArea V t)).map (fun x => 0.5 * x) = F.map (triArea V) := by
    rw [List.map_map]
    apply List.map_congr_left
    intro t _
    simp only [Function.comp]; ring
  refine ⟨?_, ?_, fun type => ?_, ?_⟩
  · unfold decH2
    rw [hls_some hne hF]
    simp only [Option.bind_eq_bind, Option.bind_some, ← hlsq]
    unfold decH2Intrinsic
    rw [dbl_some hl, hd]
    simp only [Option.bind_eq_bind, Option.bind_some]
    rw [h2]
  · unfold decH2Inv
    rw [hls_some hne hF]
    simp only [Option.bind_eq_bind, Option.bind_some, ← hlsq]
    unfold decH2InvIntrinsic
    rw [dbl_some hl, hd]
    simp only [Option.bind_eq_bind, Option.bind_some]
    rw [h2, if_pos, List.map_map]
    · rfl
    · intro x hx
      obtain ⟨t, ht, rfl⟩ := List.mem_map.mp hx
      exact (hpos t ht).ne'
  · obtain ⟨M, e, hsq, hn, _, hs, _⟩ := C12_massmatrix lsq F (some V.length) type hne (fun k hk => by rw [← Option.some.inj hk]; exact hF) hl
    refine ⟨M, ?_, hn _ rfl, ?_, ?_⟩
    · unfold massmatrix
      rw [hls_some hne hF]
      exact e
    · rw [← hsq, hn _ rfl]
    · rw [hs, hlsq, List.map_map]
      congr 1
      apply List.map_congr_left
      intro t _
      simp only [Function.comp, heron_lens, cross_cyc, triArea]
      rw [show (4 : ℝ) = 2 ^ 2 by norm_num, Real.sqrt_mul (by norm_num), Real.sqrt_sq (by norm_num)]
      ring
  · have e := h0_eq (lsq := lsq) (n := some V.length) rfl hF hl
    refine ⟨_, by unfold decH0; rw [hls_some hne hF]; exact e, rfl, rfl, fun i j => ?_⟩
    split_ifs with hij
    · subst hij
      rw [corn_get]
      have hz : F.zip (lsq.map h0Row) =
          F.map (fun t => (t, ⟨triArea V t / 3, triArea V t / 3, triArea V t / 3⟩)) := by
        rw [hlsq, List.map_map]
        apply List.ext_getElem
        · simp
        · intro i _ _
          simp only [List.getElem_zip, List.getElem_map, Function.comp, h0Row, dblArea_lens, cross_cyc, triArea, V3.norm, Prod.mk.injEq, true_and, Row3.mk.injEq]
          refine ⟨?_, ?_, ?_⟩ <;> ring
      rw [hz, List.map_map]
      congr 1
      apply List.map_congr_left
      intro t _
      simp only [Function.comp, ind, List.count_cons, List.count_nil, beq_iff_eq]
      push_cast
      split_ifs <;> ring
    · exact get_offdiag _ corn_diag hij

/-- Specification: the wedge `x_s y_t - x_t y_s` of a directed edge (the shoelace term). -/
def shoelace (V : List (Pt 2)) (e : Edge) : ℝ := V.getD e.s 0 0 * V.getD e.t 0 1 - V.getD e.t 0 0 * V.getD e.s 0 1

theorem doubleareaSigned_eq {V : List (Pt 2)} {F : List Tri} (hF : InRange F V.length) :
    doubleareaSigned V F = some (F.map (fun t => signedDblArea (V.getD t.a 0) (V.getD t.b 0) (V.getD t.c 0))) := by
  unfold doubleareaSigned
  have hg : ∀ i, i < V.length → V[i]? = some (V.getD i 0) := fun i hi => by
    rw [List.getD_eq_getElem?_getD, List.getElem?_eq_getElem hi]; rfl
  induction F with
  | nil => rfl
  | cons t F ih =>
    obtain ⟨h1, h2, h3⟩ := hF t (by simp)
    rw [List.mapM_cons, ih (fun x hx => hF x (by simp [hx])), hg _ h1, hg _ h2, hg _ h3]
    rfl

/-- **C87** the signed double area of a planar triangle: its absolute value is the unsigned one (the length of the cross product in space), it is positive for counterclockwise corners (the third corner lies to the left
of the directed line through the other two), it changes sign when two corners are exchanged and is unchanged by rotating them. -/
theorem C87_signed (a b c : Pt 2) :
    |signedDblArea a b c| = Real.sqrt (V3.normSq (V3.cross ((⟨b 0, b 1, 0⟩ : V3 ℝ) - ⟨a 0, a 1, 0⟩) ((⟨c 0, c 1, 0⟩ : V3 ℝ) - ⟨a 0, a 1, 0⟩))) ∧
    signedDblArea a b c = (b 0 - a 0) * (c 1 - a 1) - (b 1 - a 1) * (c 0 - a 0) ∧
    signedDblArea b a c = -signedDblArea a b c ∧ signedDblArea b c a = signedDblArea a b c := by
  have h2 : signedDblArea a b c = (b 0 - a 0) * (c 1 - a 1) - (b 1 - a 1) * (c 0 - a 0) := by
    simp only [signedDblArea, Pi.sub_apply]; ring
  refine ⟨?_, h2, ?_, ?_⟩
  · rw [← Real.sqrt_sq_eq_abs, h2]
    congr 1
    simp only [V3.normSq, V3.dot, V3.cross, V3.sub_x, V3.sub_y, V3.sub_z]
    ring
  · simp only [signedDblArea, Pi.sub_apply]; ring
  · simp only [signedDblArea, Pi.sub_apply]; ring

theorem incid_once_iff {F : List Tri} (h : OrientedManifold F) {e : Edge} (he : e ∈ sides F) : incid F e = 1 ↔ e.flip ∉ sides F := by
  have hne : e.flip ≠ e := by
    unfold sides at he
    obtain ⟨t, ht, het⟩ := List.mem_flatMap.mp he
    obtain ⟨h1, h2, h3⟩ := h.2 t ht
    simp only [List.mem_cons, List.not_mem_nil, or_false] at het
    intro hf
    have : e.t = e.s := congrArg Edge.s hf
    rcases het with rfl | rfl | rfl <;> simp only [Tri.side] at this <;> omega
  unfold incid
  have hc : ((sides F).filter (fun h => Undir e h)).length = (sides F).count e + (sides F).count e.flip := by
    generalize sides F = l
    induction l with
    | nil => rfl
    | cons x l ih =>
      rw [List.filter_cons, List.count_cons, List.count_cons]
      by_cases h1 : x = e
      · subst h1
        have h2 : ¬ (x == x.flip) = true := by rw [beq_iff_eq]; exact fun h => hne h.symm
        rw [if_pos (by simp [Undir]), List.length_cons, ih, if_pos (by simp), if_neg h2]
        omega
      · by_cases h2 : x = e.flip
        · rw [if_pos (by simp [Undir, h2]), List.length_cons, ih, if_neg (by simpa using h1), if_pos (by simpa using h2)]
          omega
        · rw [if_neg (by simp [Undir, h1, h2]), ih, if_neg (by simpa using h1), if_neg (by simpa using h2)]
          omega
  rw [hc, List.count_eq_one_of_mem h.1 he, ← List.count_eq_zero]
  omega

/-- **C87** the signed double areas of a consistently oriented planar mesh add up to the shoelace sum over its boundary edges: they measure the region, whatever the triangulation of its inside. -/
theorem C87_total {V : List (Pt 2)} {F : List Tri} (hne : F ≠ []) (hF : InRange F V.length) (hm : OrientedManifold F) :
    ∃ A B, doubleareaSigned V F = some A ∧ boundaryEdges F = some B ∧ A.length = F.length ∧ A.sum = (B.map (shoelace V)).sum := by
  obtain ⟨B, eB, hnd, hB⟩ := C04_boundary_edges F hne
  refine ⟨_, B, doubleareaSigned_eq hF, eB, by simp, ?_⟩
  have h1 : (F.map (fun t => signedDblArea (V.getD t.a 0) (V.getD t.b 0) (V.getD t.c 0))).sum = ((sides F).map (shoelace V)).sum := by
    unfold sides
    clear hne hF hm eB hB
    induction F with
    | nil => rfl
    | cons t F ih =>
      rw [List.map_cons, List.sum_cons, ih, List.flatMap_cons, List.map_append, List.sum_append]
      congr 1
      simp only [List.map_cons, List.map_nil, List.sum_cons, List.sum_nil, shoelace, Tri.side, signedDblArea, Pi.sub_apply]
      ring
  rw [h1, ← List.sum_toFinset _ hm.1, ← List.sum_toFinset _ hnd]
  have hsub : B.toFinset = (sides F).toFinset.filter (fun e => e.flip ∉ sides F) := by
    ext e
    rw [List.mem_toFinset, hB, Finset.mem_filter, List.mem_toFinset]
    exact and_congr_right (fun he => incid_once_iff hm he)
  rw [hsub, ← Finset.sum_filter_add_sum_filter_not (sides F).toFinset (fun e => e.flip ∉ sides F)]
  have hflip : ∀ e : Edge, shoelace V e.flip = -shoelace V e := by
    intro e; simp only [shoelace, Edge.flip]; ring
  have hz : ∑ e ∈ (sides F).toFinset.filter (fun e => ¬ e.flip ∉ sides F), shoelace V e = 0 := by
    apply Finset.sum_involution (fun e _ => e.flip)
    · intro e _; rw [hflip]; ring
    · intro e _ hne hf
      have := hflip e
      rw [hf] at this
      exact hne (by linarith)
    · intro e he; rfl
    · intro e he
      rw [Finset.mem_filter, List.mem_toFinset, not_not] at he ⊢
      exact ⟨he.2, he.1⟩
  rw [hz, add_zero]

/-- a square of two triangles: the signed double areas add up to twice its area -/
example : let V : List (Pt 2) := [![0, 0], ![1, 0], ![1, 1], ![0, 1]]
    let F : List Tri := [⟨0, 1, 2⟩, ⟨0, 2, 3⟩]
    InRange F V.length ∧ OrientedManifold F ∧ (F.map (fun t => signedDblArea (V.getD t.a 0) (V.getD t.b 0) (V.getD t.c 0))).sum = 2 := by
  refine ⟨by simp [InRange], by decide, ?_⟩
  norm_num [signedDblArea]

end Gpy
