import Verif.Proofs.Laplacian

namespace Gpy
open Np Finset

theorem cot_length {lsq : List (Row3 ℝ)} {F : List Tri} {C : List (Row3 ℝ)}
    (hC : cotangentWeightsIntrinsic lsq F = some C) : C.length = F.length := by
  unfold cotangentWeightsIntrinsic at hC
  split at hC
  · next h => cases hC; simpa using h.1.1
  · cases hC

theorem get2_halfedge {F : List Tri} {C : List (Row3 ℝ)} (hl : C.length = F.length) {f : ℕ} (hf : f < F.length) (i : Fin 3) :
    get2 C ((f : Int), (i.val : Int)) = some ((C[f]'(hl ▸ hf)).get i) := by
  unfold get2
  simp only [npGet?_natCast, List.getElem?_eq_getElem (hl ▸ hf : f < C.length), Option.bind_eq_bind, Option.bind_some]
  match i with
  | 0 => rfl
  | 1 => rfl
  | 2 => rfl

/-- cotangent weight at an index pair -/
noncomputable def cw (C : List (Row3 ℝ)) (q : Int × Int) : ℝ := (get2 C q).getD 0

theorem get2_cw {F : List Tri} {C : List (Row3 ℝ)} (hl : C.length = F.length) {q : Int × Int} {e : Edge} (h : HalfedgeAt F q e) :
    get2 C q = some (cw C q) := by
  obtain ⟨f, t, i, rfl, hf, _⟩ := h
  have := get2_halfedge hl (List.getElem?_eq_some_iff.mp hf).1 i
  unfold cw; rw [this]; rfl

theorem h1Diag_eq {lsq : List (Row3 ℝ)} {F : List Tri} {C : List (Row3 ℝ)} (hne : F ≠ []) (hF : OrientedManifold F)
    (hC : cotangentWeightsIntrinsic lsq F = some C) :
    h1Diag lsq F none = some ((EToHeL F).map (fun p => cw C p.1 + if 0 ≤ p.2.1 then cw C p.2 else 0)) := by
  have hl := cot_length hC
  unfold h1Diag
  rw [halfedgeEdgeMap_eq hne hF, hC]
  simp only [Option.map_some, Option.bind_eq_bind, Option.bind_some]
  apply mapM_eq_some_map
  intro p hp
  obtain ⟨k, hk⟩ := List.mem_iff_getElem?.mp hp
  have hlt : k < (EL F).length := by rw [← EToHeL_length]; exact (List.getElem?_eq_some_iff.mp hk).1
  obtain ⟨q0, q1, h1, h2, h3⟩ := EToHeL_spec hF (List.getElem?_eq_getElem hlt)
  rw [hk] at h1; cases h1
  simp only [get2_cw hl h2, Option.bind_some]
  rcases h3 with ⟨rfl, _⟩ | ⟨h3, _⟩
  · simp
  · rw [get2_cw hl h3]
    have hq1 : 0 ≤ q1.1 := by obtain ⟨f', t, i, rfl, _, _⟩ := h3; simp
    simp [hq1]

theorem h1Diag_some {lsq : List (Row3 ℝ)} {F : List Tri} (E : List ((Int × Int) × (Int × Int)))
    (o : HEMap) (ho : halfedgeEdgeMap F = some o) (hE : E = o.EToHe) : h1Diag lsq F (some E) = h1Diag lsq F none := by
  unfold h1Diag; rw [ho, hE]; rfl

theorem EL_in_range {F : List Tri} {n : ℕ} (h : InRange F n) : ∀ e ∈ EL F, e.s < n ∧ e.t < n :=
  fun _ he => side_lt h (mem_EL_side he)

theorem d0_get {E : List Edge} {n : ℕ} (hE : ∀ e ∈ E, e.s < n ∧ e.t < n) (k i : ℕ) :
    (⟨E.length, n, E.zipIdx.map (fun p => (p.2, p.1.s, (1 : ℝ))) ++ E.zipIdx.map (fun p => (p.2, p.1.t, (-1 : ℝ)))⟩ :
      Csr ℝ).get k i = ((E[k]?).map (inc i)).getD 0 := by
  rw [← mulVec_single _ _ _ (d0_wf hE), d0_mulVec hE]
  rfl

theorem sum_edges_inc {F : List Tri} (hF : OrientedManifold F) {C : List (Row3 ℝ)} (hl : C.length = F.length) (i j : ℕ) :
    ∑ k ∈ range (EL F).length, (((EToHeL F)[k]?).map (fun p => (cw C p.1 + if 0 ≤ p.2.1 then cw C p.2 else 0) *
      ((((EL F)[k]?).map (inc i)).getD 0) * ((((EL F)[k]?).map (inc j)).getD 0))).getD 0 =
    ((F.zip C).map (lapFace i j)).sum := by
  rw [← EToHeL_length, ← sum_map_zipIdx_eq_range (EToHeL F) (fun p k => (cw C p.1 + if 0 ≤ p.2.1 then cw C p.2 else 0) *
      ((((EL F)[k]?).map (inc i)).getD 0) * ((((EL F)[k]?).map (inc j)).getD 0))]
  let g : Int × Int → ℝ := fun q => cw C q * inc i (sideOf F q) * inc j (sideOf F q)
  have hz : (EToHeL F).map (fun p => g p.1 + if 0 ≤ p.2.1 then g p.2 else 0) =
      (EToHeL F).zipIdx.map (fun q => g q.1.1 + if 0 ≤ q.1.2.1 then g q.1.2 else 0) := by
    apply List.ext_getElem <;> simp
  have h := sum_edges_eq_sum_faces hF g
  rw [hz] at h
  have e1 : (EToHeL F).zipIdx.map (fun q => g q.1.1 + if 0 ≤ q.1.2.1 then g q.1.2 else 0) =
      (EToHeL F).zipIdx.map (fun q => (cw C q.1.1 + if 0 ≤ q.1.2.1 then cw C q.1.2 else 0) *
      ((((EL F)[q.2]?).map (inc i)).getD 0) * ((((EL F)[q.2]?).map (inc j)).getD 0)) := by
    apply List.map_congr_left
    rintro ⟨p, k⟩ hp
    rw [List.mem_zipIdx_iff_getElem?] at hp
    simp only at hp ⊢
    have hlt : k < (EL F).length := by rw [← EToHeL_length]; exact (List.getElem?_eq_some_iff.mp hp).1
    obtain ⟨q0, q1, h1, h2, h3⟩ := EToHeL_spec hF (List.getElem?_eq_getElem hlt)
    rw [hp] at h1; cases h1
    rw [List.getElem?_eq_getElem hlt]
    simp only [Option.map_some, Option.getD_some]
    have g0 : g q0 = cw C q0 * inc i (EL F)[k] * inc j (EL F)[k] := by simp only [g, sideOf_eq h2]
    rw [g0]
    rcases h3 with ⟨rfl, _⟩ | ⟨h3, _⟩
    · simp
    · have g1 : g q1 = cw C q1 * inc i (EL F)[k] * inc j (EL F)[k] := by
        simp only [g, sideOf_eq h3, inc, Edge.flip_s, Edge.flip_t]; ring
      have hq1 : 0 ≤ q1.1 := by obtain ⟨f', t, i, rfl, _, _⟩ := h3; simp
      rw [g1]
      simp only [hq1, if_true]; ring
  rw [← e1, h]
  congr 1
  apply List.ext_getElem
  · simp [hl]
  · intro f h1 h2
    have hf : f < F.length := by simpa using h1
    have hget := List.getElem?_eq_getElem hf
    have s0 : sideOf F ((f : Int), 0) = F[f].side 0 := sideOf_eq ⟨f, F[f], 0, rfl, hget, rfl⟩
    have s1 : sideOf F ((f : Int), 1) = F[f].side 1 := sideOf_eq ⟨f, F[f], 1, rfl, hget, rfl⟩
    have s2 : sideOf F ((f : Int), 2) = F[f].side 2 := sideOf_eq ⟨f, F[f], 2, rfl, hget, rfl⟩
    have c0 : cw C ((f : Int), 0) = (C[f]'(hl ▸ hf)).x0 := by
      unfold cw; rw [show ((f : Int), (0 : Int)) = ((f : Int), ((0 : Fin 3).val : Int)) from rfl, get2_halfedge hl hf 0]; rfl
    have c1 : cw C ((f : Int), 1) = (C[f]'(hl ▸ hf)).x1 := by
      unfold cw; rw [show ((f : Int), (1 : Int)) = ((f : Int), ((1 : Fin 3).val : Int)) from rfl, get2_halfedge hl hf 1]; rfl
    have c2 : cw C ((f : Int), 2) = (C[f]'(hl ▸ hf)).x2 := by
      unfold cw; rw [show ((f : Int), (2 : Int)) = ((f : Int), ((2 : Fin 3).val : Int)) from rfl, get2_halfedge hl hf 2]; rfl
    simp only [List.getElem_map, List.getElem_range, List.getElem_zip, g, s0, s1, s2, c0, c1, c2, lapFace]

theorem diags_mul {d : List ℝ} {w : ℕ → ℝ} {e : ℕ} (he : e < d.length) :
    ∑ e' ∈ range d.length, (Csr.diags d).get e e' * w e' = (d[e]?).getD 0 * w e := by
  rw [Finset.sum_eq_single e]
  · rw [getElem?_diags_get]; simp
  · intro b _ hb; rw [getElem?_diags_get, if_neg (fun h => hb h.symm)]; simp
  · intro h; exact absurd (Finset.mem_range.mpr he) h

/-- product of two diagonal matrices -/
theorem diags_mulGet {d d' : List ℝ} (hl : d'.length = d.length) (i k : ℕ) :
    (Csr.diags d).mulGet (Csr.diags d') i k = if i = k then (d[i]?).getD 0 * (d'[i]?).getD 0 else 0 := by
  unfold Csr.mulGet
  simp only [getElem?_diags_get]
  change ∑ j ∈ range d.length, _ = _
  by_cases hi : i < d.length
  · rw [Finset.sum_eq_single i]
    · by_cases h : i = k <;> simp [h]
    · intro b _ hb; rw [if_neg (fun h => hb h.symm)]; simp
    · intro h; exact absurd (Finset.mem_range.mpr hi) h
  · rw [Finset.sum_eq_zero]
    · rw [List.getElem?_eq_none (by omega)]; simp
    · intro j hj
      have := Finset.mem_range.mp hj
      rw [if_neg (by omega)]; simp

theorem diags_inv {d : List ℝ} (h0 : ∀ x ∈ d, x ≠ 0) (i k : ℕ) (hi : i < d.length) :
    (Csr.diags (d.map (fun x => 1 / x))).mulGet (Csr.diags d) i k = if i = k then 1 else 0 := by
  rw [diags_mulGet (by simp)]
  by_cases h : i = k
  · have := h0 _ (List.getElem_mem hi)
    rw [if_pos h, if_pos h, List.getElem?_map, List.getElem?_eq_getElem hi]
    simp only [Option.map_some, Option.getD_some]
    field_simp
  · rw [if_neg h, if_neg h]

end Gpy
