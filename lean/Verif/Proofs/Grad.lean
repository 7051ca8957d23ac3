import Verif.Model.Grad
import Verif.Proofs.Hodge

namespace Gpy
open Np Finset

theorem V3.norm_nonneg (v : V3 ℝ) : 0 ≤ v.norm := Real.sqrt_nonneg _
theorem V3.normSq_nonneg (v : V3 ℝ) : 0 ≤ V3.normSq v := by
  unfold V3.normSq V3.dot; nlinarith [mul_self_nonneg v.x, mul_self_nonneg v.y, mul_self_nonneg v.z]
theorem V3.norm_sq (v : V3 ℝ) : v.norm ^ 2 = V3.normSq v := Real.sq_sqrt (V3.normSq_nonneg v)

/-- Lagrange identity -/
theorem V3.lagrange (a b : V3 ℝ) : V3.normSq (V3.cross a b) = V3.normSq a * V3.normSq b - (V3.dot a b) ^ 2 := by
  simp only [V3.normSq, V3.dot, V3.cross]; ring

theorem V3.eq_zero_of_normSq {v : V3 ℝ} (h : V3.normSq v = 0) : v.x = 0 ∧ v.y = 0 ∧ v.z = 0 := by
  unfold V3.normSq V3.dot at h
  refine ⟨?_, ?_, ?_⟩ <;> nlinarith [mul_self_nonneg v.x, mul_self_nonneg v.y, mul_self_nonneg v.z]

/-- rotating an edge `v ⟂ n` by the unit normal and rescaling it to length `|v|/A` -/
theorem rot_edge (n v : V3 ℝ) (A : ℝ) (hA : 0 < A) (hsq : A ^ 2 = V3.normSq n) (hperp : V3.dot n v = 0)
    (hv : V3.normSq v ≠ 0) :
    let w := V3.cross (⟨n.x / A, n.y / A, n.z / A⟩ : V3 ℝ) v
    (v.norm / (A * w.norm)) • w = (1 / V3.normSq n) • V3.cross n v := by
  intro w
  have hw0 : w = (1 / A) • V3.cross n v := by
    apply V3.ext <;> simp only [w, V3.cross, V3.smul_x, V3.smul_y, V3.smul_z] <;> field_simp
  have hw : V3.normSq w = V3.normSq v := by
    have h1 : V3.normSq w = (1 / A) ^ 2 * V3.normSq (V3.cross n v) := by
      rw [hw0]; simp only [V3.normSq, V3.dot, V3.smul_x, V3.smul_y, V3.smul_z]; ring
    rw [h1, V3.lagrange, hperp, ← hsq]; field_simp; ring
  have hwn : w.norm = v.norm := by unfold V3.norm; rw [hw]
  have hvn : v.norm ≠ 0 := by
    intro h; apply hv; rw [← V3.norm_sq, h]; ring
  rw [hwn, hw0, ← hsq]
  have : v.norm / (A * v.norm) = 1 / A := by field_simp
  rw [this]
  apply V3.ext <;> simp only [V3.smul_x, V3.smul_y, V3.smul_z] <;> field_simp

/-- the rotated edges divided by twice the area -/
theorem gradTri_eq (a b c : V3 ℝ) (h : (gradTri a b c).2 ≠ 0) :
    let n := V3.cross (c - b) (a - c)
    0 < V3.normSq n ∧ (gradTri a b c).2 ^ 2 = V3.normSq n ∧ 0 < (gradTri a b c).2 ∧
    (gradTri a b c).1.1 = (1 / V3.normSq n) • V3.cross n (a - c) ∧
    (gradTri a b c).1.2 = (1 / V3.normSq n) • V3.cross n (b - a) := by
  intro n
  have hA : (gradTri a b c).2 = n.norm := rfl
  have hApos : 0 < n.norm := lt_of_le_of_ne n.norm_nonneg (by rw [hA] at h; exact h.symm)
  have hsq : n.norm ^ 2 = V3.normSq n := n.norm_sq
  have hD : 0 < V3.normSq n := by rw [← hsq]; positivity
  have ne1 : V3.normSq (a - c) ≠ 0 := by
    intro h0
    obtain ⟨h1, h2, h3⟩ := V3.eq_zero_of_normSq h0
    have : V3.normSq n = 0 := by simp only [n, V3.normSq, V3.dot, V3.cross, h1, h2, h3]; ring
    linarith
  have ne2 : V3.normSq (b - a) ≠ 0 := by
    intro h0
    obtain ⟨h1, h2, h3⟩ := V3.eq_zero_of_normSq h0
    have e1 : b.x = a.x := by simpa [sub_eq_zero] using h1
    have e2 : b.y = a.y := by simpa [sub_eq_zero] using h2
    have e3 : b.z = a.z := by simpa [sub_eq_zero] using h3
    have : V3.normSq n = 0 := by
      simp only [n, V3.normSq, V3.dot, V3.cross, V3.sub_x, V3.sub_y, V3.sub_z, e1, e2, e3]; ring
    linarith
  refine ⟨hD, by rw [hA, hsq], by rw [hA]; exact hApos, ?_, ?_⟩
  · exact rot_edge n (a - c) n.norm hApos hsq (by simp only [n, V3.dot, V3.cross]; ring) ne1
  · exact rot_edge n (b - a) n.norm hApos hsq
      (by simp only [n, V3.dot, V3.cross, V3.sub_x, V3.sub_y, V3.sub_z]; ring) ne2

/-- component `k` -/
def V3.comp {K : Type} (v : V3 K) : ℕ → K
  | 0 => v.x
  | 1 => v.y
  | _ => v.z

/-- the discrete gradient of `u` on one triangle -/
noncomputable def triGrad (a b c : V3 ℝ) (ua ub uc : ℝ) : V3 ℝ :=
  let D := (gradTri a b c).1
  (ub - ua) • D.1 + (uc - ua) • D.2

theorem cornersOf_some {V : List (V3 ℝ)} {t : Tri} (h : t.a < V.length ∧ t.b < V.length ∧ t.c < V.length) :
    cornersOf V t = some (V.getD t.a 0, V.getD t.b 0, V.getD t.c 0) := by
  unfold cornersOf
  simp [List.getElem?_eq_getElem h.1, List.getElem?_eq_getElem h.2.1, List.getElem?_eq_getElem h.2.2]

/-- geometry of triangle `t` -/
noncomputable def gT (V : List (V3 ℝ)) (t : Tri) : (V3 ℝ × V3 ℝ) × ℝ :=
  gradTri (V.getD t.a 0) (V.getD t.b 0) (V.getD t.c 0)

theorem grad_wf_aux {F : List Tri} {m k : ℕ} (hm : F.length = m) (f : Tri → ℕ) (h : Tri → ℝ) :
    zip3 (gradRows m k) (F.map f) (F.map h) = F.zipIdx.map (fun p => (k * m + p.2, f p.1, h p.1)) := by
  unfold zip3 gradRows
  apply List.ext_getElem
  · simp [hm]
  · intro i h1 h2; simp

noncomputable def gradTrip (V : List (V3 ℝ)) (F : List Tri) : List (ℕ × ℕ × ℝ) :=
  let m := F.length
  (List.range 3).flatMap (fun k =>
    F.zipIdx.map (fun p => (k * m + p.2, p.1.b, (gT V p.1).1.1.comp k)) ++
    F.zipIdx.map (fun p => (k * m + p.2, p.1.a, -(gT V p.1).1.1.comp k)) ++
    F.zipIdx.map (fun p => (k * m + p.2, p.1.c, (gT V p.1).1.2.comp k)) ++
    F.zipIdx.map (fun p => (k * m + p.2, p.1.a, -(gT V p.1).1.2.comp k)))

theorem grad_eq {V : List (V3 ℝ)} {F : List Tri} (hF : InRange F V.length) (hA : ∀ t ∈ F, (gT V t).2 ≠ 0) :
    grad V F = some ⟨3 * F.length, V.length, gradTrip V F⟩ := by
  unfold grad
  rw [mapM_eq_some_map (g := fun t => (V.getD t.a 0, V.getD t.b 0, V.getD t.c 0)) (fun t ht => cornersOf_some (hF t ht))]
  simp only [Option.bind_eq_bind, Option.bind_some, List.map_map]
  rw [if_pos]
  · have hb : ∀ (f : Tri → ℕ), (∀ t ∈ F, f t < V.length) → ∀ i ∈ F.map f, i < V.length := by
      intro f hf i hi
      obtain ⟨t, ht, rfl⟩ := List.mem_map.mp hi
      exact hf t ht
    have ha := hb (·.a) (fun t ht => (hF t ht).1)
    have hbb := hb (·.b) (fun t ht => (hF t ht).2.1)
    have hc := hb (·.c) (fun t ht => (hF t ht).2.2)
    have hg : ∀ k, k < 3 → ∀ i ∈ gradRows F.length k, i < 3 * F.length := by
      intro k hk i hi
      unfold gradRows at hi
      obtain ⟨f, hf, rfl⟩ := List.mem_map.mp hi
      have := List.mem_range.mp hf
      have : k * F.length ≤ 2 * F.length := Nat.mul_le_mul_right _ (by omega)
      omega
    have hlen : ∀ k, (gradRows F.length k).length = F.length := by intro k; simp [gradRows]
    rw [csrMatrix_some]
    · congr 2
      rw [← List.append_assoc, ← List.append_assoc, ← List.append_assoc, ← List.append_assoc, ← List.append_assoc,
        ← List.append_assoc]
      repeat rw [zip3_append (by simp [hlen]) (by simp [hlen])]
      simp only [grad_wf_aux rfl]
      simp [gradTrip, List.range_succ, V3.comp, gT]
    · simp [hlen]
    · simp
    · intro i hi
      simp only [List.mem_append] at hi
      rcases hi with ((((((((((h | h) | h) | h) | h) | h) | h) | h) | h) | h) | h) | h
      all_goals first | exact hg 0 (by omega) i h | exact hg 1 (by omega) i h | exact hg 2 (by omega) i h
    · intro i hi
      simp only [List.mem_append] at hi
      rcases hi with ((((h | h) | h) | h) | (((h | h) | h) | h)) | (((h | h) | h) | h)
      all_goals first | exact ha i h | exact hbb i h | exact hc i h
  · intro d hd
    obtain ⟨t, ht, rfl⟩ := List.mem_map.mp hd
    exact hA t ht

theorem grad_wf {V : List (V3 ℝ)} {F : List Tri} (hF : InRange F V.length) :
    (⟨3 * F.length, V.length, gradTrip V F⟩ : Csr ℝ).WF := by
  intro t ht
  simp only [gradTrip, List.mem_flatMap, List.mem_append, List.mem_range] at ht
  obtain ⟨k, hk, ht⟩ := ht
  have key : ∀ p ∈ F.zipIdx, k * F.length + p.2 < 3 * F.length ∧ p.1 ∈ F := by
    intro p hp
    rw [List.mem_zipIdx_iff_getElem?] at hp
    have h1 := (List.getElem?_eq_some_iff.mp hp).1
    have : k * F.length ≤ 2 * F.length := Nat.mul_le_mul_right _ (by omega)
    exact ⟨by omega, List.mem_of_getElem? hp⟩
  rcases ht with ((h | h) | h) | h <;> (obtain ⟨p, hp, rfl⟩ := List.mem_map.mp h; refine ⟨(key p hp).1, ?_⟩) <;>
    have := hF _ (key p hp).2
  · exact this.2.1
  · exact this.1
  · exact this.2.2
  · exact this.1

theorem flat_index_inj {m k k' f f' : ℕ} (hf : f < m) (hf' : f' < m) (h : k * m + f = k' * m + f') : k = k' ∧ f = f' := by
  have hm : 0 < m := by omega
  have h1 : (k * m + f) / m = k := by rw [Nat.mul_comm, Nat.mul_add_div hm, Nat.div_eq_of_lt hf]; omega
  have h2 : (k' * m + f') / m = k' := by rw [Nat.mul_comm, Nat.mul_add_div hm, Nat.div_eq_of_lt hf']; omega
  have h3 : k = k' := by rw [← h1, ← h2, h]
  subst h3; exact ⟨rfl, by omega⟩

theorem sum_block {F : List Tri} {k k' f : ℕ} (hf : f < F.length) (g : Tri → ℝ) :
    (F.zipIdx.map (fun p => if k' * F.length + p.2 = k * F.length + f then g p.1 else 0)).sum =
      if k' = k then g (F[f]) else 0 := by
  by_cases hk : k' = k
  · subst hk
    rw [if_pos rfl]
    have := sum_zipIdx_single F g f 0
    simp only [Nat.zero_le, if_true, Nat.sub_zero, List.getElem?_eq_getElem hf, Option.map_some, Option.getD_some] at this
    rw [← this]
    congr 1
    apply List.map_congr_left
    intro p _
    simp
  · rw [if_neg hk]
    apply List.sum_eq_zero
    intro x hx
    obtain ⟨p, hp, rfl⟩ := List.mem_map.mp hx
    rw [List.mem_zipIdx_iff_getElem?] at hp
    have h1 := (List.getElem?_eq_some_iff.mp hp).1
    rw [if_neg]
    intro h
    exact hk (flat_index_inj h1 hf h).1

theorem grad_mulVec {V : List (V3 ℝ)} {F : List Tri} (hF : InRange F V.length) (u : ℕ → ℝ) {k f : ℕ} (hk : k < 3)
    (hf : f < F.length) :
    (⟨3 * F.length, V.length, gradTrip V F⟩ : Csr ℝ).mulVec u (k * F.length + f) =
      (triGrad (V.getD F[f].a 0) (V.getD F[f].b 0) (V.getD F[f].c 0) (u F[f].a) (u F[f].b) (u F[f].c)).comp k := by
  rw [mulVec_eq _ (grad_wf hF)]
  simp only [gradTrip, List.range_succ, List.range_zero, List.nil_append, List.flatMap_append, List.flatMap_cons,
    List.flatMap_nil, List.append_nil, List.map_append, List.sum_append, List.map_map]
  have hb : ∀ (k' : ℕ) (vt : Tri → ℕ) (g : Tri → ℝ),
      (F.zipIdx.map ((fun t : ℕ × ℕ × ℝ => if t.1 = k * F.length + f then t.2.2 * u t.2.1 else 0) ∘
        fun p => (k' * F.length + p.2, vt p.1, g p.1))).sum = if k' = k then g F[f] * u (vt F[f]) else 0 := by
    intro k' vt g
    have := sum_block (k := k) (k' := k') hf (fun t => g t * u (vt t))
    rw [← this]; rfl
  rw [hb 0 (·.b) (fun t => (gT V t).1.1.comp 0), hb 0 (·.a) (fun t => -(gT V t).1.1.comp 0),
    hb 0 (·.c) (fun t => (gT V t).1.2.comp 0), hb 0 (·.a) (fun t => -(gT V t).1.2.comp 0),
    hb 1 (·.b) (fun t => (gT V t).1.1.comp 1), hb 1 (·.a) (fun t => -(gT V t).1.1.comp 1),
    hb 1 (·.c) (fun t => (gT V t).1.2.comp 1), hb 1 (·.a) (fun t => -(gT V t).1.2.comp 1),
    hb 2 (·.b) (fun t => (gT V t).1.1.comp 2), hb 2 (·.a) (fun t => -(gT V t).1.1.comp 2),
    hb 2 (·.c) (fun t => (gT V t).1.2.comp 2), hb 2 (·.a) (fun t => -(gT V t).1.2.comp 2)]
  rcases (by omega : k = 0 ∨ k = 1 ∨ k = 2) with rfl | rfl | rfl
  · simp only [if_true, one_ne_zero, if_false, OfNat.ofNat_ne_zero, triGrad, V3.comp, V3.add_x, V3.smul_x, gT]; ring
  · simp only [if_true, zero_ne_one, if_false, OfNat.ofNat_ne_one, triGrad, V3.comp, V3.add_y, V3.smul_y, gT]; ring
  · simp [triGrad, V3.comp, gT]; ring

end Gpy
