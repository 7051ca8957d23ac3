import Verif.Props.DualQef
import Verif.Props.DualNets
import Verif.Model.DualContouring
import Mathlib.Tactic.LinearCombination

/-!
# C126: which spheres act on which cell, and where
-/

set_option autoImplicit false
namespace Gpy.Dual

noncomputable section
open Classical

/-! ### specification -/

/-- a point of a triangle -/
def InTri (T : Pt 3 × Pt 3 × Pt 3) (x : Pt 3) : Prop := ∃ a b c : ℝ, 0 ≤ a ∧ 0 ≤ b ∧ 0 ≤ c ∧ a + b + c = 1 ∧ x = a • T.1 + b • T.2.1 + c • T.2.2

/-- the contract of the query for the closest point of a list of triangles -/
def IsQuery (query : List (Pt 3 × Pt 3 × Pt 3) → Pt 3 → ℕ × Pt 3) : Prop :=
  ∀ M x, M ≠ [] → (∃ T, M[(query M x).1]? = some T ∧ InTri T (query M x).2) ∧ ∀ T ∈ M, ∀ y, InTri T y → pnorm ((query M x).2 - x) ≤ pnorm (y - x)

/-- the Gram determinant of the sides of a triangle, four times the square of its area -/
def gram (T : Pt 3 × Pt 3 × Pt 3) : ℝ :=
  pdot (T.2.1 - T.1) (T.2.1 - T.1) * pdot (T.2.2 - T.1) (T.2.2 - T.1) - pdot (T.2.1 - T.1) (T.2.2 - T.1) * pdot (T.2.1 - T.1) (T.2.2 - T.1)

/-! ### the closest points -/

theorem barycentric_point (T : Pt 3 × Pt 3 × Pt 3) (x : Pt 3) (hx : InTri T x) (hg : 1 / 10 ^ 12 ≤ gram T) :
    let b := barycentric x T.1 T.2.1 T.2.2
    b.1 + b.2.1 + b.2.2 = 1 ∧ b.1 • T.1 + b.2.1 • T.2.1 + b.2.2 • T.2.2 = x ∧ 0 ≤ b.1 ∧ 0 ≤ b.2.1 ∧ 0 ≤ b.2.2 := by
  obtain ⟨a, b, c, ha, hb, hc, hs, rfl⟩ := hx
  have hpos : 0 < gram T := lt_of_lt_of_le (by norm_num) hg
  have e0 : a • T.1 + b • T.2.1 + c • T.2.2 - T.1 = b • (T.2.1 - T.1) + c • (T.2.2 - T.1) := by
    funext k
    simp only [Pi.add_apply, Pi.sub_apply, Pi.smul_apply, smul_eq_mul]
    linear_combination (T.1 k) * hs
  have key : barycentric (a • T.1 + b • T.2.1 + c • T.2.2) T.1 T.2.1 T.2.2 = (1 - b - c, b, c) := by
    have hn : ¬ |gram T| < 1 / 10 ^ 12 := by rw [abs_of_pos hpos]; exact not_lt.mpr hg
    unfold barycentric
    unfold gram at hn hpos
    simp only [e0]
    rw [if_neg hn]
    have f1 : (pdot (T.2.2 - T.1) (T.2.2 - T.1) * pdot (b • (T.2.1 - T.1) + c • (T.2.2 - T.1)) (T.2.1 - T.1) - pdot (T.2.1 - T.1) (T.2.2 - T.1) * pdot (b • (T.2.1 - T.1) + c • (T.2.2 - T.1)) (T.2.2 - T.1)) /
        (pdot (T.2.1 - T.1) (T.2.1 - T.1) * pdot (T.2.2 - T.1) (T.2.2 - T.1) - pdot (T.2.1 - T.1) (T.2.2 - T.1) * pdot (T.2.1 - T.1) (T.2.2 - T.1)) = b := by
      rw [div_eq_iff hpos.ne']
      simp only [pdot3, Pi.add_apply, Pi.sub_apply, Pi.smul_apply, smul_eq_mul]
      ring
    have f2 : (pdot (T.2.1 - T.1) (T.2.1 - T.1) * pdot (b • (T.2.1 - T.1) + c • (T.2.2 - T.1)) (T.2.2 - T.1) - pdot (T.2.1 - T.1) (T.2.2 - T.1) * pdot (b • (T.2.1 - T.1) + c • (T.2.2 - T.1)) (T.2.1 - T.1)) /
        (pdot (T.2.1 - T.1) (T.2.1 - T.1) * pdot (T.2.2 - T.1) (T.2.2 - T.1) - pdot (T.2.1 - T.1) (T.2.2 - T.1) * pdot (T.2.1 - T.1) (T.2.2 - T.1)) = c := by
      rw [div_eq_iff hpos.ne']
      simp only [pdot3, Pi.add_apply, Pi.sub_apply, Pi.smul_apply, smul_eq_mul]
      ring
    rw [f1, f2]
  simp only [key]
  have : a = 1 - b - c := by linarith
  refine ⟨by ring, by rw [← this], by linarith, hb, hc⟩

/-- the corners of the cell that are on its face `d` (+x, -x, +y, -y, +z, -z), as offsets from its lowest corner -/
def OnFace (d m : ℕ) : Prop := ((off.getD m (0, 0, 0)).1 = 1 ∧ d = 0) ∨ ((off.getD m (0, 0, 0)).1 = 0 ∧ d = 1) ∨ ((off.getD m (0, 0, 0)).2.1 = 1 ∧ d = 2) ∨ ((off.getD m (0, 0, 0)).2.1 = 0 ∧ d = 3) ∨
  ((off.getD m (0, 0, 0)).2.2 = 1 ∧ d = 4) ∨ ((off.getD m (0, 0, 0)).2.2 = 0 ∧ d = 5)

instance (d m : ℕ) : Decidable (OnFace d m) := by unfold OnFace; infer_instance

theorem faceEdges_spec : ∀ d < 6, ∀ e < 12, e ∈ faceEdges d ↔ OnFace d (endA e) ∧ OnFace d (endB e) := by decide +kernel

theorem faceEdges_lt : ∀ d < 6, ∀ e ∈ faceEdges d, e < 12 := by decide +kernel

/-- **C126** (local surface).  The surface in a cell that the spheres see is made of the triangles between its vertex, a point on one of its faces and a Hermite point on an edge of this face, all of them. -/
theorem C126_local (c : Cell) (T : Pt 3 × Pt 3 × Pt 3) : T ∈ localMesh c ↔
    ∃ d < 6, ∃ e < 12, OnFace d (endA e) ∧ OnFace d (endB e) ∧ c.fip d = some T.2.2 ∧ c.pos e = some T.2.1 ∧ T.1 = c.vertex := by
  unfold localMesh
  rw [List.mem_flatMap]
  constructor
  · rintro ⟨d, hd, hT⟩
    rw [List.mem_range] at hd
    cases hf : c.fip d with
    | none => rw [hf] at hT; simp at hT
    | some x =>
      rw [hf] at hT
      simp only [List.mem_filterMap, Option.map_eq_some_iff] at hT
      obtain ⟨e, he, p, hp, rfl⟩ := hT
      have he' := faceEdges_lt d hd e he
      obtain ⟨h1, h2⟩ := (faceEdges_spec d hd e he').mp he
      exact ⟨d, hd, e, he', h1, h2, hf, hp, rfl⟩
  · rintro ⟨d, hd, e, he, h1, h2, h3, h4, h5⟩
    refine ⟨d, List.mem_range.mpr hd, ?_⟩
    rw [h3]
    simp only [List.mem_filterMap, Option.map_eq_some_iff]
    exact ⟨e, (faceEdges_spec d hd e he).mpr ⟨h1, h2⟩, T.2.1, h4, by rw [← h5]⟩

/-- **C126** (contact).  In every inner iteration of a cell with a local surface each of its spheres, in order, is matched with a closest point `x` of the surface in the cell: the weights used are those of
`x` in a triangle of the surface (if this is not degenerate), and the point on the sphere is at the distance of the radius from the centre, on the ray from the centre through `x` (if `x` is not at the centre). -/
theorem C126_contact {query : List (Pt 3 × Pt 3 × Pt 3) → Pt 3 → ℕ × Pt 3} (hq : IsQuery query) (c : Cell) (hc : c.has = true) (hM : localMesh c ≠ []) :
    (refineVertex query c).infos.length = c.spheres.length ∧ (refineVertex query c).vertex = c.vertex ∧ (refineVertex query c).spheres = c.spheres ∧
    ∀ (i : ℕ) (f : Info) (s : Sphere), (refineVertex query c).infos[i]? = some f → c.spheres[i]? = some s → f.sphere = i ∧ f.c = s.center ∧
      ∃ x, (∃ T ∈ localMesh c, InTri T x ∧ T = (c.vertex, f.p, f.fip) ∧
          (1 / 10 ^ 12 ≤ gram T → f.bary.1 + f.bary.2.1 + f.bary.2.2 = 1 ∧ f.bary.1 • c.vertex + f.bary.2.1 • f.p + f.bary.2.2 • f.fip = x ∧ 0 ≤ f.bary.1 ∧ 0 ≤ f.bary.2.1 ∧ 0 ≤ f.bary.2.2)) ∧
        (∀ T ∈ localMesh c, ∀ y, InTri T y → pnorm (x - s.center) ≤ pnorm (y - s.center)) ∧
        (1 / 10 ^ 9 ≤ pnorm (x - s.center) → 0 ≤ s.radius → pnorm (f.q - s.center) = s.radius ∧ pnorm (x - s.center) • (f.q - s.center) = s.radius • (x - s.center)) := by
  unfold refineVertex
  rw [if_neg (by simp [hc, hM])]
  refine ⟨by simp [closestInfos], rfl, rfl, ?_⟩
  intro i f s hf hs
  simp only [closestInfos, List.getElem?_map, List.getElem?_zipIdx, hs, Option.map_some, zero_add, Option.some.injEq] at hf
  subst hf
  obtain ⟨⟨T, hT, hin⟩, hmin⟩ := hq (localMesh c) s.center hM
  have hTM : T ∈ localMesh c := List.mem_of_getElem? hT
  have hT1 : T.1 = c.vertex := by
    obtain ⟨-, -, -, -, -, -, -, -, h⟩ := (C126_local c T).mp hTM
    exact h
  have eT : (localMesh c).getD (query (localMesh c) s.center).1 (0, 0, 0) = T := by rw [List.getD_eq_getElem?_getD, hT]; rfl
  refine ⟨rfl, rfl, (query (localMesh c) s.center).2, ⟨T, hTM, hin, ?_, ?_⟩, hmin, ?_⟩
  · rw [eT, ← hT1]
  · intro hg
    rw [eT, ← hT1]
    exact barycentric_point T _ hin hg
  · intro hx hr
    have hx0 : 0 < pnorm ((query (localMesh c) s.center).2 - s.center) := lt_of_lt_of_le (by norm_num) hx
    simp only [if_neg (not_lt.mpr hx), add_sub_cancel_left]
    constructor
    · unfold pnorm at hx0 ⊢
      rw [show psq ((s.radius / √(psq ((query (localMesh c) s.center).2 - s.center))) • ((query (localMesh c) s.center).2 - s.center)) =
        (s.radius / √(psq ((query (localMesh c) s.center).2 - s.center))) ^ 2 * psq ((query (localMesh c) s.center).2 - s.center) by
          simp only [psq3, Pi.smul_apply, smul_eq_mul]; ring]
      rw [div_pow, Real.sq_sqrt (psq_nn _), div_mul_cancel₀, Real.sqrt_sq hr]
      intro h0
      rw [h0] at hx0
      simp at hx0
    · rw [smul_smul, mul_div_cancel₀ _ hx0.ne']

/-! ### face points -/

/-- the position of the plane of the face `d` of a cell -/
def facePlane (c : Cell) (d : ℕ) : ℝ := if d % 2 = 0 then c.corners 6 (dirAxis d) else c.corners 0 (dirAxis d)

theorem crossing_spec (c : Cell) (nv x : Pt 3) (d : ℕ) : crossing c nv d = some x ↔
    1 / 10 ^ 9 ≤ |nv (dirAxis d) - c.vertex (dirAxis d)| ∧ ∃ t : ℝ, -(1 / 10 ^ 6) ≤ t ∧ t ≤ 1 + 1 / 10 ^ 6 ∧ x = c.vertex + t • (nv - c.vertex) ∧ x (dirAxis d) = facePlane c d := by
  have key : crossing c nv d = if |(nv - c.vertex) (dirAxis d)| < 1 / 10 ^ 9 then none
      else if -(1 / 10 ^ 6) ≤ (facePlane c d - c.vertex (dirAxis d)) / (nv - c.vertex) (dirAxis d) ∧ (facePlane c d - c.vertex (dirAxis d)) / (nv - c.vertex) (dirAxis d) ≤ 1 + 1 / 10 ^ 6 then
        some (c.vertex + ((facePlane c d - c.vertex (dirAxis d)) / (nv - c.vertex) (dirAxis d)) • (nv - c.vertex)) else none := rfl
  rw [key]
  have hs : (nv - c.vertex) (dirAxis d) = nv (dirAxis d) - c.vertex (dirAxis d) := rfl
  constructor
  · intro h
    split_ifs at h with h1 h2
    rw [Option.some.injEq] at h
    rw [not_lt] at h1
    have h0 : (nv - c.vertex) (dirAxis d) ≠ 0 := by
      intro e
      rw [e] at h1
      norm_num at h1
    refine ⟨h1, _, h2.1, h2.2, h.symm, ?_⟩
    rw [← h]
    simp only [Pi.add_apply, Pi.smul_apply, smul_eq_mul]
    rw [div_mul_cancel₀ _ h0]
    ring
  · rintro ⟨h1, t, t1, t2, hx, hp⟩
    have h0 : (nv - c.vertex) (dirAxis d) ≠ 0 := by
      intro e
      rw [hs] at e
      rw [e] at h1
      norm_num at h1
    have ht : (facePlane c d - c.vertex (dirAxis d)) / (nv - c.vertex) (dirAxis d) = t := by
      rw [div_eq_iff h0, ← hp, hx]
      simp only [Pi.add_apply, Pi.smul_apply, smul_eq_mul]
      ring
    rw [if_neg (by rw [hs]; exact not_lt.mpr h1), ht, if_pos ⟨t1, t2⟩, hx]

/-- **C126** (face points).  A point computed on a face is on the plane of the face and on the line between the vertices of the two cells (up to `1e-6` beyond its ends); if it is averaged with an
earlier point of this plane it stays on the plane. -/
theorem C126_face_plane (g : Grid) (w : ℝ) (cells : List Cell) (h : ∀ c ∈ cells, ∀ d y, c.fip d = some y → y (dirAxis d) = facePlane c d) :
    ∀ c ∈ faceIntersections g w cells, ∀ d y, c.fip d = some y → y (dirAxis d) = facePlane c d := by
  intro c hc d y hy
  unfold faceIntersections at hc
  rw [List.mem_map] at hc
  obtain ⟨b, hb, rfl⟩ := hc
  by_cases hh : b.has = true
  · rw [if_pos hh] at hy ⊢
    change y (dirAxis d) = facePlane b d
    simp only at hy
    split_ifs at hy with h6
    · cases hx : (neighbour g cells b d).bind (fun n => crossing b n.vertex d) with
      | none => rw [hx] at hy; exact h b hb d y hy
      | some x =>
        rw [hx] at hy
        rw [Option.bind_eq_some_iff] at hx
        obtain ⟨n, -, hx⟩ := hx
        obtain ⟨-, t, -, -, -, e⟩ := (crossing_spec b n.vertex x d).mp hx
        cases hz : b.fip d with
        | none => rw [hz] at hy; simp only [Option.some.injEq] at hy; rw [← hy]; exact e
        | some z =>
          rw [hz] at hy
          simp only [Option.some.injEq] at hy
          have := h b hb d z hz
          rw [← hy]
          simp only [Pi.add_apply, Pi.smul_apply, smul_eq_mul, e, this]
          ring
    · exact h b hb d y hy
  · rw [if_neg hh] at hy ⊢
    exact h b hb d y hy

/-- the face of the other cell: +x and -x, +y and -y, +z and -z -/
def opp (d : ℕ) : ℕ := if d % 2 = 0 then d + 1 else d - 1

theorem crossing_symm (c n : Cell) (d : ℕ) (hd : d < 6) (hp : facePlane c d = facePlane n (opp d)) : crossing c n.vertex d = crossing n c.vertex (opp d) := by
  have ha : dirAxis (opp d) = dirAxis d := by interval_cases d <;> rfl
  apply Option.ext
  intro x
  rw [crossing_spec, crossing_spec, ha, hp, abs_sub_comm]
  constructor <;> rintro ⟨h1, t, t1, t2, e, e'⟩ <;> refine ⟨h1, 1 - t, by linarith, by linarith, ?_, e'⟩ <;> rw [e] <;> funext k <;>
    simp only [Pi.add_apply, Pi.smul_apply, Pi.sub_apply, smul_eq_mul] <;> ring

end

end Gpy.Dual
