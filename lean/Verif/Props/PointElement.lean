import Verif.Proofs.SquaredDistance
import Mathlib.Tactic.FinCases
import Mathlib.Algebra.BigOperators.Fin
import Mathlib.Data.Fin.VecNotation

/-! Properties C26 and C38: distance from a point to an element, barycentric coordinates. -/

set_option autoImplicit false
namespace Gpy
open Np
variable {d : ℕ}

/-- C38.  For a nondegenerate triangle in space, `barycentric_coordinates` of the point with weights `x,y,z` (of sum one) is
`(x,y,z)`, and every point of the plane of the triangle has such weights: so the result is the unique triple of weights of sum one
that combine to the point. -/
theorem C38_barycentric_3d (v1 v2 v3 : V3 ℝ) (hN : V3.cross (v2 - v1) (v3 - v1) ≠ 0) :
    (∀ x y z : ℝ, x + y + z = 1 → barycentric3 (x • v1 + y • v2 + z • v3) v1 v2 v3 = ⟨x, y, z⟩) ∧
    (∀ p : V3 ℝ, V3.dot (p - v1) (V3.cross (v2 - v1) (v3 - v1)) = 0 →
      let b := barycentric3 p v1 v2 v3
      b.x + b.y + b.z = 1 ∧ b.x • v1 + b.y • v2 + b.z • v3 = p) := by
  have hN' : V3.normSq (V3.cross (v2 - v1) (v3 - v1)) ≠ 0 := by
    intro h
    apply hN
    have h1 : (V3.cross (v2 - v1) (v3 - v1)).x * (V3.cross (v2 - v1) (v3 - v1)).x
      + (V3.cross (v2 - v1) (v3 - v1)).y * (V3.cross (v2 - v1) (v3 - v1)).y
      + (V3.cross (v2 - v1) (v3 - v1)).z * (V3.cross (v2 - v1) (v3 - v1)).z = 0 := h
    generalize V3.cross (v2 - v1) (v3 - v1) = n at h1 ⊢
    have a1 := mul_self_nonneg n.x
    have a2 := mul_self_nonneg n.y
    have a3 := mul_self_nonneg n.z
    ext
    · exact mul_self_eq_zero.mp (by linarith)
    · exact mul_self_eq_zero.mp (by linarith)
    · exact mul_self_eq_zero.mp (by linarith)
  refine ⟨fun x y z h => bary3_of_comb hN' h, ?_⟩
  intro p hp
  obtain ⟨x, y, z, h1, h2⟩ := bary3_plane hN' hp
  subst h2
  rw [bary3_of_comb hN' h1]
  exact ⟨h1, rfl⟩

/-- C38 for planar triangles. -/
theorem C38_barycentric_2d (v1 v2 v3 : ℝ × ℝ) (hN : (v1.1 - v3.1) * (v2.2 - v3.2) - (v1.2 - v3.2) * (v2.1 - v3.1) ≠ 0) :
    (∀ x y z : ℝ, x + y + z = 1 → barycentric2 (x • v1 + y • v2 + z • v3) v1 v2 v3 = ⟨x, y, z⟩) ∧
    (∀ p : ℝ × ℝ, let b := barycentric2 p v1 v2 v3; b.x + b.y + b.z = 1 ∧ b.x • v1 + b.y • v2 + b.z • v3 = p) := by
  refine ⟨fun x y z h => bary2_of_comb hN h, ?_⟩
  intro p
  obtain ⟨x, y, z, h1, h2⟩ := bary2_plane hN p
  subst h2
  rw [bary2_of_comb hN h1]
  exact ⟨h1, rfl⟩

example : V3.cross ((⟨1, 0, 0⟩ : V3 ℝ) - ⟨0, 0, 0⟩) (⟨0, 1, 2⟩ - ⟨0, 0, 0⟩) ≠ 0 := by
  intro h
  have := congrArg V3.z h
  simp [V3.cross] at this

theorem toV3_comb (h : d = 3) (x y z : Pt d) (s t : ℝ) :
    toV3 h (fun i => x i + s * (y - x) i + t * (z - x) i) = (1 - s - t) • toV3 h x + s • toV3 h y + t • toV3 h z := by
  ext <;> simp [toV3] <;> ring

theorem gram_cross (h : d = 3) (x y z : Pt d) :
    V3.normSq (V3.cross (toV3 h y - toV3 h x) (toV3 h z - toV3 h x)) = gram x y z := by
  subst h
  simp only [gram, pdot, Fin.sum_univ_three, V3.normSq, V3.dot, V3.cross, toV3, V3.sub_x, V3.sub_y, V3.sub_z, Pi.sub_apply]
  have e0 : (⟨0, by omega⟩ : Fin 3) = 0 := rfl
  have e1 : (⟨1, by omega⟩ : Fin 3) = 1 := rfl
  have e2 : (⟨2, by omega⟩ : Fin 3) = 2 := rfl
  simp only [e0, e1, e2]
  ring

theorem weights_pair {w : List ℝ} (h : IsWeights w 2) : ∃ t, 0 ≤ t ∧ t ≤ 1 ∧ w = [1 - t, t] := by
  obtain ⟨h1, h2, h3⟩ := h
  obtain ⟨a, b, rfl⟩ := List.length_eq_two.mp h1
  simp at h2 h3
  exact ⟨b, h2.2, by linarith, by rw [← h3]; simp⟩

theorem weights_triple {w : List ℝ} (h : IsWeights w 3) : ∃ s t, 0 ≤ s ∧ 0 ≤ t ∧ s + t ≤ 1 ∧ w = [1 - s - t, s, t] := by
  obtain ⟨h1, h2, h3⟩ := h
  obtain ⟨a, b, c, rfl⟩ := List.length_eq_three.mp h1
  simp at h2 h3
  exact ⟨b, c, h2.2.1, h2.2.2, by linarith, by
    congr 1
    linarith⟩

theorem comb_pair (x y p : Pt d) (t : ℝ) : comb [1 - t, t] [x, y] - p = fun i => x i + t * (y - x) i - p i := by
  funext i; simp [comb]; ring

theorem comb_triple (x y z p : Pt d) (s t : ℝ) :
    comb [1 - s - t, s, t] [x, y, z] - p = fun i => x i + s * (y - x) i + t * (z - x) i - p i := by
  funext i; simp [comb]; ring

theorem mapM_cons_inv {α β : Type*} {f : α → Option β} {es : List α} {x : β} {X : List β}
    (h : es.mapM f = some (x :: X)) : ∃ i t, es = i :: t ∧ f i = some x ∧ t.mapM f = some X := by
  cases es with
  | nil => simp at h
  | cons i t =>
    rw [List.mapM_cons] at h
    cases h1 : f i with
    | none => simp [h1] at h
    | some y =>
      cases h2 : t.mapM f with
      | none => simp [h1, h2] at h
      | some Y => simp [h1, h2] at h; exact ⟨i, t, rfl, by rw [h1, h.1], by rw [h2, h.2]⟩

theorem mapM_nil_inv {α β : Type*} {f : α → Option β} {es : List α} (h : es.mapM f = some []) : es = [] := by
  cases es with
  | nil => rfl
  | cons i t =>
    rw [List.mapM_cons] at h
    cases h1 : f i with
    | none => simp [h1] at h
    | some y =>
      cases h2 : t.mapM f with
      | none => simp [h1, h2] at h
      | some Y => simp [h1, h2] at h

theorem elem_touch {p : Pt d} {V : List (Pt d)} {es : List ℕ} {X : List (Pt d)} (hX : es.mapM (fun i => V[i]?) = some X)
    (hs : ElemShape X) : ∃ r, squaredDistanceToElement p V es = some r ∧ IsWeights r.2 X.length ∧ r.1 = psq (comb r.2 X - p) ∧
      (GoodElem X → ∀ w, IsWeights w X.length → r.1 ≤ psq (comb w X - p)) := by
  cases hs with
  | point x =>
    obtain ⟨i, t, rfl, h1, h2⟩ := mapM_cons_inv hX
    obtain rfl := mapM_nil_inv h2
    refine ⟨(psq (x - p), [1]), ?_, ⟨rfl, by simp, by simp⟩, ?_, ?_⟩
    · simp only [squaredDistanceToElement, h1]; rfl
    · show psq _ = psq _
      congr 1; funext i; simp [comb]
    · intro _ w hw
      obtain ⟨w1, w2, w3⟩ := hw
      obtain ⟨a, rfl⟩ := List.length_eq_one_iff.mp w1
      simp at w3
      subst w3
      apply le_of_eq
      show psq _ = psq _
      congr 1; funext i; simp [comb]
  | segment x y =>
    obtain ⟨i, t, rfl, h1, h2⟩ := mapM_cons_inv hX
    obtain ⟨j, t, rfl, h3, h4⟩ := mapM_cons_inv h2
    obtain rfl := mapM_nil_inv h4
    obtain ⟨t, t0, t1, e1, e2⟩ := pointSegment_touch x y p
    refine ⟨pointSegmentDistance x y p, ?_, ?_, ?_, ?_⟩
    · simp only [squaredDistanceToElement, h1, h3]; rfl
    · rw [e1]
      refine ⟨rfl, ?_, by simp⟩
      intro x hx
      simp at hx
      rcases hx with rfl | rfl <;> linarith
    · rw [e1, e2, comb_pair]
    · intro hg w hw
      obtain ⟨t', a0, a1, rfl⟩ := weights_pair hw
      rw [comb_pair]
      cases hg with
      | segment _ _ h => exact pointSegment_opt h a0 a1
  | triangle x y z hd hg =>
    obtain ⟨i, t, rfl, h1, h2⟩ := mapM_cons_inv hX
    obtain ⟨j, t, rfl, h3, h4⟩ := mapM_cons_inv h2
    obtain ⟨k, t, rfl, h5, h6⟩ := mapM_cons_inv h4
    obtain rfl := mapM_nil_inv h6
    obtain ⟨s, t, s0, t0, st, e1, e2, e3⟩ := pointTriangle_spec (p := p) hg
    have hb : barycentric3 (toV3 hd (pointTriangleDistance x y z p).2) (toV3 hd x) (toV3 hd y) (toV3 hd z) = ⟨1 - s - t, s, t⟩ := by
      rw [e1, toV3_comb]
      exact bary3_of_comb (by rw [gram_cross]; exact hg.ne') (by ring)
    refine ⟨((pointTriangleDistance x y z p).1, [1 - s - t, s, t]), ?_, ?_, ?_, ?_⟩
    · simp only [squaredDistanceToElement, h1, h3, h5, Option.bind_eq_bind, Option.bind_some, dif_pos hd, hb]
    · refine ⟨rfl, ?_, by simp⟩
      intro x hx
      simp at hx
      rcases hx with rfl | rfl | rfl <;> linarith
    · show (pointTriangleDistance x y z p).1 = _
      rw [comb_triple, e2]
    · intro _ w hw
      obtain ⟨s', t', a0, a1, a2, rfl⟩ := weights_triple hw
      rw [comb_triple]
      exact e3 s' t' a0 a1 a2

theorem GoodElem.shape {X : List (Pt d)} (h : GoodElem X) : ElemShape X := by
  cases h with
  | point x => exact .point x
  | segment x y _ => exact .segment x y
  | triangle x y z hd h => exact .triangle x y z hd h

/-- C26.  Let `X` be the vertices of an element that is a point, a segment of length at least `1e-10` or a triangle of positive
area in space.  `squared_distance_to_element` returns `(d,b)` with `b` non-negative weights of sum one, `d` the squared distance from
`p` to the point with weights `b`, and `d` is at most the squared distance from `p` to any other point of the element. -/
theorem C26_point_element (p : Pt d) (V : List (Pt d)) (es : List ℕ) (X : List (Pt d)) (hX : es.mapM (fun i => V[i]?) = some X)
    (hg : GoodElem X) :
    ∃ r, squaredDistanceToElement p V es = some r ∧ IsWeights r.2 X.length ∧ r.1 = psq (comb r.2 X - p) ∧
      ∀ w, IsWeights w X.length → r.1 ≤ psq (comb w X - p) := by
  obtain ⟨r, h1, h2, h3, h4⟩ := elem_touch (p := p) hX hg.shape
  exact ⟨r, h1, h2, h3, h4 hg⟩

/-- C26, segments shorter than the threshold: the value is still the squared distance to a point of the segment (its start). -/
theorem C26_short_segment (p : Pt d) (V : List (Pt d)) (i j : ℕ) (x y : Pt d) (hi : V[i]? = some x) (hj : V[j]? = some y)
    (h : pnorm (y - x) < 1e-10) : squaredDistanceToElement p V [i, j] = some (psq (x - p), [1, 0]) := by
  simp only [squaredDistanceToElement, hi, hj, Option.bind_eq_bind, Option.bind_some, pointSegmentDistance, if_pos h]

/-- a triangle with a right angle meets the hypothesis -/
example : GoodElem [(![0, 0, 0] : Pt 3), ![1, 0, 0], ![0, 1, 0]] := by
  refine GoodElem.triangle _ _ _ rfl ?_
  simp [gram, pdot, Fin.sum_univ_three]

end Gpy
