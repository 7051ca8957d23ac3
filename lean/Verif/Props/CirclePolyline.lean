import Verif.Model.CirclePolyline
import Mathlib.Tactic.LinearCombination
import Mathlib.Analysis.SpecialFunctions.Trigonometric.Complex

/-! C94: `regular_circle_polyline`. -/

set_option autoImplicit false
namespace Gpy

/-- squared distance of two points of the plane -/
def sqd2 (p q : ℝ × ℝ) : ℝ := (p.1 - q.1) ^ 2 + (p.2 - q.2) ^ 2

/-- the point of the unit circle at angle `t` -/
noncomputable def circlePt (t : ℝ) : ℝ × ℝ := (Real.cos t, Real.sin t)

theorem rcp_vertex {n : ℕ} {V : List (ℝ × ℝ)} {E : List (ℕ × ℕ)} (h : regularCirclePolyline n = some (V, E)) :
    3 ≤ n ∧ V = (List.range n).map (fun i : ℕ => circlePt (2 * Real.pi * i / (n - 1))) ∧ E = (List.range n).map (fun i => (i, (i + 1) % n)) := by
  unfold regularCirclePolyline at h
  split_ifs at h with hn
  simp only [Option.some.injEq, Prod.mk.injEq] at h
  refine ⟨hn, ?_, ?_⟩
  · rw [← h.1]
    simp only [List.map_map]
    apply List.ext_getElem
    · simp
    · intro i h1 h2
      simp only [List.getElem_zip, List.getElem_map, List.getElem_range, circlePt, Function.comp, linspace, zero_add, sub_zero]
      rw [mul_div_assoc', mul_comm (i : ℝ)]
  · rw [← h.2]
    apply List.ext_getElem
    · simp; omega
    · intro i h1 h2
      simp only [List.length_map, List.length_range] at h2
      simp only [List.getElem_zip, List.getElem_map, List.getElem_range, List.getElem_append, List.length_map, List.length_range]
      by_cases hi : i < n - 1
      · rw [dif_pos hi, Nat.mod_eq_of_lt (by omega), Nat.add_comm]
      · rw [dif_neg hi, show i + 1 = n by omega, Nat.mod_self]; simp

/-- **C94** for `n ≥ 3` the call returns `n` vertices and `n` edges; vertex `i` is the point of the unit circle at the angle `2πi/(n-1)`
and edge `i` joins vertex `i` with vertex `i+1`, the last one with vertex `0`: the edges are one closed chain through all rows. -/
theorem C94_result (n : ℕ) (hn : 3 ≤ n) :
    ∃ V E, regularCirclePolyline n = some (V, E) ∧ V.length = n ∧ E.length = n ∧
      (∀ p ∈ V, p.1 ^ 2 + p.2 ^ 2 = 1) ∧
      ∀ i < n, V[i]? = some (Real.cos (2 * Real.pi * i / (n - 1)), Real.sin (2 * Real.pi * i / (n - 1))) ∧ E[i]? = some (i, if i + 1 = n then 0 else i + 1) := by
  obtain ⟨⟨V, E⟩, h⟩ : ∃ r, regularCirclePolyline n = some r := ⟨_, if_pos hn⟩
  obtain ⟨_, hV, hE⟩ := rcp_vertex h
  refine ⟨V, E, h, by rw [hV]; simp, by rw [hE]; simp, ?_, ?_⟩
  · intro p hp
    rw [hV] at hp
    obtain ⟨i, _, rfl⟩ := List.mem_map.mp hp
    simp [circlePt]
  · intro i hi
    refine ⟨by rw [hV, List.getElem?_map, List.getElem?_range hi]; rfl, ?_⟩
    rw [hE, List.getElem?_map, List.getElem?_range hi]
    simp only [Option.map_some, Option.some.injEq, Prod.mk.injEq, true_and]
    split_ifs with h1
    · rw [h1, Nat.mod_self]
    · exact Nat.mod_eq_of_lt (by omega)

/-- **C94** fewer than three vertices are refused. -/
theorem C94_refused (n : ℕ) (hn : n < 3) : regularCirclePolyline n = none := if_neg (by omega)

theorem circle_chord (a b : ℝ) : sqd2 (circlePt a) (circlePt b) = (2 * Real.sin ((a - b) / 2)) ^ 2 := by
  have h1 := Real.cos_sub a b
  have h2 : Real.cos (a - b) = 1 - 2 * Real.sin ((a - b) / 2) ^ 2 := by
    have h := Real.cos_two_mul ((a - b) / 2)
    rw [mul_div_cancel₀ (a - b) (two_ne_zero)] at h
    have := Real.sin_sq_add_cos_sq ((a - b) / 2)
    linarith
  have ha := Real.sin_sq_add_cos_sq a
  have hb := Real.sin_sq_add_cos_sq b
  unfold sqd2 circlePt
  simp only
  nlinarith

/-- **C94** all edges but the last one have the same length `2 sin(π/(n-1))`. -/
theorem C94_edges {n : ℕ} {V : List (ℝ × ℝ)} {E : List (ℕ × ℕ)} (h : regularCirclePolyline n = some (V, E)) {i : ℕ} (hi : i + 1 < n) :
    ∃ p q, V[i]? = some p ∧ V[i + 1]? = some q ∧ E[i]? = some (i, i + 1) ∧ Real.sqrt ((p.1 - q.1) ^ 2 + (p.2 - q.2) ^ 2) = 2 * Real.sin (Real.pi / (n - 1)) ∧
      0 < Real.sin (Real.pi / (n - 1)) := by
  obtain ⟨hn, hV, hE⟩ := rcp_vertex h
  have hn2 : (2 : ℝ) ≤ n - 1 := by
    have : (3 : ℝ) ≤ n := by exact_mod_cast hn
    linarith
  have hn1 : (0 : ℝ) < n - 1 := by linarith
  have hs : 0 < Real.sin (Real.pi / (n - 1)) := by
    apply Real.sin_pos_of_pos_of_lt_pi (div_pos Real.pi_pos hn1)
    rw [div_lt_iff₀ hn1]
    nlinarith [Real.pi_pos]
  refine ⟨circlePt (2 * Real.pi * i / (n - 1)), circlePt (2 * Real.pi * (i + 1 : ℕ) / (n - 1)), ?_, ?_, ?_, ?_, hs⟩
  · rw [hV, List.getElem?_map, List.getElem?_range (by omega)]; rfl
  · rw [hV, List.getElem?_map, List.getElem?_range hi]; rfl
  · rw [hE, List.getElem?_map, List.getElem?_range (by omega)]
    simp [Nat.mod_eq_of_lt hi]
  · have := circle_chord (2 * Real.pi * i / (n - 1)) (2 * Real.pi * (i + 1 : ℕ) / (n - 1))
    unfold sqd2 at this
    rw [this, show (2 * Real.pi * i / (n - 1) - 2 * Real.pi * (i + 1 : ℕ) / (n - 1)) / 2 = -(Real.pi / ((n : ℝ) - 1)) by push_cast; ring, Real.sin_neg,
      mul_neg, neg_sq, Real.sqrt_sq (by linarith)]

/-- **C94** two rows hold the same point exactly when they are the first and the last one: the polyline has `n-1` different points, not `n`. -/
theorem C94_distinct {n : ℕ} {V : List (ℝ × ℝ)} {E : List (ℕ × ℕ)} (h : regularCirclePolyline n = some (V, E)) {i j : ℕ} (hij : i < j) (hj : j < n) :
    V[i]? = V[j]? ↔ i = 0 ∧ j + 1 = n := by
  obtain ⟨hn, hV, hE⟩ := rcp_vertex h
  have hn1 : (0 : ℝ) < n - 1 := by
    have : (3 : ℝ) ≤ n := by exact_mod_cast hn
    linarith
  rw [hV, List.getElem?_map, List.getElem?_map, List.getElem?_range hj, List.getElem?_range (by omega)]
  simp only [Option.map_some, Option.some.injEq]
  constructor
  · intro he
    have h0 := circle_chord (2 * Real.pi * j / (n - 1)) (2 * Real.pi * i / (n - 1))
    rw [he] at h0
    have hz : sqd2 (circlePt (2 * Real.pi * j / (n - 1))) (circlePt (2 * Real.pi * j / (n - 1))) = 0 := by simp [sqd2]
    rw [hz] at h0
    have hs : Real.sin ((2 * Real.pi * j / (n - 1) - 2 * Real.pi * i / (n - 1)) / 2) = 0 := by
      have := pow_eq_zero_iff (two_ne_zero) |>.mp h0.symm
      linarith
    rw [show (2 * Real.pi * j / (n - 1) - 2 * Real.pi * i / (n - 1)) / 2 = Real.pi * (j - i) / ((n : ℝ) - 1) by ring] at hs
    by_contra hne
    have hlt : (j : ℝ) - i < n - 1 := by
      have : j + 1 < n + i := by omega
      have : (j : ℝ) + 1 < n + i := by exact_mod_cast this
      linarith
    have hpos : (0 : ℝ) < j - i := by
      have : (i : ℝ) < j := by exact_mod_cast hij
      linarith
    refine (Real.sin_pos_of_pos_of_lt_pi (div_pos (mul_pos Real.pi_pos hpos) hn1) ?_).ne' hs
    rw [div_lt_iff₀ hn1]
    exact mul_lt_mul_of_pos_left hlt Real.pi_pos
  · rintro ⟨rfl, hjn⟩
    have : (j : ℝ) = n - 1 := by rw [← hjn]; push_cast; ring
    rw [this, mul_div_cancel_right₀ _ hn1.ne']
    simp [circlePt]

/-- what the documentation promises of the result: the `n` vertices are different points and all `n` edges have the same length -/
def IsRegularPolygon (V : List (ℝ × ℝ)) (E : List (ℕ × ℕ)) : Prop :=
  V.Nodup ∧ ∃ l, ∀ e ∈ E, ∃ p q, V[e.1]? = some p ∧ V[e.2]? = some q ∧ Real.sqrt ((p.1 - q.1) ^ 2 + (p.2 - q.2) ^ 2) = l

/-- **C94** the result is a regular polygon for no `n`: the last edge joins the last vertex to the first one, which is the same point, and has length zero. -/
theorem C94_regular_violated {n : ℕ} {V : List (ℝ × ℝ)} {E : List (ℕ × ℕ)} (h : regularCirclePolyline n = some (V, E)) :
    (¬ V.Nodup) ∧ (∃ p, E[n - 1]? = some (n - 1, 0) ∧ V[n - 1]? = some p ∧ V[0]? = some p) ∧ ¬ IsRegularPolygon V E := by
  obtain ⟨hn, hV, hE⟩ := rcp_vertex h
  have hd := (C94_distinct h (i := 0) (j := n - 1) (by omega) (by omega)).mpr ⟨rfl, by omega⟩
  have hlen : V.length = n := by rw [hV]; simp
  have h0 : ¬ V.Nodup := by
    intro hnd
    have := (hnd.getElem_inj_iff (i := 0) (j := n - 1) (hi := by omega) (hj := by omega)).mp
    rw [List.getElem?_eq_getElem (by omega), List.getElem?_eq_getElem (by omega), Option.some.injEq] at hd
    have := this hd
    omega
  refine ⟨h0, ⟨V[0]'(by omega), ?_, ?_, List.getElem?_eq_getElem (by omega)⟩, fun hr => h0 hr.1⟩
  · rw [hE, List.getElem?_map, List.getElem?_range (by omega)]
    simp [Nat.sub_add_cancel (show 1 ≤ n by omega)]
  · rw [← hd]; exact List.getElem?_eq_getElem (by omega)

/-- the hypothesis of the theorems above is met -/
example : ∃ V E, regularCirclePolyline 5 = some (V, E) := ⟨_, _, if_pos (by omega)⟩

end Gpy
