import Verif.Props.Angles
import Verif.Props.Edges

/-! C46, entry by entry: `angle_defect`. -/

set_option autoImplicit false
namespace Gpy
open Np

theorem foldl_set_zero (b : List ℕ) (k : List ℝ) (v : ℕ) (hv : v < k.length) :
    (b.foldl (fun k i => k.set i 0) k)[v]? = if v ∈ b then some 0 else k[v]? := by
  induction b generalizing k with
  | nil => simp
  | cons a t ih =>
    rw [List.foldl_cons, ih _ (by simpa using hv)]
    by_cases h : v ∈ t
    · simp [h]
    · by_cases h2 : a = v
      · subst h2; simp [h, hv]
      · have : ¬ v = a := fun h => h2 h.symm
        simp [h, h2, this]

theorem foldl_set_length (b : List ℕ) (k : List ℝ) : (b.foldl (fun k i => k.set i 0) k).length = k.length := by
  induction b generalizing k with
  | nil => rfl
  | cons a t ih => rw [List.foldl_cons, ih, List.length_set]

/-- the angles of the triangles of `F` at `v`, added up -/
noncomputable def angleSum (V : List (V3 ℝ)) (F : List Tri) (v : ℕ) : ℝ :=
  (F.map (fun t =>
    let a := V.getD t.a 0
    let b := V.getD t.b 0
    let c := V.getD t.c 0
    (if t.a = v then angleAt a b c else 0) + (if t.b = v then angleAt b c a else 0) + (if t.c = v then angleAt c a b else 0))).sum

/-- C46, values: `angle_defect` returns `0` at every boundary vertex and `2π` minus the sum of the angles at all other ones (`2π` at
an unreferenced vertex). -/
theorem C46_values (V : List (V3 ℝ)) (F : List Tri) (hne : F ≠ []) (hF : InRange F V.length)
    (hd : ∀ t ∈ F, NonDeg (lens (V.getD t.a 0) (V.getD t.b 0) (V.getD t.c 0))) (approx : Bool)
    (hs : approx = false ∨ ∀ t ∈ F, NotSmall (lens (V.getD t.a 0) (V.getD t.b 0) (V.getD t.c 0))) :
    ∃ k, angleDefect V F approx = some k ∧ k.length = V.length ∧
      ∀ v < V.length, ((∃ e ∈ sides F, incid F e = 1 ∧ (v = e.s ∨ v = e.t)) → k[v]? = some 0) ∧
        ((¬ ∃ e ∈ sides F, incid F e = 1 ∧ (v = e.s ∨ v = e.t)) → k[v]? = some (2 * Real.pi - angleSum V F v)) := by
  obtain ⟨B, hB, _, hB2⟩ := C04_boundary_vertices F hne
  have hta := C53_tip_angles_value V F hne hF approx hd hs
  unfold tipAngles at hta
  rw [hls_some hne hF] at hta
  simp only [Option.bind_eq_bind, Option.bind_some] at hta
  unfold angleDefect angleDefectIntrinsic
  rw [hls_some hne hF]
  simp only [Option.bind_eq_bind, Option.bind_some, hta, hB]
  have hmax : max ((some V.length).getD 0) ((F.flatMap (fun t => [t.a, t.b, t.c])).foldl (fun m y => max m (y + 1)) 0) = V.length := by
    rw [Option.getD_some, max_eq_left]
    apply foldl_max_lub _ _ _ (Nat.zero_le _)
    intro y hy
    obtain ⟨t, ht, hy⟩ := List.mem_flatMap.mp hy
    have := hF t ht
    simp only [List.mem_cons, List.not_mem_nil, or_false] at hy
    omega
  refine ⟨_, rfl, ?_, ?_⟩
  · rw [foldl_set_length, List.length_map, bincount, List.length_map, List.length_range, hmax]
  intro v hv
  rw [foldl_set_zero _ _ _ (by rw [List.length_map, bincount, List.length_map, List.length_range, hmax]; exact hv)]
  constructor
  · intro h; rw [if_pos ((hB2 v).mpr h)]
  · intro h
    rw [if_neg (fun hc => h ((hB2 v).mp hc)), List.getElem?_map, bincount, List.getElem?_map, hmax, List.getElem?_range hv]
    simp only [Option.map_some]
    congr 2
    unfold angleSum
    rw [List.flatMap_map]
    clear h hB hB2 hta hF hd hs hmax hne
    induction F with
    | nil => simp
    | cons t F ih =>
      rw [List.flatMap_cons, List.flatMap_cons, List.zip_append (by simp), List.filter_append, List.map_append, List.sum_append, ih]
      simp only [List.map_cons, List.sum_cons]
      congr 1
      by_cases h1 : t.a = v <;> by_cases h2 : t.b = v <;> by_cases h3 : t.c = v <;>
        simp [h1, h2, h3, List.filter_cons, add_assoc]

/-- an open fan of two right triangles: all four vertices are on the boundary -/
example : ∀ v < 4, ∃ e ∈ sides [⟨0, 1, 2⟩, ⟨0, 2, 3⟩], incid [⟨0, 1, 2⟩, ⟨0, 2, 3⟩] e = 1 ∧ (v = e.s ∨ v = e.t) := by decide

/-- a closed fan around vertex 0: it is the only interior vertex -/
example : ¬ ∃ e ∈ sides [⟨0, 1, 2⟩, ⟨0, 2, 3⟩, ⟨0, 3, 1⟩], incid [⟨0, 1, 2⟩, ⟨0, 2, 3⟩, ⟨0, 3, 1⟩] e = 1 ∧ (0 = e.s ∨ 0 = e.t) := by decide

end Gpy
