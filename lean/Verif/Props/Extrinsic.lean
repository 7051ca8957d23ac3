import Verif.Model.Extrinsic
import Verif.Proofs.Heron
import Verif.Props.Mass

/-! C86: operators given by vertex positions only see lengths: rigid motions do not change them, and scaling scales them. -/

set_option autoImplicit false
namespace Gpy
open Np Finset

/-- Specification: a map of space that preserves distances (a rotation, translation, reflection or a composition of these). -/
def PreservesDistances (φ : V3 ℝ → V3 ℝ) : Prop := ∀ p q, V3.normSq (φ p - φ q) = V3.normSq (p - q)

/-- Specification: all entries of a sparse matrix multiplied by `c`. -/
def csrScale (c : ℝ) (M : Csr ℝ) : Csr ℝ := ⟨M.nrows, M.ncols, M.trip.map (fun t => (t.1, t.2.1, c * t.2.2))⟩

theorem csrScale_get (c : ℝ) (M : Csr ℝ) (i j : ℕ) : (csrScale c M).get i j = c * M.get i j := by
  unfold csrScale Csr.get
  rw [List.map_map, ← List.sum_map_mul_left]
  congr 1
  apply List.map_congr_left
  intro t _
  simp only [Function.comp]
  split_ifs <;> simp

theorem hls_map (g : V3 ℝ → V3 ℝ) (h : Row3 ℝ → Row3 ℝ)
    (hg : ∀ a b c : V3 ℝ, Row3.mk (V3.normSq (g c - g b)) (V3.normSq (g a - g c)) (V3.normSq (g b - g a)) =
      h (Row3.mk (V3.normSq (c - b)) (V3.normSq (a - c)) (V3.normSq (b - a)))) (V : List (V3 ℝ)) (F : List Tri) :
    halfedgeLengthsSquared (V.map g) F = (halfedgeLengthsSquared V F).map (List.map h) := by
  unfold halfedgeLengthsSquared
  by_cases hc : V = [] ∨ F = []
  · rw [if_pos hc, if_pos (by simpa using hc)]; rfl
  · rw [if_neg hc, if_neg (by simpa using hc)]
    clear hc
    induction F with
    | nil => rfl
    | cons t F ih =>
      rw [List.mapM_cons, List.mapM_cons, ih]
      simp only [List.getElem?_map]
      rcases V[t.a]? with _ | a
      · rfl
      rcases V[t.b]? with _ | b
      · rfl
      rcases V[t.c]? with _ | c
      · rfl
      simp only [Option.map_some, Option.bind_eq_bind, Option.bind_some, hg]
      generalize List.mapM (m := Option) _ F = x
      rcases x with _ | r <;> rfl

theorem hls_rigid {φ : V3 ℝ → V3 ℝ} (hφ : PreservesDistances φ) (V : List (V3 ℝ)) (F : List Tri) :
    halfedgeLengthsSquared (V.map φ) F = halfedgeLengthsSquared V F := by
  rw [hls_map φ id (fun a b c => by simp [hφ _ _])]
  cases halfedgeLengthsSquared V F <;> simp

/-- **C86** moving a mesh by any map that preserves distances changes none of: halfedge lengths, areas, cotangent weights, cotangent Laplacian, mass matrices, the Hodge stars and their inverses, tip angles, angle
defects, biharmonic energy — exactly, including whether the call fails. -/
theorem C86_rigid {φ : V3 ℝ → V3 ℝ} (hφ : PreservesDistances φ) (V : List (V3 ℝ)) (F : List Tri) :
    halfedgeLengths (V.map φ) F = halfedgeLengths V F ∧ doublearea (V.map φ) F = doublearea V F ∧ cotangentWeights (V.map φ) F = cotangentWeights V F ∧
    cotangentLaplacian (V.map φ) F = cotangentLaplacian V F ∧ (∀ type, massmatrix (V.map φ) F type = massmatrix V F type) ∧
    decH0 (V.map φ) F = decH0 V F ∧ decH0Inv (V.map φ) F = decH0Inv V F ∧ (∀ E, decH1 (V.map φ) F E = decH1 V F E) ∧ (∀ E, decH1Inv (V.map φ) F E = decH1Inv V F E) ∧
    decH2 (V.map φ) F = decH2 V F ∧ decH2Inv (V.map φ) F = decH2Inv V F ∧ (∀ approx, tipAngles (V.map φ) F approx = tipAngles V F approx) ∧
    (∀ approx, angleDefect (V.map φ) F approx = angleDefect V F approx) ∧ biharmonicEnergy (V.map φ) F = biharmonicEnergy V F := by
  refine ⟨?_, ?_, ?_, ?_, fun type => ?_, ?_, ?_, fun E => ?_, fun E => ?_, ?_, ?_, fun a => ?_, fun a => ?_, ?_⟩
  · unfold halfedgeLengths; rw [hls_rigid hφ]
  · unfold doublearea; rw [hls_rigid hφ]
  · unfold cotangentWeights; rw [hls_rigid hφ]
  · unfold cotangentLaplacian; rw [hls_rigid hφ, List.length_map]
  · unfold massmatrix; rw [hls_rigid hφ, List.length_map]
  · unfold decH0; rw [hls_rigid hφ, List.length_map]
  · unfold decH0Inv; rw [hls_rigid hφ, List.length_map]
  · unfold decH1; rw [hls_rigid hφ]
  · unfold decH1Inv; rw [hls_rigid hφ]
  · unfold decH2; rw [hls_rigid hφ]
  · unfold decH2Inv; rw [hls_rigid hφ]
  · unfold tipAngles; rw [hls_rigid hφ]
  · unfold angleDefect; rw [hls_rigid hφ, List.length_map]
  · unfold biharmonicEnergy; rw [hls_rigid hφ, List.length_map]

/-- squared lengths after scaling -/
def lsqScale (k : ℝ) (r : Row3 ℝ) : Row3 ℝ := ⟨k * r.x0, k * r.x1, k * r.x2⟩

theorem hls_scale (s : ℝ) (V : List (V3 ℝ)) (F : List Tri) :
    halfedgeLengthsSquared (V.map (s • ·)) F = (halfedgeLengthsSquared V F).map (List.map (lsqScale (s ^ 2))) := by
  apply hls_map
  intro a b c
  have h : ∀ p q : V3 ℝ, V3.normSq (s • p - s • q) = s ^ 2 * V3.normSq (p - q) := by
    intro p q
    simp only [V3.normSq, V3.dot, V3.sub_x, V3.sub_y, V3.sub_z, V3.smul_x, V3.smul_y, V3.smul_z]
    ring
  simp [lsqScale, h]

theorem dblArea_scale {k : ℝ} (hk : 0 ≤ k) (r : Row3 ℝ) : dblArea (lsqScale k r) = k * dblArea r := by
  unfold dblArea lsqScale
  simp only [Real.sqrt_mul hk]
  generalize Real.sqrt r.x0 = a
  generalize Real.sqrt r.x1 = b
  generalize Real.sqrt r.x2 = c
  have hs : Real.sqrt k * Real.sqrt k = k := Real.mul_self_sqrt hk
  generalize Real.sqrt k = q at *
  have e : (q * a + (q * b + q * c)) * (q * c - (q * a - q * b)) * (q * c + (q * a - q * b)) * (q * a + (q * b - q * c)) =
      k ^ 2 * ((a + (b + c)) * (c - (a - b)) * (c + (a - b)) * (a + (b - c))) := by
    rw [← hs]; ring
  rw [e]
  have e2 : max (k ^ 2 * ((a + (b + c)) * (c - (a - b)) * (c + (a - b)) * (a + (b - c)))) 0 =
      k ^ 2 * max ((a + (b + c)) * (c - (a - b)) * (c + (a - b)) * (a + (b - c))) 0 := by
    rw [mul_max_of_nonneg _ _ (by positivity), mul_zero]
  rw [e2, Real.sqrt_mul (by positivity), Real.sqrt_sq hk]
  ring

theorem lsqOk_scale {k : ℝ} (hk : 0 < k) (lsq : List (Row3 ℝ)) (F : List Tri) : lsqOk (lsq.map (lsqScale k)) F ↔ lsqOk lsq F := by
  unfold lsqOk
  rw [List.length_map]
  refine and_congr_right (fun _ => ?_)
  simp only [List.forall_mem_map, lsqScale, mul_nonneg_iff_of_pos_left hk]

theorem cotRow_scale {k : ℝ} (hk : 0 < k) (r : Row3 ℝ) : cotRow (lsqScale k r) = cotRow r := by
  unfold cotRow
  rw [dblArea_scale hk.le]
  simp only [lsqScale]
  have h : ∀ x y z : ℝ, 0.25 * (k * x + k * y - k * z) / (k * dblArea r) = 0.25 * (x + y - z) / dblArea r := by
    intro x y z
    rw [show 0.25 * (k * x + k * y - k * z) = k * (0.25 * (x + y - z)) by ring, mul_div_mul_left _ _ hk.ne']
  rw [h, h, h]

theorem cot_scale {k : ℝ} (hk : 0 < k) (lsq : List (Row3 ℝ)) (F : List Tri) :
    cotangentWeightsIntrinsic (lsq.map (lsqScale k)) F = cotangentWeightsIntrinsic lsq F := by
  unfold cotangentWeightsIntrinsic
  have hc : (lsqOk (lsq.map (lsqScale k)) F ∧ ∀ r ∈ lsq.map (lsqScale k), dblArea r ≠ 0) ↔ (lsqOk lsq F ∧ ∀ r ∈ lsq, dblArea r ≠ 0) := by
    rw [lsqOk_scale hk]
    simp only [List.forall_mem_map, dblArea_scale hk.le, ne_eq, mul_eq_zero, hk.ne', false_or]
  by_cases h : lsqOk lsq F ∧ ∀ r ∈ lsq, dblArea r ≠ 0
  · rw [if_pos h, if_pos (hc.mpr h), List.map_map]
    congr 1
    exact List.map_congr_left (fun r _ => cotRow_scale hk r)
  · rw [if_neg h, if_neg (fun c => h (hc.mp c))]

theorem dbl_scale {k : ℝ} (hk : 0 < k) (lsq : List (Row3 ℝ)) (F : List Tri) :
    doubleareaIntrinsic (lsq.map (lsqScale k)) F = (doubleareaIntrinsic lsq F).map (List.map (k * ·)) := by
  unfold doubleareaIntrinsic
  by_cases h : lsqOk lsq F
  · rw [if_pos h, if_pos ((lsqOk_scale hk _ _).mpr h), List.map_map, Option.map_some, List.map_map]
    congr 1
    exact List.map_congr_left (fun r _ => dblArea_scale hk.le r)
  · rw [if_neg h, if_neg (fun c => h ((lsqOk_scale hk _ _).mp c))]; rfl

theorem voronoiRow_scale {k : ℝ} (hk : 0 < k) (r : Row3 ℝ) : voronoiRow (lsqScale k r) = lsqScale k (voronoiRow r) := by
  have hs : Real.sqrt k * Real.sqrt k = k := Real.mul_self_sqrt hk.le
  have hq : 0 < Real.sqrt k := Real.sqrt_pos.mpr hk
  unfold voronoiRow
  rw [dblArea_scale hk.le]
  simp only [lsqScale, Real.sqrt_mul hk.le]
  generalize Real.sqrt r.x0 = a
  generalize Real.sqrt r.x1 = b
  generalize Real.sqrt r.x2 = c
  generalize dblArea r = D
  generalize Real.sqrt k = q at *
  have hc : ∀ x y z u v : ℝ, (k * x + k * y - k * z) / (2 * (q * u) * (q * v)) = (x + y - z) / (2 * u * v) := by
    intro x y z u v
    rw [show k * x + k * y - k * z = k * (x + y - z) by ring, show 2 * (q * u) * (q * v) = k * (2 * u * v) by rw [← hs]; ring, mul_div_mul_left _ _ hk.ne']
  simp only [hc]
  generalize (r.x2 + r.x1 - r.x0) / (2 * c * b) = c0
  generalize (r.x0 + r.x2 - r.x1) / (2 * a * c) = c1
  generalize (r.x1 + r.x0 - r.x2) / (2 * b * a) = c2
  have hd : ∀ x u : ℝ, x * (q * u) / (c0 * (q * a) + c1 * (q * b) + c2 * (q * c)) = x * u / (c0 * a + c1 * b + c2 * c) := by
    intro x u
    rw [show x * (q * u) = q * (x * u) by ring, show c0 * (q * a) + c1 * (q * b) + c2 * (q * c) = q * (c0 * a + c1 * b + c2 * c) by ring, mul_div_mul_left _ _ hq.ne']
  simp only [hd]
  split_ifs <;> simp only [Row3.mk.injEq] <;> refine ⟨?_, ?_, ?_⟩ <;> ring

theorem zip3_scale (c : ℝ) (rows cols : List ℕ) (data : List ℝ) :
    zip3 rows cols (data.map (c * ·)) = (zip3 rows cols data).map (fun t => (t.1, t.2.1, c * t.2.2)) := by
  unfold zip3
  rw [List.zip_map_right, List.zip_map_right]
  rfl

theorem csrMatrix_scale (c : ℝ) (data : List ℝ) (rows cols : List ℕ) (r k : ℕ) :
    csrMatrix (data.map (c * ·)) rows cols r k = (csrMatrix data rows cols r k).map (csrScale c) := by
  unfold csrMatrix
  rw [List.length_map, zip3_scale]
  by_cases h : rows.length = data.length ∧ cols.length = data.length ∧ (∀ i ∈ rows, i < r) ∧ ∀ j ∈ cols, j < k
  · rw [if_pos h, if_pos h]; rfl
  · rw [if_neg h, if_neg h]; rfl

theorem diags_scale (c : ℝ) (d : List ℝ) : Csr.diags (d.map (c * ·)) = csrScale c (Csr.diags d) := by
  unfold Csr.diags csrScale
  simp only [List.length_map, List.map_map, Csr.mk.injEq, true_and]
  rw [List.zipIdx_map, List.map_map]
  rfl

theorem mass_scale {k : ℝ} (hk : 0 < k) (lsq : List (Row3 ℝ)) (F : List Tri) (n : Option ℕ) (type : MassType) :
    massmatrixIntrinsic (lsq.map (lsqScale k)) F n type = (massmatrixIntrinsic lsq F n type).map (csrScale k) := by
  unfold massmatrixIntrinsic
  rw [dbl_scale hk]
  rcases nOr n F with _ | n
  · rfl
  rcases doubleareaIntrinsic lsq F with _ | dA
  · rfl
  simp only [Option.map_some, Option.bind_eq_bind, Option.bind_some]
  cases type with
  | voronoi =>
    simp only [List.forall_mem_map, ne_eq, mul_eq_zero, hk.ne', false_or, List.map_map]
    by_cases h : ∀ x ∈ dA, ¬x = 0
    · rw [if_pos h, if_pos h, ← csrMatrix_scale]
      congr 1
      simp only [List.map_append, List.map_map]
      congr 1
      · congr 1
        all_goals exact List.map_congr_left (fun r _ => by simp only [Function.comp, voronoiRow_scale hk]; rfl)
      · exact List.map_congr_left (fun r _ => by simp only [Function.comp, voronoiRow_scale hk]; rfl)
    · rw [if_neg h, if_neg h]; rfl
  | barycentric =>
    simp only
    rw [← csrMatrix_scale]
    simp only [List.map_append, List.map_map, Function.comp_def, mul_div_assoc]
  | full =>
    simp only
    rw [← csrMatrix_scale]
    simp only [List.map_append, List.map_map, Function.comp_def, mul_div_assoc]

/-- **C86** scaling a mesh by `s ≠ 0`: lengths scale by `|s|`; areas, mass matrices and the Hodge stars of vertices and faces by `s²`, their inverses by `1/s²`; the cotangent weights, the cotangent Laplacian and the
Hodge star of edges (and its inverse) do not change. -/
theorem C86_scale {s : ℝ} (hs : s ≠ 0) (V : List (V3 ℝ)) (F : List Tri) :
    halfedgeLengths (V.map (s • ·)) F = (halfedgeLengths V F).map (List.map (fun r => ⟨|s| * r.x0, |s| * r.x1, |s| * r.x2⟩)) ∧
    doublearea (V.map (s • ·)) F = (doublearea V F).map (List.map (s ^ 2 * ·)) ∧
    (∀ type, massmatrix (V.map (s • ·)) F type = (massmatrix V F type).map (csrScale (s ^ 2))) ∧
    decH0 (V.map (s • ·)) F = (decH0 V F).map (csrScale (s ^ 2)) ∧ decH0Inv (V.map (s • ·)) F = (decH0Inv V F).map (csrScale (1 / s ^ 2)) ∧
    decH2 (V.map (s • ·)) F = (decH2 V F).map (csrScale (s ^ 2)) ∧ decH2Inv (V.map (s • ·)) F = (decH2Inv V F).map (csrScale (1 / s ^ 2)) ∧
    cotangentWeights (V.map (s • ·)) F = cotangentWeights V F ∧ cotangentLaplacian (V.map (s • ·)) F = cotangentLaplacian V F ∧
    (∀ E, decH1 (V.map (s • ·)) F E = decH1 V F E) ∧ (∀ E, decH1Inv (V.map (s • ·)) F E = decH1Inv V F E) := by
  have hk : 0 < s ^ 2 := by positivity
  have hinv : ∀ x : ℝ, 1 / (s ^ 2 * x) = 1 / s ^ 2 * (1 / x) := fun x => by rw [one_div_mul_one_div]
  refine ⟨?_, ?_, fun type => ?_, ?_, ?_, ?_, ?_, ?_, ?_, fun E => ?_, fun E => ?_⟩
  · unfold halfedgeLengths
    rw [hls_scale]
    rcases halfedgeLengthsSquared V F with _ | lsq
    · rfl
    simp only [Option.map_some, Option.bind_eq_bind, Option.bind_some, List.map_map, lsqScale, Function.comp_def, Real.sqrt_mul hk.le, Real.sqrt_sq_eq_abs]
  · unfold doublearea
    rw [hls_scale]
    rcases halfedgeLengthsSquared V F with _ | lsq
    · rfl
    exact dbl_scale hk lsq F
  · unfold massmatrix
    rw [hls_scale, List.length_map]
    rcases halfedgeLengthsSquared V F with _ | lsq
    · rfl
    exact mass_scale hk lsq F (some V.length) type
  · unfold decH0
    rw [hls_scale, List.length_map]
    rcases halfedgeLengthsSquared V F with _ | lsq
    · rfl
    simp only [Option.map_some, Option.bind_eq_bind, Option.bind_some]
    unfold decH0Intrinsic
    rw [dbl_scale hk]
    rcases doubleareaIntrinsic lsq F with _ | dA
    · rfl
    simp only [Option.map_some, Option.bind_eq_bind, Option.bind_some, nOr]
    rw [← csrMatrix_scale]
    simp only [List.map_append, List.map_map, Function.comp_def, mul_left_comm]
  · unfold decH0Inv
    rw [hls_scale, List.length_map]
    rcases halfedgeLengthsSquared V F with _ | lsq
    · rfl
    simp only [Option.map_some, Option.bind_eq_bind, Option.bind_some]
    unfold decH0InvIntrinsic
    rw [dbl_scale hk]
    rcases doubleareaIntrinsic lsq F with _ | dA
    · rfl
    simp only [Option.map_some, Option.bind_eq_bind, Option.bind_some, nOr, List.map_map]
    have hc : (∀ x ∈ dA.map ((fun x => 0.5 / 3 * x) ∘ (s ^ 2 * ·)), x ≠ 0) ↔ ∀ x ∈ dA.map (fun x => 0.5 / 3 * x), x ≠ 0 := by
      simp only [List.forall_mem_map, Function.comp, ne_eq, mul_eq_zero, hk.ne', false_or]
    by_cases h : ∀ x ∈ dA.map (fun x => 0.5 / 3 * x), x ≠ 0
    · rw [if_pos h, if_pos (hc.mpr h), ← csrMatrix_scale]
      congr 1
      simp only [List.map_append, List.map_map, Function.comp_def, mul_left_comm _ (s ^ 2), hinv]
    · rw [if_neg h, if_neg (fun c => h (hc.mp c))]; rfl
  · unfold decH2
    rw [hls_scale]
    rcases halfedgeLengthsSquared V F with _ | lsq
    · rfl
    simp only [Option.map_some, Option.bind_eq_bind, Option.bind_some]
    unfold decH2Intrinsic
    rw [dbl_scale hk]
    rcases doubleareaIntrinsic lsq F with _ | dA
    · rfl
    simp only [Option.map_some, Option.bind_eq_bind, Option.bind_some]
    rw [← diags_scale]
    simp only [List.map_map, Function.comp_def, mul_left_comm]
  · unfold decH2Inv
    rw [hls_scale]
    rcases halfedgeLengthsSquared V F with _ | lsq
    · rfl
    simp only [Option.map_some, Option.bind_eq_bind, Option.bind_some]
    unfold decH2InvIntrinsic
    rw [dbl_scale hk]
    rcases doubleareaIntrinsic lsq F with _ | dA
    · rfl
    simp only [Option.map_some, Option.bind_eq_bind, Option.bind_some, List.map_map]
    have hc : (∀ x ∈ dA.map ((fun x => 0.5 * x) ∘ (s ^ 2 * ·)), x ≠ 0) ↔ ∀ x ∈ dA.map (fun x => 0.5 * x), x ≠ 0 := by
      simp only [List.forall_mem_map, Function.comp, ne_eq, mul_eq_zero, hk.ne', false_or]
    by_cases h : ∀ x ∈ dA.map (fun x => 0.5 * x), x ≠ 0
    · rw [if_pos h, if_pos (hc.mpr h), Option.map_some, ← diags_scale]
      simp only [List.map_map, Function.comp_def, mul_left_comm _ (s ^ 2), hinv]
    · rw [if_neg h, if_neg (fun c => h (hc.mp c))]; rfl
  · unfold cotangentWeights
    rw [hls_scale]
    rcases halfedgeLengthsSquared V F with _ | lsq
    · rfl
    exact cot_scale hk lsq F
  · unfold cotangentLaplacian
    rw [hls_scale, List.length_map]
    rcases halfedgeLengthsSquared V F with _ | lsq
    · rfl
    simp only [Option.map_some, Option.bind_eq_bind, Option.bind_some]
    unfold cotangentLaplacianIntrinsic
    rw [cot_scale hk]
  · unfold decH1
    rw [hls_scale]
    rcases halfedgeLengthsSquared V F with _ | lsq
    · rfl
    simp only [Option.map_some, Option.bind_eq_bind, Option.bind_some]
    unfold decH1Intrinsic h1Diag
    rw [cot_scale hk]
  · unfold decH1Inv
    rw [hls_scale]
    rcases halfedgeLengthsSquared V F with _ | lsq
    · rfl
    simp only [Option.map_some, Option.bind_eq_bind, Option.bind_some]
    unfold decH1InvIntrinsic h1Diag
    rw [cot_scale hk]

/-- rotating by a quarter turn about the vertical axis and translating preserves distances -/
example : PreservesDistances (fun p => ⟨-p.y + 3, p.x - 1, p.z + 2⟩) := by
  intro p q
  simp only [V3.normSq, V3.dot, V3.sub_x, V3.sub_y, V3.sub_z]
  ring

end Gpy
