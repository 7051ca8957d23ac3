import Verif.Model.Skinning
import Mathlib.Analysis.Convex.Combination
import Mathlib.LinearAlgebra.Matrix.Notation
import Mathlib.LinearAlgebra.Matrix.ToLin
import Mathlib.Tactic.FinCases
import Mathlib.Tactic.NormNum
import Mathlib.Tactic.Linarith

/-! C85: `linear_blend_skinning`. -/

set_option autoImplicit false
namespace Gpy
open Matrix

variable {n m d : ℕ}

/-- Specification: where the affine map `(R, T)` sends the point `p`. -/
def affineImage (R : Matrix (Fin d) (Fin d) ℝ) (T p : Pt d) : Pt d := R *ᵥ p + T

theorem lbs_fold (V : Matrix (Fin n) (Fin d) ℝ) (Ws : Matrix (Fin n) (Fin m) ℝ) (Rs : List (Matrix (Fin d) (Fin d) ℝ)) (Ts : List (Pt d))
    (R : Fin m → Matrix (Fin d) (Fin d) ℝ) (T : Fin m → Pt d) (hR : ∀ i : Fin m, Rs[i.val]? = some (R i)) (hT : ∀ i : Fin m, Ts[i.val]? = some (T i)) :
    ∀ (l : List (Fin m)) (U : Matrix (Fin n) (Fin d) ℝ), l.foldlM (lbsStep V Ws Rs Ts) U =
      some (Matrix.of fun v k => U v k + (l.map (fun i => Ws v i * affineImage (R i) (T i) (V v) k)).sum)
  | [], U => by simp; rfl
  | i :: l, U => by
    have hs : lbsStep V Ws Rs Ts U i = some (Matrix.of fun v k => U v k + Ws v i * ((V * (R i)ᵀ) v k + T i k)) := by
      unfold lbsStep
      simp only [hR, hT, Option.bind_eq_bind, Option.bind_some]
    rw [List.foldlM_cons, hs, Option.bind_eq_bind, Option.bind_some, lbs_fold V Ws Rs Ts R T hR hT l]
    congr 1
    ext v k
    simp only [of_apply, List.map_cons, List.sum_cons, affineImage, Pi.add_apply, mul_apply, mulVec, dotProduct, transpose_apply]
    rw [add_assoc]
    congr 3
    congr 1
    exact Finset.sum_congr rfl (fun x _ => mul_comm _ _)

/-- **C85** linear blend skinning: when there is a transformation for each column of the weights, every vertex goes to the weighted sum of its images under the transformations. -/
theorem C85_formula (V : Matrix (Fin n) (Fin d) ℝ) (Ws : Matrix (Fin n) (Fin m) ℝ) (Rs : List (Matrix (Fin d) (Fin d) ℝ)) (Ts : List (Pt d))
    (R : Fin m → Matrix (Fin d) (Fin d) ℝ) (T : Fin m → Pt d) (hR : ∀ i : Fin m, Rs[i.val]? = some (R i)) (hT : ∀ i : Fin m, Ts[i.val]? = some (T i)) :
    ∃ U, linearBlendSkinning V Ws Rs Ts = some U ∧ ∀ v, U v = ∑ i, Ws v i • affineImage (R i) (T i) (V v) := by
  refine ⟨_, lbs_fold V Ws Rs Ts R T hR hT _ _, fun v => ?_⟩
  funext k
  simp only [of_apply, Matrix.zero_apply, zero_add, Finset.sum_apply, Pi.smul_apply, smul_eq_mul]
  rw [← List.sum_ofFn, List.ofFn_eq_map]

theorem lbs_none (V : Matrix (Fin n) (Fin d) ℝ) (Ws : Matrix (Fin n) (Fin m) ℝ) (Rs : List (Matrix (Fin d) (Fin d) ℝ)) (Ts : List (Pt d)) (i : Fin m)
    (h : Rs[i.val]? = none ∨ Ts[i.val]? = none) : ∀ (l : List (Fin m)) (U : Matrix (Fin n) (Fin d) ℝ), i ∈ l → l.foldlM (lbsStep V Ws Rs Ts) U = none
  | [], U, hm => by simp at hm
  | j :: l, U, hm => by
    rw [List.foldlM_cons, Option.bind_eq_bind, Option.bind_eq_none_iff]
    intro U' hU'
    rcases List.mem_cons.mp hm with rfl | hm
    · unfold lbsStep at hU'
      rcases h with h | h
      · simp [h] at hU'
      · cases hr : Rs[i.val]? <;> simp [h, hr] at hU'
    · exact lbs_none V Ws Rs Ts i h l U' hm

/-- **C85** a column of the weights without a transformation is an error, never ignored. -/
theorem C85_missing (V : Matrix (Fin n) (Fin d) ℝ) (Ws : Matrix (Fin n) (Fin m) ℝ) (Rs : List (Matrix (Fin d) (Fin d) ℝ)) (Ts : List (Pt d)) (i : Fin m)
    (h : Rs[i.val]? = none ∨ Ts[i.val]? = none) : linearBlendSkinning V Ws Rs Ts = none :=
  lbs_none V Ws Rs Ts i h _ _ (List.mem_finRange i)

theorem affineImage_comp (A R : Matrix (Fin d) (Fin d) ℝ) (b T p : Pt d) :
    affineImage (A * R) (A *ᵥ T + b) p = affineImage A b (affineImage R T p) := by
  unfold affineImage
  rw [Matrix.mulVec_add, Matrix.mulVec_mulVec, add_assoc]

/-- **C85** if all transformations are the same and the weights of a vertex add up to one, the vertex undergoes that transformation: a rigid motion stays a rigid motion, and the identity leaves the mesh alone. -/
theorem C85_common (V : Matrix (Fin n) (Fin d) ℝ) (Ws : Matrix (Fin n) (Fin m) ℝ) (R : Matrix (Fin d) (Fin d) ℝ) (T : Pt d) (k : ℕ) (hk : m ≤ k)
    (hW : ∀ v, ∑ i, Ws v i = 1) :
    linearBlendSkinning V Ws (List.replicate k R) (List.replicate k T) = some (Matrix.of fun v => affineImage R T (V v)) := by
  obtain ⟨U, e, h⟩ := C85_formula V Ws (List.replicate k R) (List.replicate k T) (fun _ => R) (fun _ => T)
    (fun i => by rw [List.getElem?_replicate, if_pos (lt_of_lt_of_le i.isLt hk)]) (fun i => by rw [List.getElem?_replicate, if_pos (lt_of_lt_of_le i.isLt hk)])
  rw [e]
  congr 1
  funext v
  rw [h v, ← Finset.sum_smul, hW v, one_smul]
  rfl

/-- **C85** the identity transformations leave every vertex where it is. -/
theorem C85_identity (V : Matrix (Fin n) (Fin d) ℝ) (Ws : Matrix (Fin n) (Fin m) ℝ) (hW : ∀ v, ∑ i, Ws v i = 1) :
    linearBlendSkinning V Ws (List.replicate m 1) (List.replicate m 0) = some V := by
  rw [C85_common V Ws 1 0 m le_rfl hW]
  congr 1
  funext v
  change affineImage 1 0 (V v) = V v
  simp [affineImage]

/-- **C85** moving the whole skeleton by an affine map moves the result by it (weights that add up to one). -/
theorem C85_world (V : Matrix (Fin n) (Fin d) ℝ) (Ws : Matrix (Fin n) (Fin m) ℝ) (Rs : List (Matrix (Fin d) (Fin d) ℝ)) (Ts : List (Pt d))
    (hR : m ≤ Rs.length) (hT : m ≤ Ts.length) (hW : ∀ v, ∑ i, Ws v i = 1) (A : Matrix (Fin d) (Fin d) ℝ) (b : Pt d) :
    ∃ U U', linearBlendSkinning V Ws Rs Ts = some U ∧ linearBlendSkinning V Ws (Rs.map (A * ·)) (Ts.map (fun T => A *ᵥ T + b)) = some U' ∧
      ∀ v, U' v = affineImage A b (U v) := by
  have eR : ∀ i : Fin m, Rs[i.val]? = some (Rs[i.val]'(lt_of_lt_of_le i.isLt hR)) := fun i => List.getElem?_eq_getElem _
  have eT : ∀ i : Fin m, Ts[i.val]? = some (Ts[i.val]'(lt_of_lt_of_le i.isLt hT)) := fun i => List.getElem?_eq_getElem _
  obtain ⟨U, e, h⟩ := C85_formula V Ws Rs Ts _ _ eR eT
  obtain ⟨U', e', h'⟩ := C85_formula V Ws (Rs.map (A * ·)) (Ts.map (fun T => A *ᵥ T + b)) (fun i => A * Rs[i.val]'(lt_of_lt_of_le i.isLt hR))
    (fun i => A *ᵥ Ts[i.val]'(lt_of_lt_of_le i.isLt hT) + b) (fun i => by rw [List.getElem?_map, eR]; rfl) (fun i => by rw [List.getElem?_map, eT]; rfl)
  refine ⟨U, U', e, e', fun v => ?_⟩
  rw [h' v, h v]
  simp only [affineImage_comp]
  suffices key : ∀ X : Fin m → Pt d, ∑ i, Ws v i • affineImage A b (X i) = affineImage A b (∑ i, Ws v i • X i) by
    exact key (fun i => affineImage (Rs[i.val]'(lt_of_lt_of_le i.isLt hR)) (Ts[i.val]'(lt_of_lt_of_le i.isLt hT)) (V v))
  intro X
  unfold affineImage
  have hs : A *ᵥ (∑ i, Ws v i • X i) = ∑ i, Ws v i • (A *ᵥ X i) := by
    have := map_sum (Matrix.mulVecLin A) (fun i => Ws v i • X i) Finset.univ
    simpa only [Matrix.mulVecLin_apply, Matrix.mulVec_smul] using this
  rw [hs]
  simp only [smul_add, Finset.sum_add_distrib]
  rw [← Finset.sum_smul, hW v, one_smul]

/-- **C85** the choice of the rest pose's coordinate system does not matter: moving the rest pose by an invertible affine map and correcting the transformations gives the same result. -/
theorem C85_rest (V : Matrix (Fin n) (Fin d) ℝ) (Ws : Matrix (Fin n) (Fin m) ℝ) (Rs : List (Matrix (Fin d) (Fin d) ℝ)) (Ts : List (Pt d))
    (hl : Rs.length = Ts.length) (Q Qi : Matrix (Fin d) (Fin d) ℝ) (hQ : Qi * Q = 1) (t : Pt d) :
    linearBlendSkinning (Matrix.of fun v => affineImage Q t (V v)) Ws (Rs.map (· * Qi)) (List.zipWith (fun R T => T - (R * Qi) *ᵥ t) Rs Ts) =
      linearBlendSkinning V Ws Rs Ts := by
  by_cases hm : m ≤ Rs.length
  · have hm' : m ≤ Ts.length := hl ▸ hm
    have eR : ∀ i : Fin m, Rs[i.val]? = some (Rs[i.val]'(lt_of_lt_of_le i.isLt hm)) := fun i => List.getElem?_eq_getElem _
    have eT : ∀ i : Fin m, Ts[i.val]? = some (Ts[i.val]'(lt_of_lt_of_le i.isLt hm')) := fun i => List.getElem?_eq_getElem _
    obtain ⟨U, e, h⟩ := C85_formula V Ws Rs Ts _ _ eR eT
    obtain ⟨U', e', h'⟩ := C85_formula (Matrix.of fun v => affineImage Q t (V v)) Ws (Rs.map (· * Qi)) (List.zipWith (fun R T => T - (R * Qi) *ᵥ t) Rs Ts)
      (fun i => Rs[i.val]'(lt_of_lt_of_le i.isLt hm) * Qi)
      (fun i => Ts[i.val]'(lt_of_lt_of_le i.isLt hm') - (Rs[i.val]'(lt_of_lt_of_le i.isLt hm) * Qi) *ᵥ t)
      (fun i => by rw [List.getElem?_map, eR]; rfl) (fun i => by rw [List.getElem?_zipWith, eR, eT])
    rw [e, e']
    congr 1
    funext v
    rw [h v, h' v]
    refine Finset.sum_congr rfl (fun i _ => ?_)
    congr 1
    change affineImage _ _ (affineImage Q t (V v)) = _
    unfold affineImage
    rw [Matrix.mulVec_add, Matrix.mulVec_mulVec, Matrix.mul_assoc, hQ, Matrix.mul_one]
    abel
  · push Not at hm
    rw [C85_missing V Ws Rs Ts ⟨Rs.length, hm⟩ (Or.inl (by simp)), C85_missing _ Ws _ _ ⟨Rs.length, hm⟩ (Or.inl (by simp))]

/-- **C85** with non-negative weights that add up to one, every vertex ends up in the convex hull of its images under the transformations. -/
theorem C85_hull (V : Matrix (Fin n) (Fin d) ℝ) (Ws : Matrix (Fin n) (Fin m) ℝ) (Rs : List (Matrix (Fin d) (Fin d) ℝ)) (Ts : List (Pt d))
    (R : Fin m → Matrix (Fin d) (Fin d) ℝ) (T : Fin m → Pt d) (hR : ∀ i : Fin m, Rs[i.val]? = some (R i)) (hT : ∀ i : Fin m, Ts[i.val]? = some (T i))
    (h0 : ∀ v i, 0 ≤ Ws v i) (hW : ∀ v, ∑ i, Ws v i = 1) {U : Matrix (Fin n) (Fin d) ℝ} (hU : linearBlendSkinning V Ws Rs Ts = some U) (v : Fin n) :
    U v ∈ convexHull ℝ (Set.range fun i => affineImage (R i) (T i) (V v)) := by
  obtain ⟨U', e, h⟩ := C85_formula V Ws Rs Ts R T hR hT
  obtain rfl : U' = U := Option.some.inj (e.symm.trans hU)
  rw [h v]
  exact (convex_convexHull ℝ _).sum_mem (fun i _ => h0 v i) (hW v) (fun i _ => subset_convexHull ℝ _ ⟨i, rfl⟩)

/-- **C85** a vertex depends on its own position and weights only, and a transformation that has weight zero at the vertex has no influence on it. -/
theorem C85_local (V V' : Matrix (Fin n) (Fin d) ℝ) (Ws Ws' : Matrix (Fin n) (Fin m) ℝ) (Rs Rs' : List (Matrix (Fin d) (Fin d) ℝ)) (Ts Ts' : List (Pt d))
    {U U' : Matrix (Fin n) (Fin d) ℝ} (hU : linearBlendSkinning V Ws Rs Ts = some U) (hU' : linearBlendSkinning V' Ws' Rs' Ts' = some U')
    (v : Fin n) (hV : V v = V' v) (hW : Ws v = Ws' v) (hB : ∀ i, Ws v i ≠ 0 → Rs[i.val]? = Rs'[i.val]? ∧ Ts[i.val]? = Ts'[i.val]?) : U v = U' v := by
  have get : ∀ {V : Matrix (Fin n) (Fin d) ℝ} {Ws : Matrix (Fin n) (Fin m) ℝ} {Rs : List (Matrix (Fin d) (Fin d) ℝ)} {Ts : List (Pt d)} {U},
      linearBlendSkinning V Ws Rs Ts = some U → ∀ i : Fin m, (∃ R, Rs[i.val]? = some R) ∧ ∃ T, Ts[i.val]? = some T := by
    intro V Ws Rs Ts U h i
    constructor
    · by_contra hc
      rw [C85_missing V Ws Rs Ts i (Or.inl (Option.eq_none_iff_forall_ne_some.mpr (fun a ha => hc ⟨a, ha⟩)))] at h
      simp at h
    · by_contra hc
      rw [C85_missing V Ws Rs Ts i (Or.inr (Option.eq_none_iff_forall_ne_some.mpr (fun a ha => hc ⟨a, ha⟩)))] at h
      simp at h
  choose R hR using fun i => (get hU i).1
  choose T hT using fun i => (get hU i).2
  choose R' hR' using fun i => (get hU' i).1
  choose T' hT' using fun i => (get hU' i).2
  obtain ⟨X, e, h⟩ := C85_formula V Ws Rs Ts R T hR hT
  obtain ⟨X', e', h'⟩ := C85_formula V' Ws' Rs' Ts' R' T' hR' hT'
  obtain rfl : X = U := Option.some.inj (e.symm.trans hU)
  obtain rfl : X' = U' := Option.some.inj (e'.symm.trans hU')
  rw [h v, h' v, ← hV, ← hW]
  refine Finset.sum_congr rfl (fun i _ => ?_)
  by_cases hw : Ws v i = 0
  · rw [hw, zero_smul, zero_smul]
  · obtain ⟨a, b⟩ := hB i hw
    have a' := Option.some.inj ((hR i).symm.trans (a.trans (hR' i)))
    have b' := Option.some.inj ((hT i).symm.trans (b.trans (hT' i)))
    rw [a', b']

/-- a vertex at `(1, 0)` halfway between the identity and a quarter turn: it goes to `(1/2, 1/2)` -/
example : ∃ U, linearBlendSkinning (Matrix.of fun _ : Fin 1 => ![1, 0]) (Matrix.of fun (_ : Fin 1) (_ : Fin 2) => (1 / 2 : ℝ)) [1, !![0, -1; 1, 0]] [0, 0] = some U ∧
    U 0 = ![1 / 2, 1 / 2] := by
  obtain ⟨U, e, h⟩ := C85_formula (Matrix.of fun _ : Fin 1 => ![1, 0]) (Matrix.of fun (_ : Fin 1) (_ : Fin 2) => (1 / 2 : ℝ)) [1, !![0, -1; 1, 0]] [0, 0]
    ![1, !![0, -1; 1, 0]] ![0, 0] (fun i => by fin_cases i <;> rfl) (fun i => by fin_cases i <;> rfl)
  refine ⟨U, e, ?_⟩
  rw [h 0]
  funext k
  have h0 : (Matrix.of fun _ : Fin 1 => (![1, 0] : Fin 2 → ℝ)) 0 = ![1, 0] := rfl
  fin_cases k <;> simp [affineImage, Fin.sum_univ_two, h0]

end Gpy
