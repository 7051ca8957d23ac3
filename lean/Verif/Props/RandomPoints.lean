import Verif.Model.RandomPoints
import Verif.Proofs.Heron
import Verif.Spec.Convex
import Mathlib.Tactic.LinearCombination

/-! C42: `random_points_on_mesh`. -/

set_option autoImplicit false
namespace Gpy
open Np

variable {d : ℕ}

theorem psq_nonneg' (x : Pt d) : 0 ≤ psq x := Finset.sum_nonneg (fun i _ => sq_nonneg _)

theorem heron_pt (a b c : Pt d) : heron ⟨psq (c - b), psq (a - c), psq (b - a)⟩ = 4 * gram a b c := by
  have e1 : psq (b - a) = pdot (b - a) (b - a) := by
    unfold psq pdot; apply Finset.sum_congr rfl; intro i _; ring
  have e2 : psq (a - c) = pdot (c - a) (c - a) := by
    unfold psq pdot; apply Finset.sum_congr rfl; intro i _; simp only [Pi.sub_apply]; ring
  have e3 : psq (c - b) = pdot (b - a) (b - a) + pdot (c - a) (c - a) - 2 * pdot (b - a) (c - a) := by
    unfold psq pdot
    rw [Finset.mul_sum, ← Finset.sum_add_distrib, ← Finset.sum_sub_distrib]
    apply Finset.sum_congr rfl
    intro i _
    simp only [Pi.sub_apply]; ring
  unfold heron gram
  simp only [e1, e2, e3]
  ring

/-- the length of a segment or twice the area of a triangle with the given corners -/
noncomputable def sizeOf' : List (Pt d) → ℝ
  | [a, b] => pnorm (b - a)
  | [a, b, c] => Real.sqrt (gram a b c)
  | _ => 0

theorem rp_gram_nonneg (a b c : Pt d) : 0 ≤ gram a b c := by
  unfold gram pdot
  have := Finset.sum_mul_sq_le_sq_mul_sq Finset.univ (fun i => (b - a) i) (fun i => (c - a) i)
  simp only [sq] at this
  linarith

theorem elemMeasure_eq {X : List (Pt d)} {s : ℝ} (h : elemMeasure X = some s) : s = sizeOf' X ∧ 0 ≤ s ∧ (X.length = 2 ∨ X.length = 3) := by
  match X, h with
  | [a, b], h =>
    simp only [elemMeasure, Option.some.injEq] at h
    rw [← h]
    exact ⟨rfl, Real.sqrt_nonneg _, Or.inl rfl⟩
  | [a, b, c], h =>
    simp only [elemMeasure, Option.some.injEq] at h
    have hg := rp_gram_nonneg a b c
    rw [dblArea_eq _ ⟨psq_nonneg' _, psq_nonneg' _, psq_nonneg' _⟩, heron_pt, max_eq_left (by linarith), show (4 : ℝ) = 2 ^ 2 by norm_num,
      Real.sqrt_mul (by norm_num), Real.sqrt_sq (by norm_num)] at h
    rw [← h]
    refine ⟨by simp only [sizeOf']; ring, by positivity, Or.inr rfl⟩

theorem combine_eq (u : List ℝ) (X : List (Pt d)) : combine u X = comb u X := by
  funext j
  unfold combine comb
  rw [List.sum_eq_foldl]

theorem sampleBary_weights {k : ℕ} (hk : k = 2 ∨ k = 3) {r : ℝ × ℝ} (h1 : 0 ≤ r.1 ∧ r.1 ≤ 1) (h2 : 0 ≤ r.2 ∧ r.2 ≤ 1) :
    IsWeights (sampleBary k r) k := by
  unfold sampleBary
  rcases hk with rfl | rfl
  · rw [if_pos rfl]
    unfold segBary
    refine ⟨rfl, ?_, by simp⟩
    intro x hx
    simp only [List.mem_cons, List.not_mem_nil, or_false] at hx
    rcases hx with rfl | rfl
    · exact h1.1
    · linarith
  · rw [if_neg (by omega)]
    unfold triBary
    have s0 := Real.sqrt_nonneg r.2
    have s1 : Real.sqrt r.2 ≤ 1 := Real.sqrt_le_one.mpr h2.2
    refine ⟨rfl, ?_, by simp; ring⟩
    intro x hx
    simp only [List.mem_cons, List.not_mem_nil, or_false] at hx
    rcases hx with rfl | rfl | rfl
    · linarith
    · exact mul_nonneg s0 (by linarith [h1.2])
    · exact mul_nonneg h1.1 s0

theorem mapM_some_iff {α β : Type} {f : α → Option β} : ∀ {l : List α} {r : List β}, l.mapM f = some r →
    r.length = l.length ∧ ∀ (i : ℕ) (x : α), l[i]? = some x → ∃ y, f x = some y ∧ r[i]? = some y
  | [], r, h => by
    simp only [List.mapM_nil] at h
    cases h
    exact ⟨rfl, by intro i x hx; simp at hx⟩
  | a :: l, r, h => by
    rw [List.mapM_cons] at h
    cases ha : f a with
    | none => rw [ha] at h; cases h
    | some b =>
      cases hl : l.mapM f with
      | none => rw [ha, hl] at h; cases h
      | some bs =>
        rw [ha, hl] at h
        cases h
        obtain ⟨h1, h2⟩ := mapM_some_iff hl
        refine ⟨by simp [h1], ?_⟩
        intro i x hx
        cases i with
        | zero => simp at hx; subst hx; exact ⟨b, ha, rfl⟩
        | succ i => simpa using h2 i x (by simpa using hx)

theorem normalizeWeights_spec {l w : List ℝ} (h : normalizeWeights l = some w) : w = l.map (· / l.sum) ∧ l.sum ≠ 0 ∧ ∀ x ∈ w, 0 ≤ x := by
  unfold normalizeWeights at h
  split at h
  · cases h
  · rename_i h0
    split at h
    · rename_i h1
      cases h
      exact ⟨rfl, h0, h1⟩
    · cases h

theorem sum_map_div (l : List ℝ) (c : ℝ) : (l.map (· / c)).sum = l.sum / c := by
  induction l with
  | nil => simp
  | cons a l ih => simp [ih, add_div]

/-- **C42 (probabilities)** the faces are drawn with probabilities proportional to their length or area times their likelihood. -/
theorem C42_weights {V : List (Pt d)} {F : List (List ℕ)} {likelihood : Option (List ℝ)} {w : List ℝ}
    (h : sampleWeights V F likelihood = some w) :
    IsWeights w F.length ∧ ∃ total : ℝ, total ≠ 0 ∧ ∀ (i : ℕ) (f : List ℕ) (X : List (Pt d)), F[i]? = some f → f.mapM (fun i => V[i]?) = some X →
      ∃ l, (likelihood.getD (List.replicate F.length 1))[i]? = some l ∧ w[i]? = some (sizeOf' X * l / total) := by
  unfold sampleWeights at h
  cases hX : elemCorners V F with
  | none => rw [hX] at h; cases h
  | some Xs =>
    rw [hX] at h
    simp only [Option.bind_eq_bind, Option.bind_some] at h
    cases hA : Xs.mapM elemMeasure with
    | none => rw [hA] at h; cases h
    | some A =>
      rw [hA] at h
      simp only [Option.bind_some] at h
      split at h
      · rename_i hl
        obtain ⟨hw, h0, hpos⟩ := normalizeWeights_spec h
        obtain ⟨x1, x2⟩ := mapM_some_iff hX
        obtain ⟨a1, a2⟩ := mapM_some_iff hA
        refine ⟨⟨?_, hpos, ?_⟩, _, h0, ?_⟩
        · rw [hw, List.length_map, List.length_zipWith, a1, x1, hl, min_self]
        · rw [hw, sum_map_div, div_self h0]
        · intro i f X hf hX'
          obtain ⟨X'', e1, e2⟩ := x2 i f hf
          rw [hX'] at e1
          cases e1
          obtain ⟨s, e3, e4⟩ := a2 i X e2
          have hi : i < F.length := (List.getElem?_eq_some_iff.mp hf).1
          have hi' : i < (likelihood.getD (List.replicate F.length 1)).length := by rw [hl]; exact hi
          refine ⟨_, List.getElem?_eq_getElem hi', ?_⟩
          rw [hw, List.getElem?_map, List.getElem?_zipWith, e4, List.getElem?_eq_getElem hi', ← (elemMeasure_eq e3).1]
          rfl
      · cases h

/-- **C42** when `random_points_on_mesh` returns, for any numbers drawn in `[0,1]` and any faces drawn with positive probability, it returns `n` points,
face indices and weights; each point is the combination, with non-negative weights summing to one, of the corners of the face returned with it, and
this face has positive length or area and non-zero likelihood. -/
theorem C42_on_mesh {V : List (Pt d)} {F : List (List ℕ)} {k n : ℕ} {likelihood : Option (List ℝ)} {I : ℕ → ℕ} {r : ℕ → ℝ × ℝ}
    (hF : ∀ f ∈ F, f.length = k) (hr : ∀ i, (0 ≤ (r i).1 ∧ (r i).1 ≤ 1) ∧ (0 ≤ (r i).2 ∧ (r i).2 ≤ 1))
    (hI : ∀ w, sampleWeights V F likelihood = some w → ∀ i, ∃ p, w[I i]? = some p ∧ 0 < p)
    {x : List (Pt d)} {J : List ℕ} {u : List (List ℝ)} (h : randomPointsOnMesh V F k n likelihood I r = some (x, J, u)) :
    x.length = n ∧ J.length = n ∧ u.length = n ∧
      ∀ (i : ℕ) (p : Pt d) (j : ℕ) (c : List ℝ), x[i]? = some p → J[i]? = some j → u[i]? = some c →
        ∃ f X l, F[j]? = some f ∧ f.mapM (fun i => V[i]?) = some X ∧ IsWeights c X.length ∧ p = comb c X ∧ 0 < sizeOf' X ∧
          (likelihood.getD (List.replicate F.length 1))[j]? = some l ∧ l ≠ 0 := by
  unfold randomPointsOnMesh at h
  split at h
  · rename_i h0
    cases h
    subst h0
    exact ⟨rfl, rfl, rfl, by intro i p j c hp; simp at hp⟩
  · split at h
    · rename_i h0 hk
      cases hw : sampleWeights V F likelihood with
      | none => rw [hw] at h; cases h
      | some w =>
        rw [hw] at h
        simp only [Option.bind_eq_bind, Option.bind_some] at h
        cases hX : elemCorners V F with
        | none => rw [hX] at h; cases h
        | some Xs =>
          rw [hX] at h
          simp only [Option.bind_some] at h
          generalize hx : (List.range n).mapM (fun i => (Xs[I i]?).bind (fun c => some (combine (sampleBary k (r i)) c))) = ox at h
          cases ox with
          | none => cases h
          | some x' =>
            cases h
            obtain ⟨x1, x2⟩ := mapM_some_iff hX
            obtain ⟨y1, y2⟩ := mapM_some_iff hx
            rw [List.length_range] at y1
            refine ⟨y1, by simp, by simp, ?_⟩
            intro i p j c hp hj hc
            have hi : i < n := by rw [← y1]; exact (List.getElem?_eq_some_iff.mp hp).1
            rw [List.getElem?_map, List.getElem?_range hi] at hj hc
            cases hj
            cases hc
            obtain ⟨q, e1, e2⟩ := y2 i i (List.getElem?_range hi)
            rw [hp] at e2
            cases e2
            obtain ⟨C, hC, e3⟩ := Option.bind_eq_some_iff.mp e1
            cases e3
            have hjl : I i < F.length := by rw [← x1]; exact (List.getElem?_eq_some_iff.mp hC).1
            obtain ⟨X, hX1, hX2⟩ := x2 (I i) _ (List.getElem?_eq_getElem hjl)
            rw [hC] at hX2
            cases hX2
            have hlen : C.length = k := by
              rw [(mapM_some_iff hX1).1, hF _ (List.getElem_mem hjl)]
            obtain ⟨_, tot, _, hwt⟩ := C42_weights hw
            obtain ⟨l, hl, hwl⟩ := hwt (I i) _ C (List.getElem?_eq_getElem hjl) hX1
            obtain ⟨p, hp1, hp2⟩ := hI w hw i
            rw [hwl] at hp1
            cases hp1
            have hne : sizeOf' C ≠ 0 := fun h => by rw [h] at hp2; simp at hp2
            have hl0 : l ≠ 0 := fun h => by rw [h] at hp2; simp at hp2
            have hs : 0 ≤ sizeOf' C := by
              match C with
              | [] => exact le_refl _
              | [a] => exact le_refl _
              | [a, b] => exact Real.sqrt_nonneg _
              | [a, b, c] => exact Real.sqrt_nonneg _
              | _ :: _ :: _ :: _ :: _ => exact le_refl _
            refine ⟨_, C, l, List.getElem?_eq_getElem hjl, hX1, ?_, ?_, lt_of_le_of_ne hs (Ne.symm hne), hl, hl0⟩
            · rw [hlen]; exact sampleBary_weights hk (hr i).1 (hr i).2
            · rw [combine_eq]
    · cases h

/-- two segments on a line, the second one never drawn: the hypotheses are met -/
theorem C42_example : sampleWeights (d := 1) [fun _ => 0, fun _ => 2, fun _ => 3] [[0, 1], [1, 2]] (some [1, 0]) = some [1, 0] ∧
    ∃ out, randomPointsOnMesh (d := 1) [fun _ => 0, fun _ => 2, fun _ => 3] [[0, 1], [1, 2]] 2 3 (some [1, 0]) (fun _ => 0) (fun _ => (1 / 4, 0)) =
      some out := by
  have m1 : pnorm (d := 1) ((fun _ => 2) - (fun _ => 0)) = 2 := by
    unfold pnorm psq; simp
  have m2 : pnorm (d := 1) ((fun _ => 3) - (fun _ => 2)) = 1 := by
    unfold pnorm psq; simp; norm_num
  have hc : elemCorners (d := 1) [fun _ => 0, fun _ => 2, fun _ => 3] [[0, 1], [1, 2]] =
      some [[fun _ => 0, fun _ => 2], [fun _ => 2, fun _ => 3]] := by
    unfold elemCorners; rfl
  have hm : [[fun _ => (0 : ℝ), fun _ => 2], [fun _ => 2, fun _ => 3]].mapM (elemMeasure (d := 1)) = some [2, 1] := by
    simp only [List.mapM_cons, elemMeasure, m1, m2]; rfl
  have hw : sampleWeights (d := 1) [fun _ => 0, fun _ => 2, fun _ => 3] [[0, 1], [1, 2]] (some [1, 0]) = some [1, 0] := by
    unfold sampleWeights
    rw [hc]
    simp only [Option.bind_eq_bind, Option.bind_some]
    rw [hm]
    simp [normalizeWeights]
  refine ⟨hw, ?_⟩
  unfold randomPointsOnMesh
  rw [if_neg (by omega), if_pos (Or.inl rfl), hw, hc]
  exact ⟨_, rfl⟩

end Gpy
