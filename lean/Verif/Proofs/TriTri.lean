import Verif.Proofs.EdgeEdge
import Mathlib.Topology.Order.IntermediateValue
import Mathlib.Topology.Algebra.Ring.Basic
import Mathlib.Topology.Instances.Real.Lemmas
import Mathlib.Tactic.FinCases
import Mathlib.Algebra.BigOperators.Fin
import Mathlib.Tactic.LinearCombination
import Mathlib.Tactic.Continuity

/-! Two triangles: separation, flat sides, walking to the boundary. -/

set_option autoImplicit false
namespace Gpy

/-- the points of a triangle -/
def InTri (S : Pt 3 × Pt 3 × Pt 3) (x : Pt 3) : Prop :=
  ∃ w : Fin 3 → ℝ, (∀ k, 0 ≤ w k) ∧ w 0 + w 1 + w 2 = 1 ∧ x = fun i => w 0 * corner S 0 i + w 1 * corner S 1 i + w 2 * corner S 2 i

/-- the points of an edge -/
def OnEdge (S : Pt 3 × Pt 3 × Pt 3) (e : Fin 3) (x : Pt 3) : Prop :=
  ∃ t : ℝ, 0 ≤ t ∧ t ≤ 1 ∧ x = fun i => corner S e i + t * sideVec S e i

theorem pdot3 (x y : Pt 3) : pdot x y = x 0 * y 0 + x 1 * y 1 + x 2 * y 2 := by
  simp [pdot, Fin.sum_univ_three]

theorem psq3 (x : Pt 3) : psq x = x 0 ^ 2 + x 1 ^ 2 + x 2 ^ 2 := by
  simp [psq, Fin.sum_univ_three]

theorem inTri_corner (S : Pt 3 × Pt 3 × Pt 3) (k : Fin 3) : InTri S (corner S k) := by
  refine ⟨fun m => if m = k then 1 else 0, fun m => by dsimp only; split_ifs <;> norm_num, ?_, ?_⟩
  · fin_cases k <;> simp
  · funext i
    fin_cases k <;> simp

theorem OnEdge.inTri {S : Pt 3 × Pt 3 × Pt 3} {e : Fin 3} {x : Pt 3} (h : OnEdge S e x) : InTri S x := by
  obtain ⟨t, h0, h1, rfl⟩ := h
  refine ⟨fun m => if m = e then 1 - t else if m = e + 1 then t else 0, fun m => by dsimp only; split_ifs <;> linarith, ?_, ?_⟩
  · fin_cases e <;> simp
  · funext i
    unfold sideVec
    fin_cases e <;> simp <;> ring

theorem onEdge_left (S : Pt 3 × Pt 3 × Pt 3) (e : Fin 3) : OnEdge S e (corner S e) :=
  ⟨0, le_refl _, zero_le_one, by funext i; simp⟩

theorem onEdge_right (S : Pt 3 × Pt 3 × Pt 3) (e : Fin 3) : OnEdge S e (corner S (e + 1)) :=
  ⟨1, zero_le_one, le_refl _, by funext i; simp [sideVec]⟩

theorem OnEdge.conv {S : Pt 3 × Pt 3 × Pt 3} {e : Fin 3} {x y : Pt 3} (hx : OnEdge S e x) (hy : OnEdge S e y) {τ : ℝ} (h0 : 0 ≤ τ)
    (h1 : τ ≤ 1) : OnEdge S e (fun i => x i + τ * (y i - x i)) := by
  obtain ⟨t, a0, a1, rfl⟩ := hx
  obtain ⟨u, b0, b1, rfl⟩ := hy
  refine ⟨t + τ * (u - t), ?_, ?_, ?_⟩
  · nlinarith
  · nlinarith
  · funext i; ring

theorem InTri.conv {S : Pt 3 × Pt 3 × Pt 3} {x y : Pt 3} (hx : InTri S x) (hy : InTri S y) {τ : ℝ} (h0 : 0 ≤ τ)
    (h1 : τ ≤ 1) : InTri S (fun i => x i + τ * (y i - x i)) := by
  obtain ⟨w, a0, a1, rfl⟩ := hx
  obtain ⟨v, b0, b1, rfl⟩ := hy
  refine ⟨fun k => w k + τ * (v k - w k), fun k => ?_, ?_, ?_⟩
  · have := a0 k
    have := b0 k
    dsimp only
    nlinarith
  · dsimp only
    linear_combination (1 - τ) * a1 + τ * b1
  · funext i; dsimp only; ring

/-- a linear function that is `≤ m` at the corners is `≤ m` on the triangle -/
theorem InTri.dot_le {S : Pt 3 × Pt 3 × Pt 3} {x : Pt 3} (hx : InTri S x) {P V : Pt 3} {m : ℝ}
    (h : ∀ k, pdot (corner S k - P) V ≤ m) : pdot (x - P) V ≤ m := by
  obtain ⟨w, a0, a1, rfl⟩ := hx
  have h0 := mul_le_mul_of_nonneg_left (h 0) (a0 0)
  have h1 := mul_le_mul_of_nonneg_left (h 1) (a0 1)
  have h2 := mul_le_mul_of_nonneg_left (h 2) (a0 2)
  have e : pdot ((fun i => w 0 * corner S 0 i + w 1 * corner S 1 i + w 2 * corner S 2 i) - P) V =
      w 0 * pdot (corner S 0 - P) V + w 1 * pdot (corner S 1 - P) V + w 2 * pdot (corner S 2 - P) V := by
    simp only [pdot3, Pi.sub_apply]
    linear_combination (P 0 * V 0 + P 1 * V 1 + P 2 * V 2) * a1
  rw [e]
  have : m = w 0 * m + w 1 * m + w 2 * m := by linear_combination (-m) * a1
  linarith

theorem InTri.le_dot {S : Pt 3 × Pt 3 × Pt 3} {x : Pt 3} (hx : InTri S x) {P V : Pt 3} {m : ℝ}
    (h : ∀ k, m ≤ pdot (corner S k - P) V) : m ≤ pdot (x - P) V := by
  have hn : ∀ y : Pt 3, pdot y (-V) = - pdot y V := fun y => by simp only [pdot3, Pi.neg_apply]; ring
  have := hx.dot_le (P := P) (V := -V) (m := -m) (fun k => by rw [hn]; linarith [h k])
  rw [hn] at this
  linarith

/-- the value is the distance of the triangles -/
def TtExact (S T : Pt 3 × Pt 3 × Pt 3) (r : ℝ) : Prop :=
  (∃ x y, InTri S x ∧ InTri T y ∧ r = Real.sqrt (psq (y - x))) ∧ ∀ x y, InTri S x → InTri T y → r ≤ Real.sqrt (psq (y - x))

/-- a slab separates the triangles -/
theorem exact_of_slab {S T : Pt 3 × Pt 3 × Pt 3} {P Q : Pt 3} (hP : InTri S P) (hQ : InTri T Q)
    (h1 : ∀ k, pdot (corner S k - P) (Q - P) ≤ 0) (h2 : ∀ k, 0 ≤ pdot (corner T k - Q) (Q - P)) :
    TtExact S T (Real.sqrt (psq (Q - P))) :=
  ⟨⟨P, Q, hP, hQ, rfl⟩, fun _ _ hx hy => Real.sqrt_le_sqrt (slab_bound (hx.dot_le h1) (hy.le_dot h2))⟩

theorem psq_neg_sub (x y : Pt 3) : psq (x - y) = psq (y - x) := by
  simp only [psq3, Pi.sub_apply]; ring

theorem TtExact.symm {S T : Pt 3 × Pt 3 × Pt 3} {r : ℝ} (h : TtExact S T r) : TtExact T S r := by
  obtain ⟨⟨x, y, hx, hy, e⟩, h2⟩ := h
  exact ⟨⟨y, x, hy, hx, by rw [e, psq_neg_sub]⟩, fun x y hx hy => by rw [psq_neg_sub]; exact h2 y x hy hx⟩

theorem TtExact.unique {S T : Pt 3 × Pt 3 × Pt 3} {r r' : ℝ} (h : TtExact S T r) (h' : TtExact S T r') : r = r' := by
  obtain ⟨⟨x, y, hx, hy, e⟩, h2⟩ := h
  obtain ⟨⟨x', y', hx', hy', e'⟩, h2'⟩ := h'
  apply le_antisymm
  · rw [e']; exact h2 _ _ hx' hy'
  · rw [e]; exact h2' _ _ hx hy

/-! ## The double loop -/

section loop
variable (S T : Pt 3 × Pt 3 × Pt 3)

/-- the two points of `edge_edge_distance` for a pair of edges -/
noncomputable def eeP (ij : Fin 3 × Fin 3) : Pt 3 :=
  (edgeEdgeDistance (corner S ij.1) (corner S ij.1 + sideVec S ij.1) (corner T ij.2) (corner T ij.2 + sideVec T ij.2)).2.1
noncomputable def eeQ (ij : Fin 3 × Fin 3) : Pt 3 :=
  (edgeEdgeDistance (corner S ij.1) (corner S ij.1 + sideVec S ij.1) (corner T ij.2) (corner T ij.2 + sideVec T ij.2)).2.2

theorem ee_facts (ij : Fin 3 × Fin 3) : OnEdge S ij.1 (eeP S T ij) ∧ OnEdge T ij.2 (eeQ S T ij) ∧
    (∀ x, OnEdge S ij.1 x → pdot (x - eeP S T ij) (eeQ S T ij - eeP S T ij) ≤ 0) ∧
    (∀ y, OnEdge T ij.2 y → 0 ≤ pdot (y - eeQ S T ij) (eeQ S T ij - eeP S T ij)) := by
  obtain ⟨⟨t, t0, t1, ht⟩, ⟨u, u0, u1, hu⟩, h1, h2⟩ :=
    edgeEdge_vi (corner S ij.1) (corner S ij.1 + sideVec S ij.1) (corner T ij.2) (corner T ij.2 + sideVec T ij.2)
  simp only [add_sub_cancel_left] at ht hu h1 h2
  refine ⟨⟨t, t0, t1, ht⟩, ⟨u, u0, u1, hu⟩, ?_, ?_⟩
  · rintro x ⟨t', a, b, rfl⟩
    exact h1 t' a b
  · rintro y ⟨t', a, b, rfl⟩
    exact h2 t' a b

theorem corner_cases (e k : Fin 3) : k = e ∨ k = e + 1 ∨ k = e + 2 := by
  revert e k; decide

theorem foldl_inl (l : List (Fin 3 × Fin 3)) (r : ℝ) : l.foldl (ttRound S T) (.inl r) = .inl r := by
  induction l with
  | nil => rfl
  | cons a l ih => exact ih

/-- one round -/
theorem ttRound_cases (m : ℝ) (sh : Bool) (ij : Fin 3 × Fin 3) :
    (∃ r, ttRound S T (.inr (m, sh)) ij = .inl r ∧ TtExact S T r) ∨
    (∃ m' sh', ttRound S T (.inr (m, sh)) ij = .inr (m', sh') ∧ (m' = m ∨ m' = psq (eeQ S T ij - eeP S T ij)) ∧
      (psq (eeQ S T ij - eeP S T ij) ≤ m → ¬ (pdot (corner S (ij.1 + 2) - eeP S T ij) (eeQ S T ij - eeP S T ij) ≤ 0 ∧
        0 ≤ pdot (corner T (ij.2 + 2) - eeQ S T ij) (eeQ S T ij - eeP S T ij))) ∧
      (sh' = true → sh = true ∨ ∀ x y, InTri S x → InTri T y → x ≠ y)) := by
  obtain ⟨hP, hQ, h1, h2⟩ := ee_facts S T ij
  have e : ttRound S T (.inr (m, sh)) ij = (
      if pdot (eeQ S T ij - eeP S T ij) (eeQ S T ij - eeP S T ij) ≤ m then
        if pdot (corner S (ij.1 + 2) - eeP S T ij) (eeQ S T ij - eeP S T ij) ≤ 0 ∧
            pdot (corner T (ij.2 + 2) - eeQ S T ij) (eeQ S T ij - eeP S T ij) ≥ 0 then
          .inl (Real.sqrt (pdot (eeQ S T ij - eeP S T ij) (eeQ S T ij - eeP S T ij)))
        else
          .inr (pdot (eeQ S T ij - eeP S T ij) (eeQ S T ij - eeP S T ij),
            if pdot (eeQ S T ij - eeP S T ij) (eeQ S T ij - eeP S T ij) -
                (if pdot (corner S (ij.1 + 2) - eeP S T ij) (eeQ S T ij - eeP S T ij) < 0 then 0
                  else pdot (corner S (ij.1 + 2) - eeP S T ij) (eeQ S T ij - eeP S T ij)) +
                (if pdot (corner T (ij.2 + 2) - eeQ S T ij) (eeQ S T ij - eeP S T ij) > 0 then 0
                  else pdot (corner T (ij.2 + 2) - eeQ S T ij) (eeQ S T ij - eeP S T ij)) > 0 then true else sh)
      else .inr (m, sh)) := rfl
  rw [e]
  have c1 : ∀ k, k ≠ ij.1 + 2 → pdot (corner S k - eeP S T ij) (eeQ S T ij - eeP S T ij) ≤ 0 := by
    intro k hk
    rcases corner_cases ij.1 k with rfl | rfl | rfl
    · exact h1 _ (onEdge_left S _)
    · exact h1 _ (onEdge_right S _)
    · exact absurd rfl hk
  have c2 : ∀ k, k ≠ ij.2 + 2 → 0 ≤ pdot (corner T k - eeQ S T ij) (eeQ S T ij - eeP S T ij) := by
    intro k hk
    rcases corner_cases ij.2 k with rfl | rfl | rfl
    · exact h2 _ (onEdge_left T _)
    · exact h2 _ (onEdge_right T _)
    · exact absurd rfl hk
  obtain ⟨a, ha⟩ : ∃ a, a = pdot (corner S (ij.1 + 2) - eeP S T ij) (eeQ S T ij - eeP S T ij) := ⟨_, rfl⟩
  obtain ⟨b, hb⟩ : ∃ b, b = pdot (corner T (ij.2 + 2) - eeQ S T ij) (eeQ S T ij - eeP S T ij) := ⟨_, rfl⟩
  obtain ⟨p, hp⟩ : ∃ p, p = pdot (eeQ S T ij - eeP S T ij) (eeQ S T ij - eeP S T ij) := ⟨_, rfl⟩
  rw [← ha, ← hb, ← hp, ← pdot_self, ← hp]
  by_cases hm : p ≤ m
  · rw [if_pos hm]
    by_cases hc : a ≤ 0 ∧ b ≥ 0
    · rw [if_pos hc]
      left
      refine ⟨_, rfl, ?_⟩
      rw [hp, pdot_self]
      refine exact_of_slab hP.inTri hQ.inTri (fun k => ?_) (fun k => ?_)
      · by_cases hk : k = ij.1 + 2
        · rw [hk, ← ha]; exact hc.1
        · exact c1 k hk
      · by_cases hk : k = ij.2 + 2
        · rw [hk, ← hb]; exact hc.2
        · exact c2 k hk
    · rw [if_neg hc]
      right
      refine ⟨_, _, rfl, Or.inr rfl, fun _ => hc, ?_⟩
      intro hsh
      by_cases hs : p - (if a < 0 then 0 else a) + (if b > 0 then 0 else b) > 0
      · right
        intro x y hx hy hxy
        have k1 : pdot (x - eeP S T ij) (eeQ S T ij - eeP S T ij) ≤ (if a < 0 then 0 else a) := by
          apply hx.dot_le
          intro k
          have h0 : 0 ≤ (if a < 0 then 0 else a) := by split_ifs <;> linarith
          by_cases hk : k = ij.1 + 2
          · rw [hk, ← ha]; split_ifs <;> linarith
          · exact (c1 k hk).trans h0
        have k2 : (if b > 0 then 0 else b) ≤ pdot (y - eeQ S T ij) (eeQ S T ij - eeP S T ij) := by
          apply hy.le_dot
          intro k
          have h0 : (if b > 0 then 0 else b) ≤ 0 := by split_ifs <;> linarith
          by_cases hk : k = ij.2 + 2
          · rw [hk, ← hb]; split_ifs <;> linarith
          · exact h0.trans (c2 k hk)
        subst hxy
        have e3 : pdot (x - eeP S T ij) (eeQ S T ij - eeP S T ij) - pdot (x - eeQ S T ij) (eeQ S T ij - eeP S T ij) = p := by
          rw [hp]; simp only [pdot3, Pi.sub_apply]; ring
        linarith
      · rw [if_neg hs] at hsh
        exact Or.inl hsh
  · rw [if_neg hm]
    right
    exact ⟨m, sh, rfl, Or.inl rfl, fun h => absurd h hm, Or.inl⟩

theorem loop_spec (g : ℝ) (hg : ∀ ij, g ≤ psq (eeQ S T ij - eeP S T ij)) :
    ∀ (l : List (Fin 3 × Fin 3)) (m : ℝ) (sh : Bool), g ≤ m →
      (∃ r, l.foldl (ttRound S T) (.inr (m, sh)) = .inl r ∧ TtExact S T r) ∨
      (∃ m' sh', l.foldl (ttRound S T) (.inr (m, sh)) = .inr (m', sh') ∧
        (∀ ij ∈ l, psq (eeQ S T ij - eeP S T ij) = g → ¬ (pdot (corner S (ij.1 + 2) - eeP S T ij) (eeQ S T ij - eeP S T ij) ≤ 0 ∧
          0 ≤ pdot (corner T (ij.2 + 2) - eeQ S T ij) (eeQ S T ij - eeP S T ij))) ∧
        (sh' = true → sh = true ∨ ∀ x y, InTri S x → InTri T y → x ≠ y))
  | [], m, sh, _ => Or.inr ⟨m, sh, rfl, by simp, Or.inl⟩
  | ij :: l, m, sh, hm => by
    rw [List.foldl_cons]
    rcases ttRound_cases S T m sh ij with ⟨r, h1, h2⟩ | ⟨m', sh', h1, h2, h3, h4⟩
    · left
      rw [h1, foldl_inl]
      exact ⟨r, rfl, h2⟩
    · rw [h1]
      have hm' : g ≤ m' := by
        rcases h2 with rfl | rfl
        · exact hm
        · exact hg ij
      rcases loop_spec g hg l m' sh' hm' with h5 | ⟨m'', sh'', h5, h6, h7⟩
      · exact Or.inl h5
      · right
        refine ⟨m'', sh'', h5, ?_, ?_⟩
        · intro ij' hij he
          rcases List.mem_cons.mp hij with rfl | hij
          · exact h3 (by rw [he]; exact hm)
          · exact h6 ij' hij he
        · intro hs
          rcases h7 hs with h8 | h8
          · exact h4 h8
          · exact Or.inr h8

end loop

end Gpy
