import Verif.Proofs.EdgeEdge
import Verif.Props.PointElement
import Mathlib.Tactic.FinCases
import Mathlib.Tactic.NormNum

/-! C51: `edge_edge_distance`. -/

set_option autoImplicit false
namespace Gpy
variable {d : ℕ}

theorem comb_pair' (a b : ℝ) (x y : Pt d) (h : a + b = 1) : comb [a, b] [x, y] = fun i => x i + b * (y - x) i := by
  funext j
  simp only [comb, List.zip_cons_cons, List.zip_nil_right, List.map_cons, List.map_nil, List.sum_cons, List.sum_nil, Pi.sub_apply]
  linear_combination (x j) * h

theorem psq_sub_comm (x y : Pt d) : psq (x - y) = psq (y - x) := by
  simp only [psq, Pi.sub_apply]; apply Finset.sum_congr rfl; intro i _; ring

/-- C51.  For any two segments `P1Q1`, `P2Q2` in any dimension, parallel, crossing or degenerate: the two points returned are points
of the segments, the distance returned is the distance between them, and no two points of the segments are closer. -/
theorem C51_edge_edge (P1 Q1 P2 Q2 : Pt d) :
    let r := edgeEdgeDistance P1 Q1 P2 Q2
    (∃ w, IsWeights w 2 ∧ r.2.1 = comb w [P1, Q1]) ∧ (∃ w, IsWeights w 2 ∧ r.2.2 = comb w [P2, Q2]) ∧
    r.1 = pnorm (r.2.1 - r.2.2) ∧
    ∀ w1 w2, IsWeights w1 2 → IsWeights w2 2 → r.1 ≤ pnorm (comb w1 [P1, Q1] - comb w2 [P2, Q2]) := by
  obtain ⟨⟨t, t0, t1, ht⟩, ⟨u, u0, u1, hu⟩, h1, h2⟩ := edgeEdge_vi P1 Q1 P2 Q2
  have hw : ∀ s : ℝ, 0 ≤ s → s ≤ 1 → IsWeights [1 - s, s] 2 := by
    intro s a b
    refine ⟨rfl, ?_, by simp⟩
    intro x hx
    simp only [List.mem_cons, List.not_mem_nil, or_false] at hx
    rcases hx with rfl | rfl <;> linarith
  dsimp only
  refine ⟨⟨[1 - t, t], hw t t0 t1, by rw [comb_pair' _ _ _ _ (by ring)]; exact ht⟩,
    ⟨[1 - u, u], hw u u0 u1, by rw [comb_pair' _ _ _ _ (by ring)]; exact hu⟩, rfl, ?_⟩
  intro w1 w2 hw1 hw2
  obtain ⟨a, a0, a1, rfl⟩ := weights_pair hw1
  obtain ⟨b, b0, b1, rfl⟩ := weights_pair hw2
  rw [comb_pair' _ _ _ _ (by ring), comb_pair' _ _ _ _ (by ring)]
  have := slab_bound (h1 a a0 a1) (h2 b b0 b1)
  show pnorm ((edgeEdgeDistance P1 Q1 P2 Q2).2.1 - (edgeEdgeDistance P1 Q1 P2 Q2).2.2) ≤ _
  unfold pnorm
  apply Real.sqrt_le_sqrt
  rw [psq_sub_comm, psq_sub_comm (fun i => P1 i + a * (Q1 - P1) i)]
  exact this

/-- two crossing segments in the plane: the hypotheses are empty, the value is zero at the crossing -/
example : (edgeEdgeDistance (![-1, 0] : Pt 2) ![1, 0] ![0, -1] ![0, 1]).1 = 0 := by
  have h := (C51_edge_edge (![-1, 0] : Pt 2) ![1, 0] ![0, -1] ![0, 1]).2.2.2 [1/2, 1/2] [1/2, 1/2]
    ⟨rfl, by norm_num, by norm_num⟩ ⟨rfl, by norm_num, by norm_num⟩
  refine le_antisymm (le_trans h ?_) (Real.sqrt_nonneg _)
  have : comb [1/2, 1/2] [(![-1, 0] : Pt 2), ![1, 0]] - comb [1/2, 1/2] [(![0, -1] : Pt 2), ![0, 1]] = 0 := by
    funext i; fin_cases i <;> simp [comb]
  rw [this]; simp [pnorm, psq]

end Gpy
