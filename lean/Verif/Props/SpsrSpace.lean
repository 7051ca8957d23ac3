import Verif.Props.SpsrGrid
import Verif.Props.SpsrVariance
import Verif.Proofs.SpsrNodes3

/-! C122, C123, C124 (continued): `stochastic_poisson_surface_reconstruction` in three dimensions. -/

set_option autoImplicit false
namespace Gpy.Spsr
open Np Finset Gpy.Spec

variable {bicg : BicgSolver} {solve : LinSolver ℝ} {variance : Bool} {sigmaN sigma : ℝ}

/-- trilinear interpolation at `p` of values at the nodes of a grid, as a sum over hat functions -/
noncomputable def trilinear (gs : Fin 3 → ℕ) (h corner : Pt 3) (u : ℕ → ℕ → ℕ → ℝ) (p : Pt 3) : ℝ :=
  ∑ z ∈ range (gs 2), ∑ y ∈ range (gs 1), ∑ x ∈ range (gs 0),
    hat ((p 0 - (corner 0 + x * h 0)) / h 0) * (hat ((p 1 - (corner 1 + y * h 1)) / h 1) * hat ((p 2 - (corner 2 + z * h 2)) / h 2)) * u x y z

theorem interp3_some {P : List (Pt 3)} {gs : Fin 3 → ℕ} {h corner : Pt 3} (hh : ∀ k, 0 < h k) : ∃ W, interp P gs h corner = some W := by
  obtain ⟨W, hW, -⟩ := C34_fd_interpolate3_weights (P.map (fun p => ⟨p 0, p 1, p 2⟩)) (gs 0, gs 1, gs 2) ⟨h 0, h 1, h 2⟩ (some ⟨corner 0, corner 1, corner 2⟩) (hh 0) (hh 1) (hh 2)
  exact ⟨W, hW⟩

theorem gradient3_some {gs : Fin 3 → ℕ} {h : Pt 3} : ∃ G, gradient gs h = some G := by
  obtain ⟨Dx, hx, -⟩ := C35_fd_partial3_x (gs 0, gs 1, gs 2) ⟨h 0, h 1, h 2⟩
  obtain ⟨Dy, hy, -⟩ := C35_fd_partial3_y (gs 0, gs 1, gs 2) ⟨h 0, h 1, h 2⟩
  obtain ⟨Dz, hz, -⟩ := C35_fd_partial3_z (gs 0, gs 1, gs 2) ⟨h 0, h 1, h 2⟩
  show ∃ G, fdGrad3 (gs 0, gs 1, gs 2) ⟨h 0, h 1, h 2⟩ = some G
  unfold fdGrad3
  simp only [hx, hy, hz, Option.bind_eq_bind, Option.bind_some]
  exact ⟨_, rfl⟩

/-- every component is computed -/
theorem component3_some {prior : Option (Pt 3 → Pt 3)} {P N : List (Pt 3)} {gs : Fin 3 → ℕ} {h corner : Pt 3} {dens : ℕ → ℝ} (hh : ∀ k, 0 < h k) (hg : 8 ≤ gs 0 ∧ 8 ≤ gs 1 ∧ 6 ≤ gs 2)
    (hP : ∀ p ∈ P, ∀ k, corner k + h k / 2 ≤ p k ∧ p k < corner k + ((gs k : ℝ) - 1 / 2) * h k) (dd : Fin 3) :
    ∃ c, component prior sigmaN dens gs h corner P N dd = some c ∧ c.1.length = size (gsOff gs dd) := by
  have hg1 : ∀ k, 1 ≤ gs k := by intro k; fin_cases k <;> simp <;> omega
  obtain ⟨-, K1, -, e1, -⟩ := k1_three (gs := gsOff gs dd) (h := h) (corner := cornerOff h corner dd) hh (by
    intro k
    unfold gsOff
    by_cases hk : k = dd
    · subst hk; rw [Function.update_self]; fin_cases k <;> simp <;> omega
    · rw [Function.update_of_ne hk]; fin_cases k <;> simp <;> omega)
  obtain ⟨K2, e2, -⟩ := k2_exact (gs := gsOff gs dd) (h := h) (corner := cornerOff h corner dd) (P := P) (by norm_num) hh (by
    intro k hk
    unfold gsOff
    by_cases hkd : k = dd
    · subst hkd; rw [Function.update_self]; fin_cases k <;> simp at hk ⊢ <;> omega
    · rw [Function.update_of_ne hkd]; fin_cases k <;> simp at hk ⊢ <;> omega) (by
    intro p hp k
    have := hP p hp k
    have hk' := hh k
    unfold gsOff cornerOff
    by_cases hk : k = dd
    · subst hk
      rw [Function.update_self, Function.update_self, Nat.cast_sub (hg1 k)]
      push_cast
      constructor <;> nlinarith [this.1, this.2]
    · rw [Function.update_of_ne hk, Function.update_of_ne hk]
      constructor <;> nlinarith [this.1, this.2])
  unfold component
  simp only [e1, e2, Option.bind_eq_bind, Option.bind_some]
  exact ⟨_, rfl, by simp⟩

/-- **C122** (when it returns, three dimensions).  On a grid with at least eight by eight by six nodes, with a solver that solves every solvable system, the function returns exactly if every point is at least
half a cell after the first node and less than half a cell after the last node, in each coordinate. -/
theorem C122_returns3 {blur : (Fin 3 → ℕ) → (ℕ → ℝ) → ℕ → ℝ} {prior : Option (Pt 3 → Pt 3)} {P N : List (Pt 3)} {gs : Fin 3 → ℕ} {h corner : Pt 3} (hb : bicg.Total) (hh : ∀ k, 0 < h k)
    (hg : 8 ≤ gs 0 ∧ 8 ≤ gs 1 ∧ 6 ≤ gs 2) :
    (∃ mean, spsr blur bicg solve prior false sigmaN sigma P N (some gs) (some h) (some corner) = some (mean, none)) ↔
      ∀ p ∈ P, ∀ k, corner k + h k / 2 ≤ p k ∧ p k < corner k + ((gs k : ℝ) - 1 / 2) * h k := by
  have hg1 : ∀ k, 1 ≤ gs k := by intro k; fin_cases k <;> simp <;> omega
  constructor
  · rintro ⟨mean, hr⟩ p hp k
    exact run_cells (grid_all P gs h corner) hr k (hh k) (hg1 k) p hp
  · intro hP
    obtain ⟨W1, hW1⟩ := interp3_some (P := P) (gs := fun k => gs k + 1) (h := h) (corner := fun k => corner k - 0.5 * h k) hh
    obtain ⟨W, hW⟩ := interp3_some (P := P) (gs := gs) (h := h) (corner := corner) hh
    obtain ⟨G, hG⟩ := gradient3_some (gs := gs) (h := h)
    obtain ⟨r1, r2, -⟩ := gradient3_rows hG
    have hd : ∃ dens, density blur gs h corner P = some dens := by
      unfold density
      simp only [hW1, Option.bind_eq_bind, Option.bind_some]
      exact ⟨_, rfl⟩
    obtain ⟨dens, hd⟩ := hd
    have hcomp := fun dd => component3_some (prior := prior) (sigmaN := sigmaN) (N := N) (dens := dens) hh hg hP dd
    choose c hc hlen using hcomp
    have hm := mapM_some_map (List.finRange 3) (component prior sigmaN dens gs h corner P N) c (fun dd _ => hc dd)
    have hv : (((List.finRange 3).map c).flatMap (fun c => c.1)).length = G.nrows := by
      have : ((List.finRange 3).map c).flatMap (fun c => c.1) = ((c 0).1 ++ (c 1).1) ++ (c 2).1 := by simp [List.finRange_succ]
      rw [this, List.length_append, List.length_append, hlen, hlen, hlen, size3, size3, size3, r1]
      simp [gsOff]
    obtain ⟨x, hx⟩ := hb _ (system (Matrix.of (fun (i : Fin G.nrows) (j : Fin (size gs)) => G.get i j)))
      ((Matrix.of (fun (i : Fin G.nrows) (j : Fin (size gs)) => G.get i j)).transpose.mulVec (fun i => (((List.finRange 3).map c).flatMap (fun c => c.1)).getD i 0)) (system_surj _ _)
    unfold spsr
    simp only [grid_all, hd, hm, hG, hW, Option.bind_eq_bind, Option.bind_some, if_pos hv]
    unfold meanField
    simp only [hx, Option.bind_eq_bind, Option.bind_some]
    simp

/-- **C122** (average, three dimensions).  If the points are not beyond the last node of the grid then the values of the returned mean at the points, by trilinear interpolation, sum to zero. -/
theorem C122_average3 {blur : (Fin 3 → ℕ) → (ℕ → ℝ) → ℕ → ℝ} {prior : Option (Pt 3 → Pt 3)} {P N : List (Pt 3)} {gs : Fin 3 → ℕ} {h corner : Pt 3} {mean : List ℝ} {var : Option (List ℝ)}
    (hh : ∀ k, 0 < h k) (hne : P ≠ []) (hP : ∀ p ∈ P, ∀ k, corner k ≤ p k ∧ p k ≤ corner k + ((gs k : ℝ) - 1) * h k)
    (hr : spsr blur bicg solve prior variance sigmaN sigma P N (some gs) (some h) (some corner) = some (mean, var)) :
    (P.map (trilinear gs h corner (fun x y z => mean.getD (x + gs 0 * (y + gs 1 * z)) 0))).sum = 0 := by
  obtain ⟨gs', h', corner', dens, comps, G, W, x, g1, g2, g3, g4, g5, g6, g7, g8, -⟩ := spsr_parts hr
  rw [grid_all, Option.some.injEq, Prod.mk.injEq, Prod.mk.injEq] at g1
  obtain ⟨rfl, rfl, rfl⟩ := g1
  obtain ⟨W', hW', -, -, hw⟩ := C34_fd_interpolate3_weights (P.map (fun p => ⟨p 0, p 1, p 2⟩)) (gs 0, gs 1, gs 2) ⟨h 0, h 1, h 2⟩ (some ⟨corner 0, corner 1, corner 2⟩) (hh 0) (hh 1) (hh 2)
  obtain ⟨W'', hW'', hs⟩ := C34_fd_interpolate3_exact (P.map (fun p => ⟨p 0, p 1, p 2⟩)) (gs 0, gs 1, gs 2) ⟨h 0, h 1, h 2⟩ (some ⟨corner 0, corner 1, corner 2⟩) (hh 0) (hh 1) (hh 2)
  have e1 : W = W' := by
    have : interp P gs h corner = some W' := hW'
    rw [g5, Option.some.injEq] at this
    exact this
  have e2 : W = W'' := by
    have : interp P gs h corner = some W'' := hW''
    rw [g5, Option.some.injEq] at this
    exact this
  rw [← e1] at hw
  rw [← e2] at hs
  have hin : ∀ i : Fin P.length, (P.map (fun p => (⟨p 0, p 1, p 2⟩ : V3 ℝ)))[(i : ℕ)]? = some ⟨P[i] 0, P[i] 1, P[i] 2⟩ := by intro i; simp
  have hrow : ∀ (i : Fin P.length) (k : Fin 3), InAxis (P[i] k) (h k) (corner k) (gs k) := fun i k => hP _ (List.getElem_mem i.isLt) k
  have hW1 : ∀ i : Fin P.length, ∑ j : Fin (size gs), (Matrix.of (fun (i : Fin P.length) (j : Fin (size gs)) => W.get i j)) i j = 1 := by
    intro i
    have := (hs i _ (hin i) (hrow i 0) (hrow i 1) (hrow i 2)).2.1
    simp only [Matrix.of_apply]
    rw [← this, Fin.sum_univ_eq_sum_range (fun j => W.get i j), size3]
  have havg := meanField_avg _ (List.length_pos_iff.mpr hne) hW1 g7
  rw [show (P.map (trilinear gs h corner (fun x y z => mean.getD (x + gs 0 * (y + gs 1 * z)) 0))).sum = ∑ i : Fin P.length, trilinear gs h corner (fun x y z => mean.getD (x + gs 0 * (y + gs 1 * z)) 0) P[i] by
    rw [← List.sum_ofFn]
    congr 1
    apply List.ext_getElem
    · simp
    · intro i _ _
      simp]
  refine Eq.trans ?_ havg
  refine Finset.sum_congr rfl (fun i _ => ?_)
  unfold trilinear Matrix.mulVec dotProduct
  simp only [Matrix.of_apply]
  have ex : ∀ j : Fin (size gs), W.get i j * x j = (fun k : ℕ => W.get i k * mean.getD k 0) j := by
    intro j
    simp only
    rw [g8, getD_ofFn]
  simp only [ex]
  rw [Fin.sum_univ_eq_sum_range (fun k : ℕ => W.get i k * mean.getD k 0), size3, mul_assoc, sum_rows, sum_rows]
  refine Finset.sum_congr rfl (fun z _ => Finset.sum_congr rfl (fun y hy => Finset.sum_congr rfl (fun x hx => ?_)))
  obtain ⟨d1, d2⟩ := decode2 (y := y + gs 1 * z) (Finset.mem_range.mp hx)
  obtain ⟨d3, d4⟩ := decode2 (y := z) (Finset.mem_range.mp hy)
  rw [hw i _ (hin i) (hrow i 0) (hrow i 1) (hrow i 2)]
  simp only [node3, Option.getD_some, d1, d2, d3, d4]
  rw [mul_comm (h 0), mul_comm (h 1), mul_comm (h 2)]

/-! ### The covariance -/

theorem cnB3_pos {x : ℝ} (hx : |x| < 2) : 0 < cnB 3 x := by
  unfold cnB cnFactor
  simp only [Option.getD_some]
  have h0 := abs_nonneg x
  generalize |x| = y at *
  by_cases h1 : y < 1
  · simp only [cond01, if_pos h1, if_neg (show ¬ y ≥ 1 by linarith)]
    have : 0 < 3 * y ^ 3 - 6 * y ^ 2 + 4 := by nlinarith [mul_nonneg h0 h0, mul_nonneg h0 (mul_nonneg h0 h0)]
    split_ifs <;> nlinarith
  · simp only [cond01, if_neg h1, if_pos (show y ≤ 2 by linarith), if_pos (show y ≥ 1 by linarith)]
    have : -(y ^ 3) + 6 * y ^ 2 - 12 * y + 8 = (2 - y) ^ 3 := by ring
    rw [this]
    have : 0 < (2 - y) ^ 3 := by
      have : 0 < 2 - y := by linarith
      positivity
    linarith

theorem kern_pos {d : ℕ} {h : Pt d} (hd : 0 < d) (hh : ∀ k, 0 < h k) {x y : Pt d} (hk : ∀ k, |x k - y k| < 3 * minH h) : 0 < kern h x y := by
  have hm := minH_pos hd hh
  unfold kern
  rw [compactNormal_eq (by norm_num) (by norm_num), Option.getD_some, if_pos rfl, div_one]
  refine div_pos (Finset.prod_pos (fun k _ => ?_)) (by positivity)
  rw [cnFac_none]
  apply cnB3_pos
  simp only [Option.getD_none, Pi.zero_apply, sub_zero]
  rw [abs_div, abs_of_pos (show 0 < 1.5 * minH h by positivity), div_lt_iff₀ (by positivity)]
  linarith [hk k]

/-- one entry of the covariance of a component -/
theorem component_cov3 {prior : Option (Pt 3 → Pt 3)} {P N : List (Pt 3)} {gs : Fin 3 → ℕ} {h corner : Pt 3} {dens : ℕ → ℝ} {dd : Fin 3} {c : List ℝ × (ℕ → ℕ → ℝ)} (hh : ∀ k, 0 < h k)
    (hg : 8 ≤ gs 0 ∧ 8 ≤ gs 1 ∧ 6 ≤ gs 2) (hc : component prior sigmaN dens gs h corner P N dd = some c) :
    ∃ rows K1, gridNeighbors (List.ofFn (gsOff gs dd)) 2 true true true = some rows ∧
      (∀ j l, j < size (gsOff gs dd) → l < size (gsOff gs dd) →
        ((l : ℤ) ∉ rows.map (fun f => f j) → Csr.get K1 j l = 0) ∧
        ((∀ k : Fin 3, 1 ≤ (unravelF (List.ofFn (gsOff gs dd)) j).getD k 0 ∧ (unravelF (List.ofFn (gsOff gs dd)) j).getD k 0 + 2 ≤ gsOff gs dd k) →
          Csr.get K1 j l = kern h (node (gsOff gs dd) h (cornerOff h corner dd) j) (node (gsOff gs dd) h (cornerOff h corner dd) l)) ∧
        c.2 j l = Csr.get K1 j l - ∑ i ∈ range P.length, kern h (P.getD i 0) (node (gsOff gs dd) h (cornerOff h corner dd) j) *
          (1 / (dens i + sigmaN * sigmaN) * kern h (P.getD i 0) (node (gsOff gs dd) h (cornerOff h corner dd) l))) := by
  unfold component at hc
  cases h1 : k1 (gsOff gs dd) h (cornerOff h corner dd) with
  | none => simp [h1] at hc
  | some K1 =>
    cases h2 : k2 (gsOff gs dd) h (cornerOff h corner dd) P with
    | none => simp [h1, h2] at hc
    | some K2 =>
      simp only [h1, h2, Option.bind_eq_bind, Option.bind_some, Option.some.injEq] at hc
      subst hc
      have hgo : ∀ k, 5 ≤ gsOff gs dd k := by
        intro k
        unfold gsOff
        fin_cases dd <;> fin_cases k <;> simp <;> omega
      have hgo' : ∀ k : Fin 3, k.val + 1 < 3 → 7 ≤ gsOff gs dd k := by
        intro k hk
        unfold gsOff
        fin_cases dd <;> fin_cases k <;> simp at hk ⊢ <;> omega
      obtain ⟨K, e1, -, -, -, e2⟩ := k2_exact (gs := gsOff gs dd) (h := h) (corner := cornerOff h corner dd) (P := P) (by norm_num) hh hgo' (k2_cells hh h2)
      rw [h2, Option.some.injEq] at e1
      subst e1
      obtain ⟨rows, K', f0, f1, -, -, -, f2⟩ := k1_three (gs := gsOff gs dd) (h := h) (corner := cornerOff h corner dd) hh hgo
      rw [h1, Option.some.injEq] at f1
      subst f1
      refine ⟨rows, K1, f0, fun j l hj hl => ⟨(f2 j l hj hl).2.1, (f2 j l hj hl).2.2, ?_⟩⟩
      simp only
      congr 1
      refine Finset.sum_congr rfl (fun i hi => ?_)
      rw [Finset.mem_range] at hi
      have hpi : P[i]? = some (P.getD i 0) := by rw [List.getD_eq_getElem _ _ hi, List.getElem?_eq_getElem hi]
      rw [e2 i j _ hpi hj, e2 i l _ hpi hl]

/-- **C123** (three dimensions, partial).  The covariance that is used for a component of the vector field is that of the Gaussian process at least for pairs of which the first node is not on the border of
the staggered grid.  Missing: nodes on the border, where it is wrong (`C123_cov3_violated`), and with it the variance itself. -/
theorem C123_cov3_partial {prior : Option (Pt 3 → Pt 3)} {P N : List (Pt 3)} {gs : Fin 3 → ℕ} {h corner : Pt 3} {dens : ℕ → ℝ} {dd : Fin 3} {c : List ℝ × (ℕ → ℕ → ℝ)} (hh : ∀ k, 0 < h k)
    (hg : 8 ≤ gs 0 ∧ 8 ≤ gs 1 ∧ 6 ≤ gs 2) (hc : component prior sigmaN dens gs h corner P N dd = some c) {j l : ℕ} (hj : j < size (gsOff gs dd)) (hl : l < size (gsOff gs dd))
    (hint : ∀ k : Fin 3, 1 ≤ (unravelF (List.ofFn (gsOff gs dd)) j).getD k 0 ∧ (unravelF (List.ofFn (gsOff gs dd)) j).getD k 0 + 2 ≤ gsOff gs dd k) :
    c.2 j l = postCov (kern h) (fun i => 1 / (dens i + sigmaN * sigmaN)) P (node (gsOff gs dd) h (cornerOff h corner dd) j) (node (gsOff gs dd) h (cornerOff h corner dd) l) := by
  obtain ⟨rows, K1, -, e⟩ := component_cov3 hh hg hc
  obtain ⟨-, e2, e3⟩ := e j l hj hl
  rw [e3, e2 hint]
  rfl

/-- **C123** (violated in three dimensions).  On the grid with 9 by 8 by 8 nodes and equal spacings: in the covariance of the first component of the vector field the entry of the two edges at the corner
`(0,0,0)` and at `(0,2,2)` is zero, whatever points there are away from the corner, although the covariance of the Gaussian process is positive. -/
theorem C123_cov3_violated {prior : Option (Pt 3 → Pt 3)} {P N : List (Pt 3)} {t : ℝ} {corner : Pt 3} {dens : ℕ → ℝ} {c : List ℝ × (ℕ → ℕ → ℝ)} (ht : 0 < t)
    (hP : ∀ p ∈ P, ∃ k : Fin 3, 3 * t ≤ |p k - midX3 (fun _ => t) corner 0 0 0 k|) (hc : component prior sigmaN dens ![9, 8, 8] (fun _ => t) corner P N 0 = some c) :
    c.2 0 144 = 0 ∧ node (gsOff ![9, 8, 8] 0) (fun _ => t) (cornerOff (fun _ => t) corner 0) 0 = midX3 (fun _ => t) corner 0 0 0 ∧
    node (gsOff ![9, 8, 8] 0) (fun _ => t) (cornerOff (fun _ => t) corner 0) 144 = midX3 (fun _ => t) corner 0 2 2 ∧
    0 < postCov (kern (fun _ => t)) (fun i => 1 / (dens i + sigmaN * sigmaN)) P (midX3 (fun _ => t) corner 0 0 0) (midX3 (fun _ => t) corner 0 2 2) := by
  have hh : ∀ k : Fin 3, 0 < (fun _ : Fin 3 => t) k := fun _ => ht
  have hgs : gsOff ![9, 8, 8] 0 = fun _ : Fin 3 => 8 := by
    funext k
    unfold gsOff
    fin_cases k <;> simp
  have hL : List.ofFn (gsOff ![9, 8, 8] 0) = [8, 8, 8] := by rw [hgs]; simp [List.ofFn_succ]
  have n1 : node (gsOff ![9, 8, 8] 0) (fun _ => t) (cornerOff (fun _ => t) corner 0) 0 = midX3 (fun _ => t) corner 0 0 0 := by
    funext k
    unfold node midX3
    rw [hL]
    fin_cases k <;> simp [unravelF, cornerOff] <;> first | (left; norm_num; done) | ring
  have n2 : node (gsOff ![9, 8, 8] 0) (fun _ => t) (cornerOff (fun _ => t) corner 0) 144 = midX3 (fun _ => t) corner 0 2 2 := by
    funext k
    unfold node midX3
    rw [hL]
    fin_cases k <;> simp [unravelF, cornerOff] <;> first | (left; norm_num; done) | ring
  have hm : minH (fun _ : Fin 3 => t) = t := by
    unfold minH
    simp [List.ofFn_succ, List.min?]
  have hz : ∀ i ∈ range P.length, kern (fun _ => t) (P.getD i 0) (midX3 (fun _ => t) corner 0 0 0) = 0 := by
    intro i hi
    rw [Finset.mem_range] at hi
    rw [List.getD_eq_getElem _ _ hi]
    obtain ⟨k, hk⟩ := hP _ (List.getElem_mem hi)
    exact kern_zero_le hh k (by rw [hm]; exact hk)
  refine ⟨?_, n1, n2, ?_⟩
  · obtain ⟨rows, K1, e0, e⟩ := component_cov3 hh (by simp) hc
    have hs : size (gsOff ![9, 8, 8] 0) = 512 := by unfold size; rw [hL]; rfl
    obtain ⟨e1, -, e3⟩ := e 0 144 (by rw [hs]; norm_num) (by rw [hs]; norm_num)
    rw [e3, n1, n2, e1, zero_sub, neg_eq_zero]
    · refine Finset.sum_eq_zero (fun i hi => ?_)
      rw [hz i hi, zero_mul]
    · rw [hL] at e0
      have : ((144 : ℕ) : ℤ) ∉ ((gridNeighbors [8, 8, 8] 2 true true true).getD []).map (fun f => f 0) := by decide +kernel
      rw [e0] at this
      exact this
  · unfold postCov
    rw [Finset.sum_eq_zero (fun i hi => by rw [hz i hi, zero_mul]), sub_zero]
    refine kern_pos (by norm_num) hh (fun k => ?_)
    rw [hm]
    unfold midX3
    fin_cases k
    · simp; exact ht
    · simp
      rw [abs_of_pos ht]
      linarith
    · simp
      rw [abs_of_pos ht]
      linarith

/-- there are such runs -/
example : ∃ c, component (sigmaN := 0) none (fun _ => 1) ![9, 8, 8] (fun _ => 1) (fun _ => 0) [fun _ => 4] [![1, 0, 0]] 0 = some c ∧ c.2 0 144 = 0 := by
  obtain ⟨c, hc, -⟩ := component3_some (prior := none) (sigmaN := 0) (P := [fun _ => 4]) (N := [![1, 0, 0]]) (gs := ![9, 8, 8]) (h := fun _ => 1) (corner := fun _ => 0) (dens := fun _ => 1) (by norm_num) (by simp) (by
    intro p hp k
    rw [List.mem_singleton] at hp
    subst hp
    fin_cases k <;> norm_num) 0
  refine ⟨c, hc, (C123_cov3_violated (by norm_num) ?_ hc).1⟩
  intro p hp
  rw [List.mem_singleton] at hp
  subst hp
  refine ⟨1, ?_⟩
  norm_num [midX3]

/-- a run in three dimensions -/
example : ∃ mean, spsr (fun _ u => u) exactBicg solve none false 0 1 [fun _ => 4] [![1, 0, 0]] (some (fun _ => 9)) (some (fun _ => 1)) (some (fun _ => 0)) = some (mean, none) :=
  (C122_returns3 exactBicg_total (by norm_num) (by norm_num)).mpr (by
    intro p hp k
    rw [List.mem_singleton] at hp
    subst hp
    norm_num)

end Gpy.Spsr
