import Verif.Proofs.SpsrSubspace
import Verif.Props.SpsrVariance
import Verif.Props.GridEigen
import Verif.Props.Aabb

/-! C140: the variance of `stochastic_poisson_surface_reconstruction` from a subspace, in two dimensions. -/

set_option autoImplicit false
namespace Gpy.Spsr
open Np Finset

variable {bicg : BicgSolver} {solve : LinSolver ℝ} {sigmaN sigma : ℝ} {argsort : List ℝ → List ℕ} {num : ℕ}

/-! ## Specification -/

/-- the function with `a` half waves along the first and `b` half waves along the second side of the grid -/
noncomputable def halfWaves (gs : Fin 2 → ℕ) (n : Fin 2 → ℕ) (x y : ℕ) : ℝ := Real.cos (n 0 * Real.pi * x / (gs 0 - 1)) * Real.cos (n 1 * Real.pi * y / (gs 1 - 1))

/-! ## Proofs -/

theorem sub_parts {d : ℕ} {blur : (Fin d → ℕ) → (ℕ → ℝ) → ℕ → ℝ} {prior : Option (Pt d → Pt d)} {P N : List (Pt d)} {gs' : Option (Fin d → ℕ)} {h' corner' : Option (Pt d)} {mean vs : List ℝ}
    (hr : spsrSubspace blur bicg solve argsort num prior sigmaN sigma P N gs' h' corner' = some (mean, vs)) :
    ∃ gs h corner dens comps G W x M y, grid P gs' h' corner' = some (gs, h, corner) ∧ density blur gs h corner P = some dens ∧
      (List.finRange d).mapM (component prior sigmaN dens gs h corner P N) = some comps ∧
      gradient gs h = some G ∧ interp P gs h corner = some W ∧ (comps.flatMap (fun c => c.1)).length = G.nrows ∧
      meanField bicg (Matrix.of (fun (i : Fin G.nrows) (j : Fin (size gs)) => G.get i j)) (Matrix.of (fun (i : Fin P.length) (j : Fin (size gs)) => W.get i j))
        (fun i => (comps.flatMap (fun c => c.1)).getD i 0) = some x ∧ mean = List.ofFn x ∧
      modes argsort num gs (fun k => gs k * h k) = some M ∧
      varSubspace solve sigmaN (Matrix.of (fun (i : Fin G.nrows) (j : Fin (size gs)) => G.get i j))
        (Matrix.of (fun (i j : Fin G.nrows) => sigma * sigma * blockDiag (comps.map (fun c => (c.1.length, c.2))) i j)) (Matrix.of (fun (i : Fin (size gs)) (j : Fin num) => M.get i j)) = some y ∧
      vs = List.ofFn y := by
  unfold spsrSubspace at hr
  cases h1 : grid P gs' h' corner' with
  | none => simp [h1] at hr
  | some g =>
    obtain ⟨gs, h, corner⟩ := g
    simp only [h1, Option.bind_eq_bind, Option.bind_some] at hr
    cases h2 : density blur gs h corner P with
    | none => simp [h2] at hr
    | some dens =>
      simp only [h2, Option.bind_some] at hr
      cases h3 : (List.finRange d).mapM (component prior sigmaN dens gs h corner P N) with
      | none => simp [h3] at hr
      | some comps =>
        simp only [h3, Option.bind_some] at hr
        cases h4 : gradient gs h with
        | none => simp [h4] at hr
        | some G =>
          simp only [h4, Option.bind_some] at hr
          cases h5 : interp P gs h corner with
          | none => simp [h5] at hr
          | some W =>
            simp only [h5, Option.bind_some] at hr
            split_ifs at hr with h6
            cases h7 : meanField bicg (Matrix.of (fun (i : Fin G.nrows) (j : Fin (size gs)) => G.get i j)) (Matrix.of (fun (i : Fin P.length) (j : Fin (size gs)) => W.get i j))
                (fun i => (comps.flatMap (fun c => c.1)).getD i 0) with
            | none => simp only [h7, Option.bind_none, reduceCtorEq] at hr
            | some x =>
              simp only [h7, Option.bind_some] at hr
              cases h8 : modes argsort num gs (fun k => gs k * h k) with
              | none => simp only [h8, Option.bind_none, reduceCtorEq] at hr
              | some M =>
                simp only [h8, Option.bind_some] at hr
                cases h9 : varSubspace solve sigmaN (Matrix.of (fun (i : Fin G.nrows) (j : Fin (size gs)) => G.get i j))
                    (Matrix.of (fun (i j : Fin G.nrows) => sigma * sigma * blockDiag (comps.map (fun c => (c.1.length, c.2))) i j)) (Matrix.of (fun (i : Fin (size gs)) (j : Fin num) => M.get i j)) with
                | none => simp only [h9, Option.bind_none, reduceCtorEq] at hr
                | some y =>
                  simp only [h9, Option.bind_some, Option.some.injEq, Prod.mk.injEq] at hr
                  exact ⟨gs, h, corner, dens, comps, G, W, x, M, y, rfl, h2, h3, h4, h5, h6, h7, hr.1.symm, h8, h9, hr.2.symm⟩

/-- the covariance matrix of the components along the edges -/
theorem cov_edges2 {prior : Option (Pt 2 → Pt 2)} {P N : List (Pt 2)} {gs : Fin 2 → ℕ} {h corner : Pt 2} {dens : ℕ → ℝ} {g : Fin 2 → List ℝ × (ℕ → ℕ → ℝ)} (hh : ∀ k, 0 < h k)
    (hg : 8 ≤ gs 0 ∧ 6 ≤ gs 1) (hg' : ∀ dd, component prior sigmaN dens gs h corner P N dd = some (g dd)) (e e' : ℕ) (he : e < nEdges2 gs) (he' : e' < nEdges2 gs) :
    sigma * sigma * blockDiag (((List.finRange 2).map g).map (fun c => (c.1.length, c.2))) e e' = edgeCov2 gs h corner sigma (fun i => 1 / (dens i + sigmaN * sigmaN)) P e e' := by
  have hcm := fun dd => component_mean (dd := dd) hh (by
    intro k hk
    have : k = 0 := by omega
    rw [this]; exact hg.1) (hg' dd)
  have hcc := fun dd => component_cov2 (dd := dd) hh hg.1 hg.2 (hg' dd)
  have s0 : size (gsOff gs 0) = (gs 0 - 1) * gs 1 := by rw [size2]; simp [gsOff]
  have s1 : size (gsOff gs 1) = gs 0 * (gs 1 - 1) := by rw [size2]; simp [gsOff]
  have l0 : (g 0).1.length = (gs 0 - 1) * gs 1 := by rw [hcm 0]; simp [s0]
  have l1 : (g 1).1.length = gs 0 * (gs 1 - 1) := by rw [hcm 1]; simp [s1]
  unfold nEdges2 at he he'
  have : ((List.finRange 2).map g).map (fun c => (c.1.length, c.2)) = [((gs 0 - 1) * gs 1, (g 0).2), (gs 0 * (gs 1 - 1), (g 1).2)] := by
    simp [List.finRange_succ, l0, l1]
  rw [this]
  unfold edgeCov2
  simp only [blockDiag]
  by_cases h1 : e < (gs 0 - 1) * gs 1 <;> by_cases h2 : e' < (gs 0 - 1) * gs 1
  · rw [if_pos ⟨h1, h2⟩, hcc 0 e e' (by rw [s0]; exact h1) (by rw [s0]; exact h2), node_x2 h1, node_x2 h2, if_pos (by unfold edge2; rw [if_pos h1, if_pos h2]), pow_two]
  · rw [if_neg (fun h => h2 h.2), if_neg (fun h => absurd h.1 (by omega)), mul_zero, if_neg]
    unfold edge2
    rw [if_pos h1, if_neg h2]
    simp
  · rw [if_neg (fun h => h1 h.1), if_neg (fun h => absurd h.2 (by omega)), mul_zero, if_neg]
    unfold edge2
    rw [if_neg h1, if_pos h2]
    simp
  · obtain ⟨k, rfl⟩ := Nat.exists_eq_add_of_le (not_lt.mp h1)
    obtain ⟨k', rfl⟩ := Nat.exists_eq_add_of_le (not_lt.mp h2)
    rw [if_neg (fun h => h1 h.1), if_pos ⟨by omega, by omega⟩, Nat.add_sub_cancel_left, Nat.add_sub_cancel_left, if_pos ⟨by omega, by omega⟩,
      hcc 1 k k' (by rw [s1]; omega) (by rw [s1]; omega), node_y2 (by omega), node_y2 (by omega), if_pos (by unfold edge2; rw [if_neg h1, if_neg h2]), pow_two]

/-- the columns of the subspace -/
theorem modes2 (hA : IsArgsort argsort) {gs : Fin 2 → ℕ} {h : Pt 2} (hh : ∀ k, 0 < h k) (hg : 2 ≤ gs 0 ∧ 2 ≤ gs 1) :
    ∃ M mode, modes argsort num gs (fun k => gs k * h k) = some M ∧ LowestModes (fun k => gs k * h k) num mode ∧
      ∀ s < num, ∀ x < gs 0, ∀ y < gs 1, M.get (x + gs 0 * y) s = halfWaves gs (mode s) x y := by
  have hl : ∀ k, (gs k : ℝ) * h k ≠ 0 := by
    intro k
    have : (0 : ℝ) < gs k := by
      refine Nat.cast_pos.mpr ?_
      fin_cases k <;> simp <;> omega
    exact (mul_pos this (hh k)).ne'
  obtain ⟨M, mode, hM, -, -, hlow, -, -, hval⟩ := C95_planar hA num gs (fun k => gs k * h k) hl
  refine ⟨M, mode, hM, hlow, ?_⟩
  intro s hs x hx y hy
  have := hval s hs x hx y hy
  rw [show x + gs 0 * y = y * gs 0 + x by ring, this]
  unfold cosMode halfWaves
  have h0 : (gs 0 : ℝ) - 1 ≠ 0 := by
    have : (2 : ℝ) ≤ gs 0 := by exact_mod_cast hg.1
    linarith
  have h1 : (gs 1 : ℝ) - 1 ≠ 0 := by
    have : (2 : ℝ) ≤ gs 1 := by exact_mod_cast hg.2
    linarith
  have l0 := hl 0
  have l1 := hl 1
  rw [Fin.prod_univ_two]
  simp only [Matrix.cons_val_zero, Matrix.cons_val_one]
  generalize (gs 0 : ℝ) * h 0 = L0 at l0 ⊢
  generalize (gs 1 : ℝ) * h 1 = L1 at l1 ⊢
  congr 2
  · field_simp
  · field_simp

/-- the energy of a function on the grid is the objective -/
theorem energy_flat2 {gs : Fin 2 → ℕ} {h corner : Pt 2} {G : Csr ℝ} (hG : gradient gs h = some G) (V : Pt 2 → Pt 2) (u : ℕ → ℕ → ℝ) (z : Fin (size gs) → ℝ)
    (hz : ∀ x y, x < gs 0 → y < gs 1 → ∀ hlt : x + gs 0 * y < size gs, z ⟨x + gs 0 * y, hlt⟩ = u x y) :
    energy (Matrix.of (fun (i : Fin G.nrows) (j : Fin (size gs)) => G.get i j)) (fun i => V (edge2 gs h corner i).2 (edge2 gs h corner i).1) z = objective2 gs h corner V u := by
  have e2 := objective_energy2 hG (corner := corner) V (fun k => if hk : k < size gs then z ⟨k, hk⟩ else 0)
  have e3 : (fun j : Fin (size gs) => if hk : (j : ℕ) < size gs then z ⟨j, hk⟩ else 0) = z := by
    funext j; simp
  rw [e3] at e2
  have key : ∀ x y, x < gs 0 → y < gs 1 → (fun k => if hk : k < size gs then z ⟨k, hk⟩ else 0) (x + gs 0 * y) = u x y := by
    intro x y hx hy
    have hlt : x + gs 0 * y < size gs := by rw [size2]; exact idx_lt2 hx hy
    simp only [dif_pos hlt]
    exact hz x y hx hy hlt
  rw [e2]
  unfold objective2
  rw [misfit2_congr (u' := u) (fun x y hx hy => key x y hx hy)]
  congr 2
  refine Finset.sum_congr rfl (fun y hy => Finset.sum_congr rfl (fun x hx => ?_))
  exact congrArg (· ^ 2) (key x y (Finset.mem_range.mp hx) (Finset.mem_range.mp hy))

/-- **C140** (variance from a subspace, two dimensions).  On a grid with at least eight by six nodes, whenever the function returns with `solve_subspace_dim = num`: the mean is the one that is returned without a subspace; the
variance has one value per node, all of them are at least `sigma_n² + 1e-6` and the smallest is exactly that.  Up to this common shift they are the variances of a sum of the `num` lowest modes (half waves along the sides), each of
which is fitted ALONE to the random vector field, which has the covariance of the Gaussian process after observing the points: there are weights `w` such that the sum at a node is the weighted sum of the components of the vector
field along the edges, and the variance of the node is the variance of that weighted sum. -/
theorem C140_subspace2 (hA : IsArgsort argsort) {blur : (Fin 2 → ℕ) → (ℕ → ℝ) → ℕ → ℝ} {prior : Option (Pt 2 → Pt 2)} {P N : List (Pt 2)} {gs : Fin 2 → ℕ} {h corner : Pt 2} {mean vs : List ℝ}
    (hc : solve.Correct) (hh : ∀ k, 0 < h k) (hg : 8 ≤ gs 0 ∧ 6 ≤ gs 1)
    (hr : spsrSubspace blur bicg solve argsort num prior sigmaN sigma P N (some gs) (some h) (some corner) = some (mean, vs)) :
    spsr blur bicg solve prior false sigmaN sigma P N (some gs) (some h) (some corner) = some (mean, none) ∧
    vs.length = gs 0 * gs 1 ∧ (∀ s ∈ vs, sigmaN ^ 2 + 1e-6 ≤ s) ∧ sigmaN ^ 2 + 1e-6 ∈ vs ∧
      ∃ mode, LowestModes (fun k => gs k * h k) num mode ∧ ∃ dens, density blur gs h corner P = some dens ∧ ∃ w : ℕ → ℕ → ℝ,
        (∀ (V : Pt 2 → Pt 2) (c : ℕ → ℝ),
          (∀ s < num, ∀ r : ℝ, objective2 gs h corner V (fun x y => c s * halfWaves gs (mode s) x y) ≤ objective2 gs h corner V (fun x y => r * halfWaves gs (mode s) x y)) →
          ∀ x y, x < gs 0 → y < gs 1 → ∑ s ∈ range num, c s * halfWaves gs (mode s) x y = ∑ e ∈ range (nEdges2 gs), w (x + gs 0 * y) e * V (edge2 gs h corner e).2 (edge2 gs h corner e).1) ∧
        ∃ shift : ℝ, ∀ j, j < gs 0 * gs 1 → vs.getD j 0 = shift +
          ∑ e ∈ range (nEdges2 gs), ∑ e' ∈ range (nEdges2 gs), w j e * edgeCov2 gs h corner sigma (fun i => 1 / (dens i + sigmaN * sigmaN)) P e e' * w j e' := by
  obtain ⟨gs', h', corner', dens, comps, G, W, x, M, y, g1, g2, g3, g4, g5, g6, g7, g8, gM, g10, rfl⟩ := sub_parts hr
  have gm : spsr blur bicg solve prior false sigmaN sigma P N (some gs) (some h) (some corner) = some (mean, none) := by
    unfold spsr
    simp only [g1, g2, g3, g4, g5, g7, if_pos g6, Option.bind_eq_bind, Option.bind_some]
    simp [g8]
  refine ⟨gm, ?_⟩
  rw [grid_all, Option.some.injEq, Prod.mk.injEq, Prod.mk.injEq] at g1
  obtain ⟨rfl, rfl, rfl⟩ := g1
  obtain ⟨g, hg', rfl⟩ := comps_eq g3
  obtain ⟨r1, r2, -⟩ := gradient2_rows g4
  obtain ⟨M', mode, hM', hlow, hval⟩ := modes2 (num := num) hA hh (gs := gs) ⟨by omega, by omega⟩
  rw [gM, Option.some.injEq] at hM'
  subst hM'
  have hU : ∀ t : Fin num, ∃ j : Fin (size gs), (Matrix.of (fun (i : Fin (size gs)) (j : Fin num) => M.get i j)) j t ≠ 0 := by
    intro t
    have hlt : 0 + gs 0 * 0 < size gs := by rw [size2]; exact idx_lt2 (by omega) (by omega)
    refine ⟨⟨0 + gs 0 * 0, hlt⟩, ?_⟩
    rw [Matrix.of_apply, hval t t.isLt 0 (by omega) 0 (by omega)]
    simp [halfWaves]
  obtain ⟨w, w1, j0, w2⟩ := varSubspace_spec _ hc hU g10
  have he : eps = 1e-6 := by unfold eps; norm_num
  have hnE : nEdges2 gs = G.nrows := r1.symm
  generalize hT : (fun j : Fin (size gs) => ∑ e, ∑ e', w j e * (Matrix.of (fun (i j : Fin G.nrows) => sigma * sigma * blockDiag (((List.finRange 2).map g).map (fun c => (c.1.length, c.2))) i j)) e e' * w j e') = T
  have hT' : ∀ j : Fin (size gs), (∑ e, ∑ e', w j e * (Matrix.of (fun (i j : Fin G.nrows) => sigma * sigma * blockDiag (((List.finRange 2).map g).map (fun c => (c.1.length, c.2))) i j)) e e' * w j e') = T j :=
    fun j => by rw [← hT]
  simp only [hT'] at w2
  refine ⟨by rw [List.length_ofFn, size2], ?_, ?_, mode, hlow, dens, g2, ?_⟩
  · intro s hs
    obtain ⟨j, rfl⟩ := List.mem_ofFn.mp hs
    obtain ⟨a1, a2⟩ := w2 j
    rw [a2, he]
    nlinarith
  · refine List.mem_ofFn.mpr ⟨j0, ?_⟩
    obtain ⟨-, a2⟩ := w2 j0
    rw [a2, he]
    ring
  · refine ⟨fun j e => if hj : j < size gs then (if he : e < G.nrows then w ⟨j, hj⟩ ⟨e, he⟩ else 0) else 0, ?_, -T j0 + sigmaN * sigmaN + eps, ?_⟩
    · intro V c hmin x y hx hy
      have hlt : x + gs 0 * y < size gs := by rw [size2]; exact idx_lt2 hx hy
      have := w1 (fun i => V (edge2 gs h corner i).2 (edge2 gs h corner i).1) (fun t => c t) (by
        intro t r
        rw [energy_flat2 g4 V (fun x y => c t * halfWaves gs (mode t) x y) _ (fun x y hx hy hlt => by
            simp only [Pi.smul_apply, smul_eq_mul, Matrix.of_apply]; rw [hval t t.isLt x hx y hy]),
          energy_flat2 g4 V (fun x y => r * halfWaves gs (mode t) x y) _ (fun x y hx hy hlt => by
            simp only [Pi.smul_apply, smul_eq_mul, Matrix.of_apply]; rw [hval t t.isLt x hx y hy])]
        exact hmin t t.isLt r) ⟨_, hlt⟩
      rw [hnE, Finset.sum_range, Finset.sum_range]
      refine Eq.trans ?_ (this.trans ?_)
      · refine Finset.sum_congr rfl (fun t _ => ?_)
        rw [Matrix.of_apply, hval t t.isLt x hx y hy]
      · refine Finset.sum_congr rfl (fun e _ => ?_)
        simp only [dif_pos hlt, Fin.is_lt, dif_pos]
    · intro j hj
      have hlt : j < size gs := by rw [size2]; exact hj
      rw [getD_ofFn y 0 ⟨j, hlt⟩]
      obtain ⟨-, a2⟩ := w2 ⟨j, hlt⟩
      rw [a2]
      have hTj : T ⟨j, hlt⟩ = ∑ e ∈ range (nEdges2 gs), ∑ e' ∈ range (nEdges2 gs), (fun j e => if hj : j < size gs then (if he : e < G.nrows then w ⟨j, hj⟩ ⟨e, he⟩ else 0) else 0) j e *
          edgeCov2 gs h corner sigma (fun i => 1 / (dens i + sigmaN * sigmaN)) P e e' * (fun j e => if hj : j < size gs then (if he : e < G.nrows then w ⟨j, hj⟩ ⟨e, he⟩ else 0) else 0) j e' := by
        rw [← hT' ⟨j, hlt⟩, hnE, Finset.sum_range]
        refine Finset.sum_congr rfl (fun e _ => ?_)
        rw [Finset.sum_range]
        refine Finset.sum_congr rfl (fun e' _ => ?_)
        simp only [dif_pos hlt, Fin.is_lt, dif_pos, Matrix.of_apply]
        rw [cov_edges2 hh hg hg' e e' (by rw [hnE]; exact e.isLt) (by rw [hnE]; exact e'.isLt)]
      rw [← hTj]
      ring

theorem diag_some (hs : SolvesAll solve) {s k : ℕ} (a : Fin s → ℝ) (ha : ∀ t, a t ≠ 0) (B : Matrix (Fin s) (Fin k) ℝ) : ∃ S, solveCols solve (Matrix.diagonal a) B = some S := by
  choose g hg using fun j : Fin k => hs s (Matrix.diagonal a) (fun i => B i j) ⟨fun i => (a i)⁻¹ * B i j, by
    funext i
    rw [Matrix.mulVec_diagonal]
    rw [← mul_assoc, mul_inv_cancel₀ (ha i), one_mul]⟩
  unfold solveCols
  rw [mapM_some_map (List.finRange k) (fun j => solve (Fin s) (Matrix.diagonal a) (fun i => B i j)) g (fun j _ => hg j)]
  exact ⟨_, rfl⟩

/-- **C140** (a variance is returned, two dimensions).  For every number of modes the projected system can be solved: a mean and a variance are returned exactly if they are returned without a subspace, that is if every point is at
least half a cell right of (above) the first node and less than half a cell right of (above) the last node. -/
theorem C140_returns2 (hA : IsArgsort argsort) {blur : (Fin 2 → ℕ) → (ℕ → ℝ) → ℕ → ℝ} {prior : Option (Pt 2 → Pt 2)} {P N : List (Pt 2)} {gs : Fin 2 → ℕ} {h corner : Pt 2} (hb : bicg.Total) (hs : SolvesAll solve)
    (hh : ∀ k, 0 < h k) (hg : 8 ≤ gs 0 ∧ 6 ≤ gs 1) :
    (∃ mean vs, spsrSubspace blur bicg solve argsort num prior sigmaN sigma P N (some gs) (some h) (some corner) = some (mean, vs)) ↔
      ∀ p ∈ P, ∀ k, corner k + h k / 2 ≤ p k ∧ p k < corner k + ((gs k : ℝ) - 1 / 2) * h k := by
  rw [← C122_returns2 (bicg := bicg) (solve := solve) (blur := blur) (prior := prior) (N := N) (sigmaN := sigmaN) (sigma := sigma) hb hh hg]
  constructor
  · rintro ⟨mean, vs, hr⟩
    obtain ⟨gs', h', corner', dens, comps, G, W, x, M, y, g1, g2, g3, g4, g5, g6, g7, g8, -⟩ := sub_parts hr
    refine ⟨List.ofFn x, ?_⟩
    unfold spsr
    simp only [g1, g2, g3, g4, g5, g7, if_pos g6, Option.bind_eq_bind, Option.bind_some]
    simp
  · rintro ⟨mean, hr⟩
    obtain ⟨gs', h', corner', dens, comps, G, W, x, g1, g2, g3, g4, g5, g6, g7, g8, -, -⟩ := spsr_parts hr
    have g1' := g1
    rw [grid_all, Option.some.injEq, Prod.mk.injEq, Prod.mk.injEq] at g1'
    obtain ⟨rfl, rfl, rfl⟩ := g1'
    obtain ⟨M, mode, hM, -, hval⟩ := modes2 (num := num) hA hh (gs := gs) ⟨by omega, by omega⟩
    have hU : ∀ t : Fin num, ∃ j : Fin (size gs), (Matrix.of (fun (i : Fin (size gs)) (j : Fin num) => M.get i j)) j t ≠ 0 := by
      intro t
      have hlt : 0 + gs 0 * 0 < size gs := by rw [size2]; exact idx_lt2 (by omega) (by omega)
      refine ⟨⟨0 + gs 0 * 0, hlt⟩, ?_⟩
      rw [Matrix.of_apply, hval t t.isLt 0 (by omega) 0 (by omega)]
      simp [halfWaves]
    have hv : ∃ y, varSubspace solve sigmaN (Matrix.of (fun (i : Fin G.nrows) (j : Fin (size gs)) => G.get i j))
        (Matrix.of (fun (i j : Fin G.nrows) => sigma * sigma * blockDiag (comps.map (fun c => (c.1.length, c.2))) i j)) (Matrix.of (fun (i : Fin (size gs)) (j : Fin num) => M.get i j)) = some y := by
      generalize (Matrix.of (fun (i : Fin G.nrows) (j : Fin (size gs)) => G.get i j)) = Gm
      generalize (Matrix.of (fun (i j : Fin G.nrows) => sigma * sigma * blockDiag (comps.map (fun c => (c.1.length, c.2))) i j)) = C
      generalize (Matrix.of (fun (i : Fin (size gs)) (j : Fin num) => M.get i j)) = U at *
      have hp : ∀ t, (∑ j, (U.transpose * system Gm) t j * U.transpose t j) ≠ 0 := fun t => by rw [sub_vals]; exact (system_pos Gm _ (hU t)).ne'
      unfold varSubspace
      obtain ⟨D, hD⟩ := diag_some hs _ hp (U.transpose * (Gm.transpose * C * Gm) * U)
      obtain ⟨S, hS⟩ := diag_some hs _ hp D.transpose
      have hpos : 0 < size gs := by rw [size2]; exact Nat.mul_pos (by omega) (by omega)
      have hm : ∃ lo, (List.ofFn (fun j => ∑ t, (U * S) j t * U j t)).min? = some lo := by
        cases hl : (List.ofFn (fun j => ∑ t, (U * S) j t * U j t)).min? with
        | none =>
          rw [List.min?_eq_none_iff] at hl
          have := congrArg List.length hl
          simp at this
          omega
        | some lo => exact ⟨lo, rfl⟩
      obtain ⟨lo, hlo⟩ := hm
      simp only [hD, hS, hlo, Option.bind_eq_bind, Option.bind_some]
      exact ⟨_, rfl⟩
    obtain ⟨y, hy⟩ := hv
    refine ⟨List.ofFn x, List.ofFn y, ?_⟩
    unfold spsrSubspace
    simp only [g1, g2, g3, g4, g5, g7, hM, hy, if_pos g6, Option.bind_eq_bind, Option.bind_some]

/-- a run with four modes -/
example : ∃ mean vs, spsrSubspace (fun _ u => u) exactBicg exactSolve someArgsort 4 none 0 1 [fun _ => 4] [![1, 0]] (some (fun _ => 9)) (some (fun _ => 1)) (some (fun _ => 0)) = some (mean, vs) ∧
    (1e-6 : ℝ) ∈ vs ∧ vs.length = 81 := by
  obtain ⟨mean, vs, hr⟩ := (C140_returns2 (bicg := exactBicg) (solve := exactSolve) (num := 4) someArgsort_ok (blur := fun _ u => u) (prior := none) (P := [fun _ => 4]) (N := [![1, 0]]) (gs := fun _ => 9) (h := fun _ => 1)
    (corner := fun _ => 0) (sigmaN := 0) (sigma := 1) exactBicg_total exactSolve_all (by norm_num) (by norm_num)).mpr (by
    intro p hp k
    rw [List.mem_singleton] at hp
    subst hp
    norm_num)
  obtain ⟨-, hl, -, hm, -⟩ := C140_subspace2 someArgsort_ok exactSolve_correct (by norm_num) (by norm_num) hr
  exact ⟨mean, vs, hr, by simpa using hm, by simpa using hl⟩

end Gpy.Spsr
