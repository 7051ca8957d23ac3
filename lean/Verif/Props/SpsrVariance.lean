import Verif.Proofs.SpsrVar
import Verif.Props.SpsrReturns

/-! C123: the variance of `stochastic_poisson_surface_reconstruction` in two dimensions. -/

set_option autoImplicit false
namespace Gpy.Spsr
open Np Finset

/-! ## Specification -/

/-- the number of edges of the grid -/
def nEdges2 (gs : Fin 2 → ℕ) : ℕ := (gs 0 - 1) * gs 1 + gs 0 * (gs 1 - 1)

/-- the edges: first those along the first coordinate, then those along the second; direction and midpoint -/
noncomputable def edge2 (gs : Fin 2 → ℕ) (h corner : Pt 2) (e : ℕ) : Fin 2 × Pt 2 :=
  if e < (gs 0 - 1) * gs 1 then (0, midX2 h corner (e % (gs 0 - 1)) (e / (gs 0 - 1)))
  else (1, midY2 h corner ((e - (gs 0 - 1) * gs 1) % gs 0) ((e - (gs 0 - 1) * gs 1) / gs 0))

/-- the covariance of a Gaussian process with kernel `k` after observations at `P`, with the (lumped) inverse covariance `w` of the observations -/
noncomputable def postCov {d : ℕ} (k : Pt d → Pt d → ℝ) (w : ℕ → ℝ) (P : List (Pt d)) (q q' : Pt d) : ℝ :=
  k q q' - ∑ i ∈ range P.length, k (P.getD i 0) q * (w i * k (P.getD i 0) q')

/-- the covariance of the vector field at two edges: different components are independent -/
noncomputable def edgeCov2 (gs : Fin 2 → ℕ) (h corner : Pt 2) (sigma : ℝ) (w : ℕ → ℝ) (P : List (Pt 2)) (e e' : ℕ) : ℝ :=
  if (edge2 gs h corner e).1 = (edge2 gs h corner e').1 then sigma ^ 2 * postCov (kern h) w P (edge2 gs h corner e).2 (edge2 gs h corner e').2 else 0

/-- what the mean minimises -/
noncomputable def objective2 (gs : Fin 2 → ℕ) (h corner : Pt 2) (V : Pt 2 → Pt 2) (u : ℕ → ℕ → ℝ) : ℝ :=
  misfit2 gs h corner V u + 1e-6 * ∑ y ∈ range (gs 1), ∑ x ∈ range (gs 0), u x y ^ 2

/-! ## Proofs -/

variable {bicg : BicgSolver} {solve : LinSolver ℝ} {sigmaN sigma : ℝ}

theorem edge2_x {gs : Fin 2 → ℕ} {h corner : Pt 2} {x y : ℕ} (hx : x < gs 0 - 1) (hy : y < gs 1) : edge2 gs h corner (x + (gs 0 - 1) * y) = (0, midX2 h corner x y) := by
  unfold edge2
  obtain ⟨d1, d2⟩ := decode2 (y := y) hx
  rw [if_pos (idx_lt2 hx hy), d1, d2]

theorem edge2_y {gs : Fin 2 → ℕ} {h corner : Pt 2} {x y : ℕ} (hx : x < gs 0) : edge2 gs h corner ((gs 0 - 1) * gs 1 + (x + gs 0 * y)) = (1, midY2 h corner x y) := by
  unfold edge2
  obtain ⟨d1, d2⟩ := decode2 (y := y) hx
  rw [if_neg (by omega), Nat.add_sub_cancel_left, d1, d2]

theorem node_x2 {gs : Fin 2 → ℕ} {h corner : Pt 2} {j : ℕ} (hj : j < (gs 0 - 1) * gs 1) : node (gsOff gs 0) h (cornerOff h corner 0) j = (edge2 gs h corner j).2 := by
  have h0 : 0 < gs 0 - 1 := by
    rcases Nat.eq_zero_or_pos (gs 0 - 1) with h | h
    · rw [h] at hj; simp at hj
    · exact h
  have hx := Nat.mod_lt j h0
  have hy : j / (gs 0 - 1) < gs 1 := Nat.div_lt_of_lt_mul hj
  have e := Nat.mod_add_div j (gs 0 - 1)
  have := node2_at (gs := gsOff gs 0) (h := h) (corner := cornerOff h corner 0) (x := j % (gs 0 - 1)) (y := j / (gs 0 - 1)) (by simpa [gsOff] using hx) (by simpa [gsOff] using hy)
  rw [show (gsOff gs 0) 0 = gs 0 - 1 by simp [gsOff], e] at this
  rw [this]
  have e2 := edge2_x (h := h) (corner := corner) hx hy
  rw [e] at e2
  rw [e2]
  unfold midX2
  rw [show cornerOff h corner 0 0 = corner 0 + 0.5 * h 0 by simp [cornerOff], show cornerOff h corner 0 1 = corner 1 by simp [cornerOff]]
  simp only
  congr 1
  ring

theorem node_y2 {gs : Fin 2 → ℕ} {h corner : Pt 2} {j : ℕ} (hj : j < gs 0 * (gs 1 - 1)) : node (gsOff gs 1) h (cornerOff h corner 1) j = (edge2 gs h corner ((gs 0 - 1) * gs 1 + j)).2 := by
  have h0 : 0 < gs 0 := by
    rcases Nat.eq_zero_or_pos (gs 0) with h | h
    · rw [h] at hj; simp at hj
    · exact h
  have hx := Nat.mod_lt j h0
  have hy : j / gs 0 < gs 1 - 1 := Nat.div_lt_of_lt_mul hj
  have e := Nat.mod_add_div j (gs 0)
  have := node2_at (gs := gsOff gs 1) (h := h) (corner := cornerOff h corner 1) (x := j % gs 0) (y := j / gs 0) (by simpa [gsOff] using hx) (by simpa [gsOff] using hy)
  rw [show (gsOff gs 1) 0 = gs 0 by simp [gsOff], e] at this
  rw [this]
  have e2 := edge2_y (gs := gs) (h := h) (corner := corner) (y := j / gs 0) hx
  rw [e] at e2
  rw [e2]
  unfold midY2
  rw [show cornerOff h corner 1 0 = corner 0 by simp [cornerOff], show cornerOff h corner 1 1 = corner 1 + 0.5 * h 1 by simp [cornerOff]]
  simp only
  congr 2
  ring

/-- the covariance of one component -/
theorem component_cov2 {prior : Option (Pt 2 → Pt 2)} {P N : List (Pt 2)} {gs : Fin 2 → ℕ} {h corner : Pt 2} {dens : ℕ → ℝ} {dd : Fin 2} {c : List ℝ × (ℕ → ℕ → ℝ)} (hh : ∀ k, 0 < h k)
    (hg0 : 8 ≤ gs 0) (hg1 : 6 ≤ gs 1) (hc : component prior sigmaN dens gs h corner P N dd = some c) : ∀ j l, j < size (gsOff gs dd) → l < size (gsOff gs dd) →
    c.2 j l = postCov (kern h) (fun i => 1 / (dens i + sigmaN * sigmaN)) P (node (gsOff gs dd) h (cornerOff h corner dd) j) (node (gsOff gs dd) h (cornerOff h corner dd) l) := by
  unfold component at hc
  cases h1 : k1 (gsOff gs dd) h (cornerOff h corner dd) with
  | none => simp [h1] at hc
  | some K1 =>
    cases h2 : k2 (gsOff gs dd) h (cornerOff h corner dd) P with
    | none => simp [h1, h2] at hc
    | some K2 =>
      simp only [h1, h2, Option.bind_eq_bind, Option.bind_some, Option.some.injEq] at hc
      subst hc
      have hgo : ∀ k, 5 ≤ gsOff gs dd k := by
        intro k
        unfold gsOff
        fin_cases dd <;> fin_cases k <;> simp <;> omega
      have hgo' : ∀ k : Fin 2, k.val + 1 < 2 → 7 ≤ gsOff gs dd k := by
        intro k hk
        have : k = 0 := by omega
        subst this
        unfold gsOff
        fin_cases dd <;> simp <;> omega
      obtain ⟨K, e1, -, -, -, e2⟩ := k2_exact (gs := gsOff gs dd) (h := h) (corner := cornerOff h corner dd) (P := P) (by norm_num) hh hgo' (k2_cells hh h2)
      rw [h2, Option.some.injEq] at e1
      subst e1
      obtain ⟨K', f1, -, -, -, f2⟩ := k1_exact2 (gs := gsOff gs dd) (h := h) (corner := cornerOff h corner dd) hh hgo
      rw [h1, Option.some.injEq] at f1
      subst f1
      intro j l hj hl
      simp only
      unfold postCov
      rw [f2 j l hj hl]
      congr 1
      refine Finset.sum_congr rfl (fun i hi => ?_)
      rw [Finset.mem_range] at hi
      have hpi : P[i]? = some (P.getD i 0) := by rw [List.getD_eq_getElem _ _ hi, List.getElem?_eq_getElem hi]
      rw [e2 i j _ hpi hj, e2 i l _ hpi hl]

/-- the data term in terms of the rows of the gradient -/
theorem misfit_rows2 {gs : Fin 2 → ℕ} {h corner : Pt 2} {G : Csr ℝ} (hG : gradient gs h = some G) (V : Pt 2 → Pt 2) (u : ℕ → ℝ) :
    ∑ i ∈ range G.nrows, (G.mulVec u i - V (edge2 gs h corner i).2 (edge2 gs h corner i).1) ^ 2 = misfit2 gs h corner V (fun x y => u (x + gs 0 * y)) := by
  obtain ⟨r1, r2, r3⟩ := gradient2_rows hG
  rw [r3 (fun i t => (t - V (edge2 gs h corner i).2 (edge2 gs h corner i).1) ^ 2)]
  unfold misfit2
  congr 1
  · refine Finset.sum_congr rfl (fun y hy => Finset.sum_congr rfl (fun x hx => ?_))
    rw [edge2_x (Finset.mem_range.mp hx) (Finset.mem_range.mp hy)]
  · refine Finset.sum_congr rfl (fun y hy => Finset.sum_congr rfl (fun x hx => ?_))
    rw [edge2_y (Finset.mem_range.mp hx)]

theorem misfit2_congr {gs : Fin 2 → ℕ} {h corner : Pt 2} {V : Pt 2 → Pt 2} {u u' : ℕ → ℕ → ℝ} (huu : ∀ x y, x < gs 0 → y < gs 1 → u x y = u' x y) : misfit2 gs h corner V u = misfit2 gs h corner V u' := by
  unfold misfit2
  congr 1
  · refine Finset.sum_congr rfl (fun y hy => Finset.sum_congr rfl (fun x hx => ?_))
    have h1 := Finset.mem_range.mp hx
    have h2 := Finset.mem_range.mp hy
    rw [huu x y (by omega) h2, huu (x + 1) y (by omega) h2]
  · refine Finset.sum_congr rfl (fun y hy => Finset.sum_congr rfl (fun x hx => ?_))
    have h1 := Finset.mem_range.mp hx
    have h2 := Finset.mem_range.mp hy
    rw [huu x y h1 (by omega), huu x (y + 1) h1 (by omega)]

/-- the objective as the energy of the matrix -/
theorem objective_energy2 {gs : Fin 2 → ℕ} {h corner : Pt 2} {G : Csr ℝ} (hG : gradient gs h = some G) (V : Pt 2 → Pt 2) (u : ℕ → ℝ) :
    energy (Matrix.of (fun (i : Fin G.nrows) (j : Fin (size gs)) => G.get i j)) (fun i => V (edge2 gs h corner i).2 (edge2 gs h corner i).1) (fun j => u j) = objective2 gs h corner V (fun x y => u (x + gs 0 * y)) := by
  obtain ⟨r1, r2, -⟩ := gradient2_rows hG
  have he : eps = 1e-6 := by unfold eps; norm_num
  unfold energy objective2
  rw [← misfit_rows2 hG, he]
  simp only [csr_mulVec_fin G (r2.trans (size2 gs).symm) u]
  rw [← Finset.sum_range (fun i => (G.mulVec u i - V (edge2 gs h corner i).2 (edge2 gs h corner i).1) ^ 2), ← Finset.sum_range (fun j => u j ^ 2), size2, sum_rows]

theorem flat2 {gs : Fin 2 → ℕ} (u : ℕ → ℕ → ℝ) (x y : ℕ) (hx : x < gs 0) : u ((x + gs 0 * y) % gs 0) ((x + gs 0 * y) / gs 0) = u x y := by
  obtain ⟨d1, d2⟩ := decode2 (y := y) hx
  rw [d1, d2]

/-- a minimiser of the objective minimises the energy -/
theorem minimiser2 {gs : Fin 2 → ℕ} {h corner : Pt 2} {G : Csr ℝ} (hG : gradient gs h = some G) (V : Pt 2 → Pt 2) (u : ℕ → ℕ → ℝ) (hu : ∀ u', objective2 gs h corner V u ≤ objective2 gs h corner V u')
    (z : Fin (size gs) → ℝ) :
    energy (Matrix.of (fun (i : Fin G.nrows) (j : Fin (size gs)) => G.get i j)) (fun i => V (edge2 gs h corner i).2 (edge2 gs h corner i).1) (fun j => u (j % gs 0) (j / gs 0)) ≤
      energy (Matrix.of (fun (i : Fin G.nrows) (j : Fin (size gs)) => G.get i j)) (fun i => V (edge2 gs h corner i).2 (edge2 gs h corner i).1) z := by
  have e1 := objective_energy2 hG (corner := corner) V (fun k => u (k % gs 0) (k / gs 0))
  have e2 := objective_energy2 hG (corner := corner) V (fun k => if hk : k < size gs then z ⟨k, hk⟩ else 0)
  have e3 : (fun j : Fin (size gs) => if hk : (j : ℕ) < size gs then z ⟨j, hk⟩ else 0) = z := by
    funext j; simp
  rw [e3] at e2
  rw [e1, e2]
  refine le_trans (le_of_eq ?_) (hu _)
  unfold objective2
  rw [misfit2_congr (u' := u) (fun x y hx _ => flat2 u x y hx)]
  congr 2
  refine Finset.sum_congr rfl (fun y _ => Finset.sum_congr rfl (fun x hx => ?_))
  simp only [flat2 u x y (Finset.mem_range.mp hx)]

/-- **C123** (variance, two dimensions).  On a grid with at least eight by six nodes: whenever a variance is returned it has one value per node, all of them are at least `sigma_n² + 1e-6` and the smallest is
exactly that.  Up to this common shift they are the variances of the exact solution: there are weights `w` such that the value at a node of the exact minimiser for a vector field `V` is the weighted sum of
the components of `V` along the edges, and the variance of the node is the variance of that weighted sum when the vector field has the covariance of the Gaussian process after observing the points. -/
theorem C123_variance2 {blur : (Fin 2 → ℕ) → (ℕ → ℝ) → ℕ → ℝ} {prior : Option (Pt 2 → Pt 2)} {P N : List (Pt 2)} {gs : Fin 2 → ℕ} {h corner : Pt 2} {mean : List ℝ} {var : Option (List ℝ)}
    (hc : solve.Correct) (hh : ∀ k, 0 < h k) (hg : 8 ≤ gs 0 ∧ 6 ≤ gs 1)
    (hr : spsr blur bicg solve prior true sigmaN sigma P N (some gs) (some h) (some corner) = some (mean, var)) :
    ∃ vs, var = some vs ∧ vs.length = gs 0 * gs 1 ∧ (∀ s ∈ vs, sigmaN ^ 2 + 1e-6 ≤ s) ∧ sigmaN ^ 2 + 1e-6 ∈ vs ∧
      ∃ dens, density blur gs h corner P = some dens ∧ ∃ w : ℕ → ℕ → ℝ,
        (∀ (V : Pt 2 → Pt 2) (u : ℕ → ℕ → ℝ), (∀ u', objective2 gs h corner V u ≤ objective2 gs h corner V u') →
          ∀ x y, x < gs 0 → y < gs 1 → u x y = ∑ e ∈ range (nEdges2 gs), w (x + gs 0 * y) e * V (edge2 gs h corner e).2 (edge2 gs h corner e).1) ∧
        ∃ shift : ℝ, ∀ j, j < gs 0 * gs 1 → vs.getD j 0 = shift +
          ∑ e ∈ range (nEdges2 gs), ∑ e' ∈ range (nEdges2 gs), w j e * edgeCov2 gs h corner sigma (fun i => 1 / (dens i + sigmaN * sigmaN)) P e e' * w j e' := by
  obtain ⟨gs', h', corner', dens, comps, G, W, x, g1, g2, g3, g4, g5, g6, g7, g8, -, g9⟩ := spsr_parts hr
  rw [grid_all, Option.some.injEq, Prod.mk.injEq, Prod.mk.injEq] at g1
  obtain ⟨rfl, rfl, rfl⟩ := g1
  obtain ⟨g, hg', rfl⟩ := comps_eq g3
  obtain ⟨y, g10, rfl⟩ := g9 rfl
  obtain ⟨r1, r2, -⟩ := gradient2_rows g4
  have hcm := fun dd => component_mean (dd := dd) hh (by
    intro k hk
    have : k = 0 := by omega
    rw [this]; exact hg.1) (hg' dd)
  have hcc := fun dd => component_cov2 (dd := dd) hh hg.1 hg.2 (hg' dd)
  have s0 : size (gsOff gs 0) = (gs 0 - 1) * gs 1 := by rw [size2]; simp [gsOff]
  have s1 : size (gsOff gs 1) = gs 0 * (gs 1 - 1) := by rw [size2]; simp [gsOff]
  have l0 : (g 0).1.length = (gs 0 - 1) * gs 1 := by rw [hcm 0]; simp [s0]
  have l1 : (g 1).1.length = gs 0 * (gs 1 - 1) := by rw [hcm 1]; simp [s1]
  -- the covariance matrix
  have hC : ∀ e e' : ℕ, e < nEdges2 gs → e' < nEdges2 gs → sigma * sigma * blockDiag (((List.finRange 2).map g).map (fun c => (c.1.length, c.2))) e e' =
      edgeCov2 gs h corner sigma (fun i => 1 / (dens i + sigmaN * sigmaN)) P e e' := by
    intro e e' he he'
    unfold nEdges2 at he he'
    have : ((List.finRange 2).map g).map (fun c => (c.1.length, c.2)) = [((gs 0 - 1) * gs 1, (g 0).2), (gs 0 * (gs 1 - 1), (g 1).2)] := by
      simp [List.finRange_succ, l0, l1]
    rw [this]
    unfold edgeCov2
    simp only [blockDiag]
    by_cases h1 : e < (gs 0 - 1) * gs 1 <;> by_cases h2 : e' < (gs 0 - 1) * gs 1
    · rw [if_pos ⟨h1, h2⟩, hcc 0 e e' (by rw [s0]; exact h1) (by rw [s0]; exact h2), node_x2 h1, node_x2 h2, if_pos (by unfold edge2; rw [if_pos h1, if_pos h2]), pow_two]
    · rw [if_neg (fun h => h2 h.2), if_neg (fun h => absurd h.1 (by omega)), mul_zero, if_neg]
      unfold edge2
      rw [if_pos h1, if_neg h2]
      simp
    · rw [if_neg (fun h => h1 h.1), if_neg (fun h => absurd h.2 (by omega)), mul_zero, if_neg]
      unfold edge2
      rw [if_neg h1, if_pos h2]
      simp
    · obtain ⟨k, rfl⟩ := Nat.exists_eq_add_of_le (not_lt.mp h1)
      obtain ⟨k', rfl⟩ := Nat.exists_eq_add_of_le (not_lt.mp h2)
      rw [if_neg (fun h => h1 h.1), if_pos ⟨by omega, by omega⟩, Nat.add_sub_cancel_left, Nat.add_sub_cancel_left, if_pos ⟨by omega, by omega⟩,
        hcc 1 k k' (by rw [s1]; omega) (by rw [s1]; omega), node_y2 (by omega), node_y2 (by omega), if_pos (by unfold edge2; rw [if_neg h1, if_neg h2]), pow_two]
  obtain ⟨w, w1, j0, w2⟩ := varField_spec _ hc g10
  have he : eps = 1e-6 := by unfold eps; norm_num
  have hnE : nEdges2 gs = G.nrows := r1.symm
  generalize hT : (fun j : Fin (size gs) => ∑ e, ∑ e', w j e * (Matrix.of (fun (i j : Fin G.nrows) => sigma * sigma * blockDiag (((List.finRange 2).map g).map (fun c => (c.1.length, c.2))) i j)) e e' * w j e') = T
  have hT' : ∀ j : Fin (size gs), (∑ e, ∑ e', w j e * (Matrix.of (fun (i j : Fin G.nrows) => sigma * sigma * blockDiag (((List.finRange 2).map g).map (fun c => (c.1.length, c.2))) i j)) e e' * w j e') = T j :=
    fun j => by rw [← hT]
  simp only [hT'] at w2
  refine ⟨List.ofFn y, rfl, by rw [List.length_ofFn, size2], ?_, ?_, dens, g2, ?_⟩
  · intro s hs
    obtain ⟨j, rfl⟩ := List.mem_ofFn.mp hs
    obtain ⟨a1, a2⟩ := w2 j
    rw [a2, he]
    nlinarith
  · refine List.mem_ofFn.mpr ⟨j0, ?_⟩
    obtain ⟨-, a2⟩ := w2 j0
    rw [a2, he]
    ring
  · refine ⟨fun j e => if hj : j < size gs then (if he : e < G.nrows then w ⟨j, hj⟩ ⟨e, he⟩ else 0) else 0, ?_, -T j0 + sigmaN * sigmaN + eps, ?_⟩
    · intro V u hu x y hx hy
      have hlt : x + gs 0 * y < size gs := by rw [size2]; exact idx_lt2 hx hy
      have := w1 (fun i => V (edge2 gs h corner i).2 (edge2 gs h corner i).1) (fun j => u (j % gs 0) (j / gs 0)) (minimiser2 g4 V u hu) ⟨_, hlt⟩
      simp only at this
      rw [flat2 u x y hx] at this
      rw [this, hnE, Finset.sum_range]
      refine Finset.sum_congr rfl (fun e _ => ?_)
      simp only [dif_pos hlt, Fin.is_lt, dif_pos]
    · intro j hj
      have hlt : j < size gs := by rw [size2]; exact hj
      rw [getD_ofFn y 0 ⟨j, hlt⟩]
      obtain ⟨-, a2⟩ := w2 ⟨j, hlt⟩
      rw [a2]
      have hTj : T ⟨j, hlt⟩ = ∑ e ∈ range (nEdges2 gs), ∑ e' ∈ range (nEdges2 gs), (fun j e => if hj : j < size gs then (if he : e < G.nrows then w ⟨j, hj⟩ ⟨e, he⟩ else 0) else 0) j e *
          edgeCov2 gs h corner sigma (fun i => 1 / (dens i + sigmaN * sigmaN)) P e e' * (fun j e => if hj : j < size gs then (if he : e < G.nrows then w ⟨j, hj⟩ ⟨e, he⟩ else 0) else 0) j e' := by
        rw [← hT' ⟨j, hlt⟩, hnE, Finset.sum_range]
        refine Finset.sum_congr rfl (fun e _ => ?_)
        rw [Finset.sum_range]
        refine Finset.sum_congr rfl (fun e' _ => ?_)
        simp only [dif_pos hlt, Fin.is_lt, dif_pos, Matrix.of_apply]
        rw [hC e e' (by rw [hnE]; exact e.isLt) (by rw [hnE]; exact e'.isLt)]
      rw [← hTj]
      ring

/-! ### A variance is returned -/

/-- the solver succeeds on every system that has a solution -/
def SolvesAll (solve : LinSolver ℝ) : Prop := ∀ (n : ℕ) (A : Matrix (Fin n) (Fin n) ℝ) (b : Fin n → ℝ), (∃ x, A.mulVec x = b) → ∃ x, solve (Fin n) A b = some x

theorem solveCols_some (hs : SolvesAll solve) {n m k : ℕ} (G : Matrix (Fin m) (Fin n) ℝ) (B : Matrix (Fin n) (Fin k) ℝ) : ∃ S, solveCols solve (system G) B = some S := by
  choose g hg using fun j : Fin k => hs n (system G) (fun i => B i j) (system_surj G _)
  unfold solveCols
  rw [mapM_some_map (List.finRange k) (fun j => solve (Fin n) (system G) (fun i => B i j)) g (fun j _ => hg j)]
  exact ⟨_, rfl⟩

/-- **C123** (a variance is returned, two dimensions).  On a grid with at least eight by six nodes and with solvers that solve every solvable system, a mean and a variance are returned exactly if every point is
at least half a cell right of (above) the first node and less than half a cell right of (above) the last node. -/
theorem C123_returns2 {blur : (Fin 2 → ℕ) → (ℕ → ℝ) → ℕ → ℝ} {prior : Option (Pt 2 → Pt 2)} {P N : List (Pt 2)} {gs : Fin 2 → ℕ} {h corner : Pt 2} (hb : bicg.Total) (hs : SolvesAll solve) (hh : ∀ k, 0 < h k)
    (hg : 8 ≤ gs 0 ∧ 6 ≤ gs 1) :
    (∃ mean vs, spsr blur bicg solve prior true sigmaN sigma P N (some gs) (some h) (some corner) = some (mean, some vs)) ↔
      ∀ p ∈ P, ∀ k, corner k + h k / 2 ≤ p k ∧ p k < corner k + ((gs k : ℝ) - 1 / 2) * h k := by
  rw [← C122_returns2 (bicg := bicg) (solve := solve) (blur := blur) (prior := prior) (N := N) (sigmaN := sigmaN) (sigma := sigma) hb hh hg]
  constructor
  · rintro ⟨mean, vs, hr⟩
    obtain ⟨gs', h', corner', dens, comps, G, W, x, g1, g2, g3, g4, g5, g6, g7, g8, -, -⟩ := spsr_parts hr
    refine ⟨List.ofFn x, ?_⟩
    unfold spsr
    simp only [g1, g2, g3, g4, g5, g7, if_pos g6, Option.bind_eq_bind, Option.bind_some]
    simp
  · rintro ⟨mean, hr⟩
    obtain ⟨gs', h', corner', dens, comps, G, W, x, g1, g2, g3, g4, g5, g6, g7, g8, -, -⟩ := spsr_parts hr
    have g1' := g1
    rw [grid_all, Option.some.injEq, Prod.mk.injEq, Prod.mk.injEq] at g1'
    obtain ⟨rfl, rfl, rfl⟩ := g1'
    have hv : ∃ y, varField solve sigmaN (Matrix.of (fun (i : Fin G.nrows) (j : Fin (size gs)) => G.get i j))
        (Matrix.of (fun (i j : Fin G.nrows) => sigma * sigma * blockDiag (comps.map (fun c => (c.1.length, c.2))) i j)) = some y := by
      generalize (Matrix.of (fun (i : Fin G.nrows) (j : Fin (size gs)) => G.get i j)) = Gm
      generalize (Matrix.of (fun (i j : Fin G.nrows) => sigma * sigma * blockDiag (comps.map (fun c => (c.1.length, c.2))) i j)) = C
      unfold varField
      obtain ⟨D, hD⟩ := solveCols_some hs Gm (Gm.transpose * C * Gm)
      obtain ⟨S, hS⟩ := solveCols_some hs Gm D.transpose
      have hpos : 0 < size gs := by rw [size2]; exact Nat.mul_pos (by omega) (by omega)
      have hm : ∃ lo, (List.ofFn (fun j => S j j)).min? = some lo := by
        cases hl : (List.ofFn (fun j => S j j)).min? with
        | none =>
          rw [List.min?_eq_none_iff] at hl
          have := congrArg List.length hl
          simp at this
          omega
        | some lo => exact ⟨lo, rfl⟩
      obtain ⟨lo, hlo⟩ := hm
      simp only [hD, hS, hlo, Option.bind_eq_bind, Option.bind_some]
      exact ⟨_, rfl⟩
    obtain ⟨y, hy⟩ := hv
    refine ⟨List.ofFn x, List.ofFn y, ?_⟩
    unfold spsr
    simp only [g1, g2, g3, g4, g5, g7, hy, if_pos g6, Option.bind_eq_bind, Option.bind_some]
    simp

/-- a solver that meets both contracts -/
noncomputable def exactSolve : LinSolver ℝ := fun ι _ A b => by
  classical exact if hx : ∃ x, A.mulVec x = b then some hx.choose else none

theorem exactSolve_correct : exactSolve.Correct := by
  intro ι _ A b x h
  unfold exactSolve at h
  split_ifs at h with hx
  rw [Option.some.injEq] at h
  rw [← h]
  exact fun i => congrFun hx.choose_spec i

theorem exactSolve_all : SolvesAll exactSolve := by
  intro n A b hx
  refine ⟨hx.choose, ?_⟩
  unfold exactSolve
  rw [dif_pos hx]

/-- a run that returns a variance -/
example : ∃ mean vs, spsr (fun _ u => u) exactBicg exactSolve none true 0 1 [fun _ => 4] [![1, 0]] (some (fun _ => 9)) (some (fun _ => 1)) (some (fun _ => 0)) = some (mean, some vs) ∧ (1e-6 : ℝ) ∈ vs := by
  obtain ⟨mean, vs, hr⟩ := (C123_returns2 (bicg := exactBicg) (solve := exactSolve) (blur := fun _ u => u) (prior := none) (P := [fun _ => 4]) (N := [![1, 0]]) (gs := fun _ => 9) (h := fun _ => 1)
    (corner := fun _ => 0) (sigmaN := 0) (sigma := 1) exactBicg_total exactSolve_all (by norm_num) (by norm_num)).mpr (by
    intro p hp k
    rw [List.mem_singleton] at hp
    subst hp
    norm_num)
  obtain ⟨vs', e, -, -, hm, -⟩ := C123_variance2 exactSolve_correct (by norm_num) (by norm_num) hr
  rw [Option.some.injEq] at e
  subst e
  exact ⟨mean, vs, hr, by simpa using hm⟩

end Gpy.Spsr
