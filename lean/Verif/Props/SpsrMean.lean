import Verif.Proofs.SpsrRun
import Mathlib.Data.Fin.VecNotation
import Mathlib.Tactic.FinCases

/-! C122: the mean of `stochastic_poisson_surface_reconstruction` fits its gradient to the vector field of the normals. -/

set_option autoImplicit false
namespace Gpy.Spsr
open Np Finset

/-! ## Specification -/

/-- The contract of `scipy.sparse.linalg.bicg(A,b,atol=1e-10)` when it reports success: the residual is at most `1e-5` times the right hand side, or at most `1e-10` -/
def BicgSolver.Accurate (bicg : BicgSolver) : Prop :=
  ∀ (n : ℕ) (A : Matrix (Fin n) (Fin n) ℝ) (b x : Fin n → ℝ), bicg n A b = some x → ∑ i, (A.mulVec x i - b i) ^ 2 ≤ max (1e-10 * ∑ i, b i ^ 2) 1e-20

/-- the midpoint of the grid edge from node `(x,y)` to `(x+1,y)`, and to `(x,y+1)` -/
noncomputable def midX2 (h corner : Pt 2) (x y : ℕ) : Pt 2 := ![corner 0 + (x + 1 / 2) * h 0, corner 1 + y * h 1]
noncomputable def midY2 (h corner : Pt 2) (x y : ℕ) : Pt 2 := ![corner 0 + x * h 0, corner 1 + (y + 1 / 2) * h 1]

/-- the sum over the grid edges of the squared difference between the slope of `u` along the edge and the component of `V` at the midpoint -/
noncomputable def misfit2 (gs : Fin 2 → ℕ) (h corner : Pt 2) (V : Pt 2 → Pt 2) (u : ℕ → ℕ → ℝ) : ℝ :=
  ∑ y ∈ range (gs 1), ∑ x ∈ range (gs 0 - 1), ((u (x + 1) y - u x y) / h 0 - V (midX2 h corner x y) 0) ^ 2 +
  ∑ y ∈ range (gs 1 - 1), ∑ x ∈ range (gs 0), ((u x (y + 1) - u x y) / h 1 - V (midY2 h corner x y) 1) ^ 2

/-- the sum over the grid edges of slope times component of `V` -/
noncomputable def pairing2 (gs : Fin 2 → ℕ) (h corner : Pt 2) (V : Pt 2 → Pt 2) (u : ℕ → ℕ → ℝ) : ℝ :=
  ∑ y ∈ range (gs 1), ∑ x ∈ range (gs 0 - 1), (u (x + 1) y - u x y) / h 0 * V (midX2 h corner x y) 0 +
  ∑ y ∈ range (gs 1 - 1), ∑ x ∈ range (gs 0), (u x (y + 1) - u x y) / h 1 * V (midY2 h corner x y) 1

noncomputable def midX3 (h corner : Pt 3) (x y z : ℕ) : Pt 3 := ![corner 0 + (x + 1 / 2) * h 0, corner 1 + y * h 1, corner 2 + z * h 2]
noncomputable def midY3 (h corner : Pt 3) (x y z : ℕ) : Pt 3 := ![corner 0 + x * h 0, corner 1 + (y + 1 / 2) * h 1, corner 2 + z * h 2]
noncomputable def midZ3 (h corner : Pt 3) (x y z : ℕ) : Pt 3 := ![corner 0 + x * h 0, corner 1 + y * h 1, corner 2 + (z + 1 / 2) * h 2]

/-- the same in three dimensions -/
noncomputable def misfit3 (gs : Fin 3 → ℕ) (h corner : Pt 3) (V : Pt 3 → Pt 3) (u : ℕ → ℕ → ℕ → ℝ) : ℝ :=
  ∑ z ∈ range (gs 2), ∑ y ∈ range (gs 1), ∑ x ∈ range (gs 0 - 1), ((u (x + 1) y z - u x y z) / h 0 - V (midX3 h corner x y z) 0) ^ 2 +
  ∑ z ∈ range (gs 2), ∑ y ∈ range (gs 1 - 1), ∑ x ∈ range (gs 0), ((u x (y + 1) z - u x y z) / h 1 - V (midY3 h corner x y z) 1) ^ 2 +
  ∑ z ∈ range (gs 2 - 1), ∑ y ∈ range (gs 1), ∑ x ∈ range (gs 0), ((u x y (z + 1) - u x y z) / h 2 - V (midZ3 h corner x y z) 2) ^ 2

noncomputable def pairing3 (gs : Fin 3 → ℕ) (h corner : Pt 3) (V : Pt 3 → Pt 3) (u : ℕ → ℕ → ℕ → ℝ) : ℝ :=
  ∑ z ∈ range (gs 2), ∑ y ∈ range (gs 1), ∑ x ∈ range (gs 0 - 1), (u (x + 1) y z - u x y z) / h 0 * V (midX3 h corner x y z) 0 +
  ∑ z ∈ range (gs 2), ∑ y ∈ range (gs 1 - 1), ∑ x ∈ range (gs 0), (u x (y + 1) z - u x y z) / h 1 * V (midY3 h corner x y z) 1 +
  ∑ z ∈ range (gs 2 - 1), ∑ y ∈ range (gs 1), ∑ x ∈ range (gs 0), (u x y (z + 1) - u x y z) / h 2 * V (midZ3 h corner x y z) 2

/-! ## Proofs -/

variable {d : ℕ} {blur : (Fin d → ℕ) → (ℕ → ℝ) → ℕ → ℝ} {bicg : BicgSolver} {solve : LinSolver ℝ} {prior : Option (Pt d → Pt d)} {variance : Bool} {sigmaN sigma : ℝ}
  {P N : List (Pt d)} {gs : Fin d → ℕ} {h corner : Pt d}

theorem size2 (gs : Fin 2 → ℕ) : size gs = gs 0 * gs 1 := by simp [size, List.ofFn_succ]
theorem size3 (gs : Fin 3 → ℕ) : size gs = gs 0 * gs 1 * gs 2 := by simp [size, List.ofFn_succ, mul_assoc]

theorem grid_all (P : List (Pt d)) (gs : Fin d → ℕ) (h corner : Pt d) : grid P (some gs) (some h) (some corner) = some (gs, h, corner) := by
  unfold grid
  simp

theorem comps_eq {dens : ℕ → ℝ} {comps : List (List ℝ × (ℕ → ℕ → ℝ))} (hm : (List.finRange d).mapM (component prior sigmaN dens gs h corner P N) = some comps) :
    ∃ g : Fin d → List ℝ × (ℕ → ℕ → ℝ), (∀ dd, component prior sigmaN dens gs h corner P N dd = some (g dd)) ∧ comps = (List.finRange d).map g := by
  choose g hg using fun dd : Fin d => mapM_mem hm dd (List.mem_finRange dd)
  refine ⟨g, hg, ?_⟩
  have := mapM_some_map (List.finRange d) _ g (fun dd _ => hg dd)
  rw [hm, Option.some.injEq] at this
  exact this

/-- the fit of the mean, in terms of the rows of the gradient -/
theorem mean_fit {m n p : ℕ} {G : Matrix (Fin m) (Fin n) ℝ} {W : Matrix (Fin p) (Fin n) ℝ} {v : Fin m → ℝ} {x : Fin n → ℝ} (hb : bicg.Accurate) (hG : ∀ c : ℝ, G.mulVec (fun _ => c) = 0)
    (hx : meanField bicg G W v = some x) (u : Fin n → ℝ) :
    ∑ i, (G.mulVec x i - v i) ^ 2 ≤ ∑ i, (G.mulVec u i - v i) ^ 2 + eps * ∑ j, u j ^ 2 + max (1e-10 * ∑ j, G.transpose.mulVec v j ^ 2) 1e-20 / eps := by
  unfold meanField at hx
  cases hs : bicg n (system G) (G.transpose.mulVec v) with
  | none => simp [hs] at hx
  | some y =>
    simp only [hs, Option.bind_eq_bind, Option.bind_some, Option.some.injEq] at hx
    subst hx
    have e : ∀ c : ℝ, G.mulVec (fun j => y j - c) = G.mulVec y := by
      intro c
      have : (fun j => y j - c) = y - (fun _ => c) := rfl
      rw [this, Matrix.mulVec_sub, hG, sub_zero]
    rw [e]
    have h1 := energy_near G v y u
    have h2 := hb n _ _ _ hs
    have h3 : (∑ j, ((system G).mulVec y j - G.transpose.mulVec v j) ^ 2) / eps ≤ max (1e-10 * ∑ j, G.transpose.mulVec v j ^ 2) 1e-20 / eps := div_le_div_of_nonneg_right h2 eps_pos.le
    have h4 : 0 ≤ eps * ∑ j, y j ^ 2 := mul_nonneg eps_pos.le (Finset.sum_nonneg (fun _ _ => sq_nonneg _))
    unfold energy at h1
    linarith

theorem csr_mulVec_fin {n : ℕ} (G : Csr ℝ) (hn : G.ncols = n) (u : ℕ → ℝ) (i : Fin G.nrows) :
    (Matrix.of (fun (i : Fin G.nrows) (j : Fin n) => G.get i j)).mulVec (fun j => u j) i = G.mulVec u i := by
  unfold Matrix.mulVec dotProduct Csr.mulVec
  rw [hn, Finset.sum_range]
  rfl

theorem transpose_pair {m n : ℕ} (G : Matrix (Fin m) (Fin n) ℝ) (v : Fin m → ℝ) (u : Fin n → ℝ) : ∑ j, G.transpose.mulVec v j * u j = ∑ i, G.mulVec u i * v i := by
  have : G.transpose.mulVec v ⬝ᵥ u = G.mulVec u ⬝ᵥ v := by
    rw [Matrix.mulVec_transpose, ← Matrix.dotProduct_mulVec, dotProduct_comm]
  exact this

/-- the fit of the mean, in terms of the sparse gradient -/
theorem mean_fit_csr {n p : ℕ} {G : Csr ℝ} {W : Matrix (Fin p) (Fin n) ℝ} {v : List ℝ} {x : Fin n → ℝ} (hb : bicg.Accurate) (hn : G.ncols = n)
    (hG : ∀ c : ℝ, ∑ i ∈ range G.nrows, G.mulVec (fun _ => c) i ^ 2 = 0)
    (hx : meanField bicg (Matrix.of (fun (i : Fin G.nrows) (j : Fin n) => G.get i j)) W (fun i => v.getD i 0) = some x) :
    ∃ b : ℕ → ℝ, (∀ u : ℕ → ℝ, ∑ j ∈ range n, b j * u j = ∑ i ∈ range G.nrows, G.mulVec u i * v.getD i 0) ∧ ∀ u : ℕ → ℝ,
      ∑ i ∈ range G.nrows, (G.mulVec (fun j => (List.ofFn x).getD j 0) i - v.getD i 0) ^ 2 ≤
        ∑ i ∈ range G.nrows, (G.mulVec u i - v.getD i 0) ^ 2 + 1e-6 * ∑ j ∈ range n, u j ^ 2 + max (1e-10 * ∑ j ∈ range n, b j ^ 2) 1e-20 / 1e-6 := by
  have he : eps = 1e-6 := by unfold eps; norm_num
  have hG' : ∀ c : ℝ, (Matrix.of (fun (i : Fin G.nrows) (j : Fin n) => G.get i j)).mulVec (fun _ => c) = 0 := by
    intro c
    funext i
    have h1 := csr_mulVec_fin G hn (fun _ => c) i
    rw [h1]
    have h2 := (Finset.sum_eq_zero_iff_of_nonneg (fun i _ => sq_nonneg _)).mp (hG c) i.val (Finset.mem_range.mpr i.isLt)
    exact pow_eq_zero_iff (n := 2) (by norm_num) |>.mp h2
  generalize hb' : (Matrix.of (fun (i : Fin G.nrows) (j : Fin n) => G.get i j)).transpose.mulVec (fun i => v.getD i 0) = bb
  have hbb : ∀ j : Fin n, (fun k : ℕ => if hk : k < n then bb ⟨k, hk⟩ else 0) j = bb j := by
    intro j; simp
  refine ⟨fun k => if hk : k < n then bb ⟨k, hk⟩ else 0, ?_, ?_⟩
  · intro u
    rw [Finset.sum_range, Finset.sum_range]
    have := transpose_pair (Matrix.of (fun (i : Fin G.nrows) (j : Fin n) => G.get i j)) (fun i => v.getD i 0) (fun j => u j)
    rw [hb'] at this
    simp only [csr_mulVec_fin G hn u] at this
    simp only [hbb]
    exact this
  · intro u
    have := mean_fit hb hG' hx (fun j => u j)
    rw [hb', he] at this
    simp only [csr_mulVec_fin G hn u] at this
    rw [Finset.sum_range, Finset.sum_range, Finset.sum_range, Finset.sum_range]
    simp only [hbb]
    have ex : x = fun j : Fin n => (fun k : ℕ => (List.ofFn x).getD k 0) j := by
      funext j
      simp only
      rw [getD_ofFn]
    have e2 : ∀ i : Fin G.nrows, (Matrix.of (fun (i : Fin G.nrows) (j : Fin n) => G.get i j)).mulVec x i = G.mulVec (fun k : ℕ => (List.ofFn x).getD k 0) i := by
      intro i
      rw [← csr_mulVec_fin G hn (fun k : ℕ => (List.ofFn x).getD k 0) i, ← ex]
    simp only [e2] at this
    exact this

theorem getD_map_range (n : ℕ) (f : ℕ → ℝ) {j : ℕ} (hj : j < n) : ((List.range n).map f).getD j 0 = f j := by
  rw [List.getD_eq_getElem _ _ (by simpa using hj)]
  simp

theorem getD_append_left' {l l' : List ℝ} {j : ℕ} (hj : j < l.length) : (l ++ l').getD j 0 = l.getD j 0 := by
  rw [List.getD_append _ _ _ _ hj]

theorem getD_append_right' {l l' : List ℝ} {n j : ℕ} (hn : l.length = n) : (l ++ l').getD (n + j) 0 = l'.getD j 0 := by
  rw [List.getD_append_right _ _ _ _ (by omega)]
  congr 1
  omega

theorem node2_at {gs : Fin 2 → ℕ} {h corner : Pt 2} {x y : ℕ} (hx : x < gs 0) (hy : y < gs 1) : node gs h corner (x + gs 0 * y) = ![corner 0 + x * h 0, corner 1 + y * h 1] := by
  obtain ⟨d1, d2⟩ := decode2 (y := y) hx
  funext k
  unfold node
  simp only [List.ofFn_succ, List.ofFn_zero, unravelF, d1, d2, Fin.succ_zero_eq_one]
  fin_cases k
  · simp
  · simp [Nat.mod_eq_of_lt hy]

theorem node3_at {gs : Fin 3 → ℕ} {h corner : Pt 3} {x y z : ℕ} (hx : x < gs 0) (hy : y < gs 1) (hz : z < gs 2) :
    node gs h corner (x + gs 0 * (y + gs 1 * z)) = ![corner 0 + x * h 0, corner 1 + y * h 1, corner 2 + z * h 2] := by
  obtain ⟨d1, d2⟩ := decode2 (y := y + gs 1 * z) hx
  obtain ⟨d3, d4⟩ := decode2 (y := z) hy
  funext k
  unfold node
  simp only [List.ofFn_succ, List.ofFn_zero, unravelF, d1, d2, Fin.succ_zero_eq_one, Fin.succ_one_eq_two, d3, d4]
  fin_cases k
  · simp
  · simp
  · simp [Nat.mod_eq_of_lt hz]

/-- **C122** (two dimensions).  Given a grid with at least eight nodes in the first coordinate: whenever a mean is returned, it has one value for every node, and the gradient of the mean fits the vector
field of the normals on the edges of the grid as well as the gradient of any other function `u`, up to the regularisation `1e-6·‖u‖²` and the accuracy of the solver (relative to the divergence `b` of the
vector field).  The vector field is evaluated exactly: every point contributes to every edge with the kernel. -/
theorem C122_mean2 {blur : (Fin 2 → ℕ) → (ℕ → ℝ) → ℕ → ℝ} {prior : Option (Pt 2 → Pt 2)} {P N : List (Pt 2)} {gs : Fin 2 → ℕ} {h corner : Pt 2} {mean : List ℝ} {var : Option (List ℝ)}
    (hb : bicg.Accurate) (hh : ∀ k, 0 < h k) (hg : 8 ≤ gs 0)
    (hr : spsr blur bicg solve prior variance sigmaN sigma P N (some gs) (some h) (some corner) = some (mean, var)) :
    mean.length = gs 0 * gs 1 ∧ ∃ dens, density blur gs h corner P = some dens ∧
      ∃ V, V = vectorField (kern h) (priorField prior) (fun i => 1 / (dens i + sigmaN * sigmaN)) P N ∧
      ∃ b : ℕ → ℕ → ℝ, (∀ u : ℕ → ℕ → ℝ, ∑ y ∈ range (gs 1), ∑ x ∈ range (gs 0), b x y * u x y = pairing2 gs h corner V u) ∧
        ∀ u : ℕ → ℕ → ℝ, misfit2 gs h corner V (fun x y => mean.getD (x + gs 0 * y) 0) ≤
          misfit2 gs h corner V u + 1e-6 * ∑ y ∈ range (gs 1), ∑ x ∈ range (gs 0), u x y ^ 2 + max (1e-10 * ∑ y ∈ range (gs 1), ∑ x ∈ range (gs 0), b x y ^ 2) 1e-20 / 1e-6 := by
  obtain ⟨gs', h', corner', dens, comps, G, W, x, g1, g2, g3, g4, g5, g6, g7, g8, -⟩ := spsr_parts hr
  rw [grid_all, Option.some.injEq, Prod.mk.injEq, Prod.mk.injEq] at g1
  obtain ⟨rfl, rfl, rfl⟩ := g1
  obtain ⟨g, hg', rfl⟩ := comps_eq g3
  have hc := fun dd => component_mean (dd := dd) hh (by
    intro k hk
    have : k = 0 := by omega
    rw [this]; exact hg) (hg' dd)
  refine ⟨by rw [g8, List.length_ofFn, size2], dens, g2, _, rfl, ?_⟩
  generalize hV : vectorField (kern h) (priorField prior) (fun i => 1 / (dens i + sigmaN * sigmaN)) P N = V at *
  obtain ⟨r1, r2, r3⟩ := gradient2_rows g4
  have hv : ((List.finRange 2).map g).flatMap (fun c => c.1) = (g 0).1 ++ (g 1).1 := by
    simp [List.finRange_succ]
  rw [hv] at g7
  have s0 : size (gsOff gs 0) = (gs 0 - 1) * gs 1 := by rw [size2]; simp [gsOff]
  have s1 : size (gsOff gs 1) = gs 0 * (gs 1 - 1) := by rw [size2]; simp [gsOff]
  have l0 : (g 0).1.length = (gs 0 - 1) * gs 1 := by rw [hc 0]; simp [s0]
  have v0 : ∀ x y, x < gs 0 - 1 → y < gs 1 → ((g 0).1 ++ (g 1).1).getD (x + (gs 0 - 1) * y) 0 = V (midX2 h corner x y) 0 := by
    intro x y hx hy
    have hlt := idx_lt2 hx hy
    rw [getD_append_left' (by rw [l0]; exact hlt), hc 0, getD_map_range _ _ (by rw [s0]; exact hlt)]
    have := node2_at (gs := gsOff gs 0) (h := h) (corner := cornerOff h corner 0) (x := x) (y := y) (by simpa [gsOff] using hx) (by simpa [gsOff] using hy)
    simp only [gsOff, Function.update_self] at this
    unfold gsOff
    rw [this]
    congr 1
    unfold midX2 cornerOff
    simp only [Function.update_self, ne_eq, one_ne_zero, not_false_eq_true, Function.update_of_ne]
    congr 1
    ring
  have v1 : ∀ x y, x < gs 0 → y < gs 1 - 1 → ((g 0).1 ++ (g 1).1).getD ((gs 0 - 1) * gs 1 + (x + gs 0 * y)) 0 = V (midY2 h corner x y) 1 := by
    intro x y hx hy
    have hlt := idx_lt2 hx hy
    rw [getD_append_right' l0, hc 1, getD_map_range _ _ (by rw [s1]; exact hlt)]
    have := node2_at (gs := gsOff gs 1) (h := h) (corner := cornerOff h corner 1) (x := x) (y := y) (by simpa [gsOff] using hx) (by simpa [gsOff] using hy)
    simp only [gsOff, ne_eq, zero_ne_one, not_false_eq_true, Function.update_of_ne] at this
    unfold gsOff
    rw [this]
    congr 1
    unfold midY2 cornerOff
    simp only [Function.update_self, ne_eq, zero_ne_one, not_false_eq_true, Function.update_of_ne]
    congr 2
    ring
  have hG0 : ∀ c : ℝ, ∑ i ∈ range G.nrows, G.mulVec (fun _ => c) i ^ 2 = 0 := by
    intro c
    rw [r3 (fun _ t => t ^ 2)]
    simp
  obtain ⟨b, b1, b2⟩ := mean_fit_csr hb (r2.trans (size2 gs).symm) hG0 g7
  -- functions on the grid
  have hflat : ∀ (u : ℕ → ℕ → ℝ) (x y : ℕ), x < gs 0 → u ((x + gs 0 * y) % gs 0) ((x + gs 0 * y) / gs 0) = u x y := by
    intro u x y hx
    obtain ⟨d1, d2⟩ := decode2 (y := y) hx
    rw [d1, d2]
  have hmis : ∀ u : ℕ → ℝ, ∑ i ∈ range G.nrows, (G.mulVec u i - ((g 0).1 ++ (g 1).1).getD i 0) ^ 2 = misfit2 gs h corner V (fun x y => u (x + gs 0 * y)) := by
    intro u
    rw [r3 (fun i t => (t - ((g 0).1 ++ (g 1).1).getD i 0) ^ 2)]
    unfold misfit2
    congr 1
    · refine Finset.sum_congr rfl (fun y hy => Finset.sum_congr rfl (fun x hx => ?_))
      rw [v0 x y (Finset.mem_range.mp hx) (Finset.mem_range.mp hy)]
    · refine Finset.sum_congr rfl (fun y hy => Finset.sum_congr rfl (fun x hx => ?_))
      rw [v1 x y (Finset.mem_range.mp hx) (Finset.mem_range.mp hy)]
  have hpair : ∀ u : ℕ → ℝ, ∑ i ∈ range G.nrows, G.mulVec u i * ((g 0).1 ++ (g 1).1).getD i 0 = pairing2 gs h corner V (fun x y => u (x + gs 0 * y)) := by
    intro u
    rw [r3 (fun i t => t * ((g 0).1 ++ (g 1).1).getD i 0)]
    unfold pairing2
    congr 1
    · refine Finset.sum_congr rfl (fun y hy => Finset.sum_congr rfl (fun x hx => ?_))
      rw [v0 x y (Finset.mem_range.mp hx) (Finset.mem_range.mp hy)]
    · refine Finset.sum_congr rfl (fun y hy => Finset.sum_congr rfl (fun x hx => ?_))
      rw [v1 x y (Finset.mem_range.mp hx) (Finset.mem_range.mp hy)]
  have hmisEq : ∀ u u' : ℕ → ℕ → ℝ, (∀ x y, x < gs 0 → u x y = u' x y) → misfit2 gs h corner V u = misfit2 gs h corner V u' := by
    intro u u' huu
    unfold misfit2
    congr 1
    · refine Finset.sum_congr rfl (fun y hy => Finset.sum_congr rfl (fun x hx => ?_))
      have := Finset.mem_range.mp hx
      rw [huu x y (by omega), huu (x + 1) y (by omega)]
    · refine Finset.sum_congr rfl (fun y hy => Finset.sum_congr rfl (fun x hx => ?_))
      have := Finset.mem_range.mp hx
      rw [huu x y this, huu x (y + 1) this]
  have hpairEq : ∀ u u' : ℕ → ℕ → ℝ, (∀ x y, x < gs 0 → u x y = u' x y) → pairing2 gs h corner V u = pairing2 gs h corner V u' := by
    intro u u' huu
    unfold pairing2
    congr 1
    · refine Finset.sum_congr rfl (fun y hy => Finset.sum_congr rfl (fun x hx => ?_))
      have := Finset.mem_range.mp hx
      rw [huu x y (by omega), huu (x + 1) y (by omega)]
    · refine Finset.sum_congr rfl (fun y hy => Finset.sum_congr rfl (fun x hx => ?_))
      have := Finset.mem_range.mp hx
      rw [huu x y this, huu x (y + 1) this]
  refine ⟨fun x y => b (x + gs 0 * y), ?_, ?_⟩
  · intro u
    have := b1 (fun j => u (j % gs 0) (j / gs 0))
    rw [hpair, size2, sum_rows] at this
    rw [hpairEq u _ (fun x y hx => (hflat u x y hx).symm), ← this]
    refine Finset.sum_congr rfl (fun y hy => Finset.sum_congr rfl (fun x hx => ?_))
    rw [hflat u x y (Finset.mem_range.mp hx)]
  · intro u
    have := b2 (fun j => u (j % gs 0) (j / gs 0))
    rw [hmis, hmis, ← g8, size2, sum_rows, sum_rows, hmisEq _ u (fun x y hx => hflat u x y hx)] at this
    refine this.trans (le_of_eq ?_)
    congr 3
    refine Finset.sum_congr rfl (fun y hy => Finset.sum_congr rfl (fun x hx => ?_))
    rw [hflat u x y (Finset.mem_range.mp hx)]

set_option maxHeartbeats 1000000 in
/-- **C122** (three dimensions).  The same, given a grid with at least eight nodes in the first two coordinates. -/
theorem C122_mean3 {blur : (Fin 3 → ℕ) → (ℕ → ℝ) → ℕ → ℝ} {prior : Option (Pt 3 → Pt 3)} {P N : List (Pt 3)} {gs : Fin 3 → ℕ} {h corner : Pt 3} {mean : List ℝ} {var : Option (List ℝ)}
    (hb : bicg.Accurate) (hh : ∀ k, 0 < h k) (hg : 8 ≤ gs 0 ∧ 8 ≤ gs 1)
    (hr : spsr blur bicg solve prior variance sigmaN sigma P N (some gs) (some h) (some corner) = some (mean, var)) :
    mean.length = gs 0 * gs 1 * gs 2 ∧ ∃ dens, density blur gs h corner P = some dens ∧
      ∃ V, V = vectorField (kern h) (priorField prior) (fun i => 1 / (dens i + sigmaN * sigmaN)) P N ∧
      ∃ b : ℕ → ℕ → ℕ → ℝ, (∀ u : ℕ → ℕ → ℕ → ℝ, ∑ z ∈ range (gs 2), ∑ y ∈ range (gs 1), ∑ x ∈ range (gs 0), b x y z * u x y z = pairing3 gs h corner V u) ∧
        ∀ u : ℕ → ℕ → ℕ → ℝ, misfit3 gs h corner V (fun x y z => mean.getD (x + gs 0 * (y + gs 1 * z)) 0) ≤
          misfit3 gs h corner V u + 1e-6 * ∑ z ∈ range (gs 2), ∑ y ∈ range (gs 1), ∑ x ∈ range (gs 0), u x y z ^ 2 +
            max (1e-10 * ∑ z ∈ range (gs 2), ∑ y ∈ range (gs 1), ∑ x ∈ range (gs 0), b x y z ^ 2) 1e-20 / 1e-6 := by
  obtain ⟨gs', h', corner', dens, comps, G, W, x, g1, g2, g3, g4, g5, g6, g7, g8, -⟩ := spsr_parts hr
  rw [grid_all, Option.some.injEq, Prod.mk.injEq, Prod.mk.injEq] at g1
  obtain ⟨rfl, rfl, rfl⟩ := g1
  obtain ⟨g, hg', rfl⟩ := comps_eq g3
  have hc := fun dd => component_mean (dd := dd) hh (by
    intro k hk
    rcases (show k = 0 ∨ k = 1 by omega) with rfl | rfl
    · exact hg.1
    · exact hg.2) (hg' dd)
  refine ⟨by rw [g8, List.length_ofFn, size3], dens, g2, _, rfl, ?_⟩
  generalize hV : vectorField (kern h) (priorField prior) (fun i => 1 / (dens i + sigmaN * sigmaN)) P N = V at *
  obtain ⟨r1, r2, r3⟩ := gradient3_rows g4
  have hv : ((List.finRange 3).map g).flatMap (fun c => c.1) = ((g 0).1 ++ (g 1).1) ++ (g 2).1 := by
    simp [List.finRange_succ]
  rw [hv] at g7
  have s0 : size (gsOff gs 0) = (gs 0 - 1) * gs 1 * gs 2 := by rw [size3]; simp [gsOff]
  have s1 : size (gsOff gs 1) = gs 0 * (gs 1 - 1) * gs 2 := by rw [size3]; simp [gsOff]
  have s2 : size (gsOff gs 2) = gs 0 * gs 1 * (gs 2 - 1) := by rw [size3]; simp [gsOff]
  have l0 : (g 0).1.length = (gs 0 - 1) * gs 1 * gs 2 := by rw [hc 0]; simp [s0]
  have l1 : (g 1).1.length = gs 0 * (gs 1 - 1) * gs 2 := by rw [hc 1]; simp [s1]
  have l01 : ((g 0).1 ++ (g 1).1).length = (gs 0 - 1) * gs 1 * gs 2 + gs 0 * (gs 1 - 1) * gs 2 := by rw [List.length_append, l0, l1]
  have v0 : ∀ x y z, x < gs 0 - 1 → y < gs 1 → z < gs 2 → (((g 0).1 ++ (g 1).1) ++ (g 2).1).getD (x + (gs 0 - 1) * (y + gs 1 * z)) 0 = V (midX3 h corner x y z) 0 := by
    intro x y z hx hy hz
    have hlt := idx_lt3 hx hy hz
    rw [getD_append_left' (by rw [l01]; omega), getD_append_left' (by rw [l0]; exact hlt), hc 0, getD_map_range _ _ (by rw [s0]; exact hlt)]
    have := node3_at (gs := gsOff gs 0) (h := h) (corner := cornerOff h corner 0) (x := x) (y := y) (z := z) (by simpa [gsOff] using hx) (by simpa [gsOff] using hy) (by simpa [gsOff] using hz)
    rw [show (gsOff gs 0) 0 = gs 0 - 1 by simp [gsOff], show (gsOff gs 0) 1 = gs 1 by simp [gsOff]] at this
    rw [this]
    congr 1
    unfold midX3
    rw [show cornerOff h corner 0 0 = corner 0 + 0.5 * h 0 by simp [cornerOff], show cornerOff h corner 0 1 = corner 1 by simp [cornerOff], show cornerOff h corner 0 2 = corner 2 by simp [cornerOff]]
    congr 1
    ring
  have v1 : ∀ x y z, x < gs 0 → y < gs 1 - 1 → z < gs 2 → (((g 0).1 ++ (g 1).1) ++ (g 2).1).getD ((gs 0 - 1) * gs 1 * gs 2 + (x + gs 0 * (y + (gs 1 - 1) * z))) 0 = V (midY3 h corner x y z) 1 := by
    intro x y z hx hy hz
    have hlt := idx_lt3 hx hy hz
    rw [getD_append_left' (by rw [l01]; omega), getD_append_right' l0, hc 1, getD_map_range _ _ (by rw [s1]; exact hlt)]
    have := node3_at (gs := gsOff gs 1) (h := h) (corner := cornerOff h corner 1) (x := x) (y := y) (z := z) (by simpa [gsOff] using hx) (by simpa [gsOff] using hy) (by simpa [gsOff] using hz)
    rw [show (gsOff gs 1) 0 = gs 0 by simp [gsOff], show (gsOff gs 1) 1 = gs 1 - 1 by simp [gsOff]] at this
    rw [this]
    congr 1
    unfold midY3
    rw [show cornerOff h corner 1 0 = corner 0 by simp [cornerOff], show cornerOff h corner 1 1 = corner 1 + 0.5 * h 1 by simp [cornerOff], show cornerOff h corner 1 2 = corner 2 by simp [cornerOff]]
    congr 2
    ring
  have v2 : ∀ x y z, x < gs 0 → y < gs 1 → z < gs 2 - 1 →
      (((g 0).1 ++ (g 1).1) ++ (g 2).1).getD ((gs 0 - 1) * gs 1 * gs 2 + gs 0 * (gs 1 - 1) * gs 2 + (x + gs 0 * (y + gs 1 * z))) 0 = V (midZ3 h corner x y z) 2 := by
    intro x y z hx hy hz
    have hlt := idx_lt3 hx hy hz
    rw [getD_append_right' l01, hc 2, getD_map_range _ _ (by rw [s2]; exact hlt)]
    have := node3_at (gs := gsOff gs 2) (h := h) (corner := cornerOff h corner 2) (x := x) (y := y) (z := z) (by simpa [gsOff] using hx) (by simpa [gsOff] using hy) (by simpa [gsOff] using hz)
    rw [show (gsOff gs 2) 0 = gs 0 by simp [gsOff], show (gsOff gs 2) 1 = gs 1 by simp [gsOff]] at this
    rw [this]
    congr 1
    unfold midZ3
    rw [show cornerOff h corner 2 0 = corner 0 by simp [cornerOff], show cornerOff h corner 2 1 = corner 1 by simp [cornerOff], show cornerOff h corner 2 2 = corner 2 + 0.5 * h 2 by simp [cornerOff]]
    congr 3
    ring
  generalize ((g 0).1 ++ (g 1).1) ++ (g 2).1 = v at *
  have hG0 : ∀ c : ℝ, ∑ i ∈ range G.nrows, G.mulVec (fun _ => c) i ^ 2 = 0 := by
    intro c
    rw [r3 (fun _ t => t ^ 2)]
    simp
  obtain ⟨b, b1, b2⟩ := mean_fit_csr hb (r2.trans (size3 gs).symm) hG0 g7
  have hflat : ∀ (u : ℕ → ℕ → ℕ → ℝ) (x y z : ℕ), x < gs 0 → y < gs 1 →
      u ((x + gs 0 * (y + gs 1 * z)) % gs 0) ((x + gs 0 * (y + gs 1 * z)) / gs 0 % gs 1) ((x + gs 0 * (y + gs 1 * z)) / gs 0 / gs 1) = u x y z := by
    intro u x y z hx hy
    obtain ⟨d1, d2⟩ := decode2 (y := y + gs 1 * z) hx
    obtain ⟨d3, d4⟩ := decode2 (y := z) hy
    rw [d1, d2, d3, d4]
  have hmis : ∀ u : ℕ → ℝ, ∑ i ∈ range G.nrows, (G.mulVec u i - v.getD i 0) ^ 2 = misfit3 gs h corner V (fun x y z => u (x + gs 0 * (y + gs 1 * z))) := by
    intro u
    rw [r3 (fun i t => (t - v.getD i 0) ^ 2)]
    unfold misfit3
    refine congrArg₂ (· + ·) (congrArg₂ (· + ·) ?_ ?_) ?_
    · refine Finset.sum_congr rfl (fun z hz => Finset.sum_congr rfl (fun y hy => Finset.sum_congr rfl (fun x hx => ?_)))
      rw [v0 x y z (Finset.mem_range.mp hx) (Finset.mem_range.mp hy) (Finset.mem_range.mp hz)]
    · refine Finset.sum_congr rfl (fun z hz => Finset.sum_congr rfl (fun y hy => Finset.sum_congr rfl (fun x hx => ?_)))
      rw [v1 x y z (Finset.mem_range.mp hx) (Finset.mem_range.mp hy) (Finset.mem_range.mp hz)]
    · refine Finset.sum_congr rfl (fun z hz => Finset.sum_congr rfl (fun y hy => Finset.sum_congr rfl (fun x hx => ?_)))
      rw [v2 x y z (Finset.mem_range.mp hx) (Finset.mem_range.mp hy) (Finset.mem_range.mp hz)]
  have hpair : ∀ u : ℕ → ℝ, ∑ i ∈ range G.nrows, G.mulVec u i * v.getD i 0 = pairing3 gs h corner V (fun x y z => u (x + gs 0 * (y + gs 1 * z))) := by
    intro u
    rw [r3 (fun i t => t * v.getD i 0)]
    unfold pairing3
    refine congrArg₂ (· + ·) (congrArg₂ (· + ·) ?_ ?_) ?_
    · refine Finset.sum_congr rfl (fun z hz => Finset.sum_congr rfl (fun y hy => Finset.sum_congr rfl (fun x hx => ?_)))
      rw [v0 x y z (Finset.mem_range.mp hx) (Finset.mem_range.mp hy) (Finset.mem_range.mp hz)]
    · refine Finset.sum_congr rfl (fun z hz => Finset.sum_congr rfl (fun y hy => Finset.sum_congr rfl (fun x hx => ?_)))
      rw [v1 x y z (Finset.mem_range.mp hx) (Finset.mem_range.mp hy) (Finset.mem_range.mp hz)]
    · refine Finset.sum_congr rfl (fun z hz => Finset.sum_congr rfl (fun y hy => Finset.sum_congr rfl (fun x hx => ?_)))
      rw [v2 x y z (Finset.mem_range.mp hx) (Finset.mem_range.mp hy) (Finset.mem_range.mp hz)]
  have hmisEq : ∀ u u' : ℕ → ℕ → ℕ → ℝ, (∀ x y z, x < gs 0 → y < gs 1 → u x y z = u' x y z) → misfit3 gs h corner V u = misfit3 gs h corner V u' := by
    intro u u' huu
    unfold misfit3
    refine congrArg₂ (· + ·) (congrArg₂ (· + ·) ?_ ?_) ?_ <;>
    · refine Finset.sum_congr rfl (fun z hz => Finset.sum_congr rfl (fun y hy => Finset.sum_congr rfl (fun x hx => ?_)))
      have h1 := Finset.mem_range.mp hx
      have h2 := Finset.mem_range.mp hy
      first
      | rw [huu x y z (by omega) h2, huu (x + 1) y z (by omega) h2]
      | rw [huu x y z h1 (by omega), huu x (y + 1) z h1 (by omega)]
      | rw [huu x y z h1 h2, huu x y (z + 1) h1 h2]
  have hpairEq : ∀ u u' : ℕ → ℕ → ℕ → ℝ, (∀ x y z, x < gs 0 → y < gs 1 → u x y z = u' x y z) → pairing3 gs h corner V u = pairing3 gs h corner V u' := by
    intro u u' huu
    unfold pairing3
    refine congrArg₂ (· + ·) (congrArg₂ (· + ·) ?_ ?_) ?_ <;>
    · refine Finset.sum_congr rfl (fun z hz => Finset.sum_congr rfl (fun y hy => Finset.sum_congr rfl (fun x hx => ?_)))
      have h1 := Finset.mem_range.mp hx
      have h2 := Finset.mem_range.mp hy
      first
      | rw [huu x y z (by omega) h2, huu (x + 1) y z (by omega) h2]
      | rw [huu x y z h1 (by omega), huu x (y + 1) z h1 (by omega)]
      | rw [huu x y z h1 h2, huu x y (z + 1) h1 h2]
  refine ⟨fun x y z => b (x + gs 0 * (y + gs 1 * z)), ?_, ?_⟩
  · intro u
    have := b1 (fun j => u (j % gs 0) (j / gs 0 % gs 1) (j / gs 0 / gs 1))
    rw [hpair, size3, sum_rows3] at this
    rw [hpairEq u _ (fun x y z hx hy => (hflat u x y z hx hy).symm), ← this]
    refine Finset.sum_congr rfl (fun z hz => Finset.sum_congr rfl (fun y hy => Finset.sum_congr rfl (fun x hx => ?_)))
    rw [hflat u x y z (Finset.mem_range.mp hx) (Finset.mem_range.mp hy)]
  · intro u
    have := b2 (fun j => u (j % gs 0) (j / gs 0 % gs 1) (j / gs 0 / gs 1))
    rw [hmis, hmis, ← g8, size3, sum_rows3, sum_rows3, hmisEq _ u (fun x y z hx hy => hflat u x y z hx hy)] at this
    refine this.trans (le_of_eq ?_)
    congr 3
    refine Finset.sum_congr rfl (fun z hz => Finset.sum_congr rfl (fun y hy => Finset.sum_congr rfl (fun x hx => ?_)))
    rw [hflat u x y z (Finset.mem_range.mp hx) (Finset.mem_range.mp hy)]

end Gpy.Spsr
