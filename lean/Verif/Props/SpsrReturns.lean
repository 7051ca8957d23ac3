import Verif.Props.SpsrMean
import Verif.Proofs.SpsrNodes
import Verif.Proofs.SpsrVar

/-! C122 (continued): when `stochastic_poisson_surface_reconstruction` returns, the average of the mean over the points, and linearity in the normals. -/

set_option autoImplicit false
namespace Gpy.Spsr
open Np Finset Gpy.Spec

/-! ## Specification -/

/-- the solver succeeds on every system that has a solution -/
def BicgSolver.Total (bicg : BicgSolver) : Prop := ∀ (n : ℕ) (A : Matrix (Fin n) (Fin n) ℝ) (b : Fin n → ℝ), (∃ x, A.mulVec x = b) → ∃ x, bicg n A b = some x

/-- the solver only returns exact solutions -/
def BicgSolver.Exact (bicg : BicgSolver) : Prop := ∀ (n : ℕ) (A : Matrix (Fin n) (Fin n) ℝ) (b x : Fin n → ℝ), bicg n A b = some x → A.mulVec x = b

/-- bilinear interpolation at `p` of values at the nodes of a grid, as a sum over hat functions -/
noncomputable def bilinear (gs : Fin 2 → ℕ) (h corner : Pt 2) (u : ℕ → ℕ → ℝ) (p : Pt 2) : ℝ :=
  ∑ y ∈ range (gs 1), ∑ x ∈ range (gs 0), hat ((p 0 - (corner 0 + x * h 0)) / h 0) * hat ((p 1 - (corner 1 + y * h 1)) / h 1) * u x y

/-- a solver that meets both contracts -/
noncomputable def exactBicg : BicgSolver := fun n A b => by
  classical exact if hx : ∃ x, A.mulVec x = b then some hx.choose else none

theorem exactBicg_exact : exactBicg.Exact := by
  intro n A b x h
  unfold exactBicg at h
  split_ifs at h with hx
  rw [Option.some.injEq] at h
  rw [← h]
  exact hx.choose_spec

theorem exactBicg_total : exactBicg.Total := by
  intro n A b hx
  refine ⟨hx.choose, ?_⟩
  unfold exactBicg
  rw [dif_pos hx]

theorem exact_accurate {bicg : BicgSolver} (hb : bicg.Exact) : bicg.Accurate := by
  intro n A b x h
  rw [hb n A b x h]
  have : ∑ i : Fin n, (b i - b i) ^ 2 = (0 : ℝ) := by simp
  rw [this]
  exact le_trans (by norm_num) (le_max_right _ _)

/-! ## Proofs -/

variable {bicg : BicgSolver} {solve : LinSolver ℝ} {variance : Bool} {sigmaN sigma : ℝ}

theorem interp2_some {P : List (Pt 2)} {gs : Fin 2 → ℕ} {h corner : Pt 2} (hh : ∀ k, 0 < h k) : ∃ W, interp P gs h corner = some W := by
  obtain ⟨W, hW, -⟩ := C34_fd_interpolate2_weights (P.map (fun p => (p 0, p 1))) (gs 0, gs 1) (h 0, h 1) (some (corner 0, corner 1)) (hh 0) (hh 1)
  exact ⟨W, hW⟩

theorem gradient2_some {gs : Fin 2 → ℕ} {h : Pt 2} (hh : ∀ k, 0 < h k) : ∃ G, gradient gs h = some G := by
  obtain ⟨G, hG, -⟩ := C35_fd_grad2_affine (gs 0, gs 1) (h 0, h 1) (0, 0) (hh 0).ne' (hh 1).ne'
  exact ⟨G, hG⟩

/-- **C122** (when it returns, two dimensions).  On a grid with at least eight by six nodes, with a solver that solves every solvable system, the function returns exactly if every point is at least half
a cell right of (above) the first node and less than half a cell right of (above) the last node, in each coordinate. -/
theorem C122_returns2 {blur : (Fin 2 → ℕ) → (ℕ → ℝ) → ℕ → ℝ} {prior : Option (Pt 2 → Pt 2)} {P N : List (Pt 2)} {gs : Fin 2 → ℕ} {h corner : Pt 2} (hb : bicg.Total) (hh : ∀ k, 0 < h k)
    (hg : 8 ≤ gs 0 ∧ 6 ≤ gs 1) :
    (∃ mean, spsr blur bicg solve prior false sigmaN sigma P N (some gs) (some h) (some corner) = some (mean, none)) ↔
      ∀ p ∈ P, ∀ k, corner k + h k / 2 ≤ p k ∧ p k < corner k + ((gs k : ℝ) - 1 / 2) * h k := by
  have hg1 : ∀ k, 1 ≤ gs k := by intro k; fin_cases k <;> simp <;> omega
  constructor
  · rintro ⟨mean, hr⟩
    obtain ⟨gs', h', corner', dens, comps, G, W, x, g1, g2, g3, -⟩ := spsr_parts hr
    rw [grid_all, Option.some.injEq, Prod.mk.injEq, Prod.mk.injEq] at g1
    obtain ⟨rfl, rfl, rfl⟩ := g1
    obtain ⟨g, hg', rfl⟩ := comps_eq g3
    intro p hp k
    have := hg' k
    unfold component at this
    cases h1 : k1 (gsOff gs k) h (cornerOff h corner k) with
    | none => simp [h1] at this
    | some K1 =>
      cases h2 : k2 (gsOff gs k) h (cornerOff h corner k) P with
      | none => simp [h1, h2] at this
      | some K2 =>
        have hc := k2_cells hh h2 p hp k
        simp only [gsOff, cornerOff, Function.update_self] at hc
        rw [Nat.cast_sub (hg1 k)] at hc
        push_cast at hc
        constructor <;> nlinarith [hc.1, hc.2]
  · intro hP
    obtain ⟨W1, hW1⟩ := interp2_some (P := P) (gs := fun k => gs k + 1) (h := h) (corner := fun k => corner k - 0.5 * h k) hh
    obtain ⟨W, hW⟩ := interp2_some (P := P) (gs := gs) (h := h) (corner := corner) hh
    obtain ⟨G, hG⟩ := gradient2_some (gs := gs) hh
    obtain ⟨r1, r2, -⟩ := gradient2_rows hG
    have hd : ∃ dens, density blur gs h corner P = some dens := by
      unfold density
      simp only [hW1, Option.bind_eq_bind, Option.bind_some]
      exact ⟨_, rfl⟩
    obtain ⟨dens, hd⟩ := hd
    have hcomp : ∀ dd, ∃ c, component prior sigmaN dens gs h corner P N dd = some c ∧ c.1.length = size (gsOff gs dd) := by
      intro dd
      obtain ⟨K1, e1, -⟩ := k1_exact2 (gs := gsOff gs dd) (h := h) (corner := cornerOff h corner dd) hh (by
        intro k
        unfold gsOff
        by_cases hk : k = dd
        · subst hk; rw [Function.update_self]; fin_cases k <;> simp <;> omega
        · rw [Function.update_of_ne hk]; fin_cases k <;> simp <;> omega)
      obtain ⟨K2, e2, -⟩ := k2_exact (gs := gsOff gs dd) (h := h) (corner := cornerOff h corner dd) (P := P) (by norm_num) hh (by
        intro k hk
        have hk0 : k = 0 := by omega
        subst hk0
        unfold gsOff
        by_cases hk : (0 : Fin 2) = dd
        · rw [← hk, Function.update_self]; omega
        · rw [Function.update_of_ne hk]; omega) (by
        intro p hp k
        have := hP p hp k
        have hk' := hh k
        unfold gsOff cornerOff
        by_cases hk : k = dd
        · subst hk
          rw [Function.update_self, Function.update_self, Nat.cast_sub (hg1 k)]
          push_cast
          constructor <;> nlinarith [this.1, this.2]
        · rw [Function.update_of_ne hk, Function.update_of_ne hk]
          constructor <;> nlinarith [this.1, this.2])
      unfold component
      simp only [e1, e2, Option.bind_eq_bind, Option.bind_some]
      exact ⟨_, rfl, by simp⟩
    choose c hc hlen using hcomp
    have hm := mapM_some_map (List.finRange 2) (component prior sigmaN dens gs h corner P N) c (fun dd _ => hc dd)
    have hv : (((List.finRange 2).map c).flatMap (fun c => c.1)).length = G.nrows := by
      have : ((List.finRange 2).map c).flatMap (fun c => c.1) = (c 0).1 ++ (c 1).1 := by simp [List.finRange_succ]
      rw [this, List.length_append, hlen, hlen, size2, size2, r1]
      simp [gsOff]
    obtain ⟨x, hx⟩ := hb _ (system (Matrix.of (fun (i : Fin G.nrows) (j : Fin (size gs)) => G.get i j)))
      ((Matrix.of (fun (i : Fin G.nrows) (j : Fin (size gs)) => G.get i j)).transpose.mulVec (fun i => (((List.finRange 2).map c).flatMap (fun c => c.1)).getD i 0)) (system_surj _ _)
    unfold spsr
    simp only [grid_all, hd, hm, hG, hW, Option.bind_eq_bind, Option.bind_some, if_pos hv]
    unfold meanField
    simp only [hx, Option.bind_eq_bind, Option.bind_some]
    simp

/-- **C122** (average, two dimensions).  If the points are not beyond the last node of the grid then the values of the returned mean at the points, by bilinear interpolation, sum to zero. -/
theorem C122_average2 {blur : (Fin 2 → ℕ) → (ℕ → ℝ) → ℕ → ℝ} {prior : Option (Pt 2 → Pt 2)} {P N : List (Pt 2)} {gs : Fin 2 → ℕ} {h corner : Pt 2} {mean : List ℝ} {var : Option (List ℝ)}
    (hh : ∀ k, 0 < h k) (hne : P ≠ []) (hP : ∀ p ∈ P, ∀ k, corner k ≤ p k ∧ p k ≤ corner k + ((gs k : ℝ) - 1) * h k)
    (hr : spsr blur bicg solve prior variance sigmaN sigma P N (some gs) (some h) (some corner) = some (mean, var)) :
    (P.map (bilinear gs h corner (fun x y => mean.getD (x + gs 0 * y) 0))).sum = 0 := by
  obtain ⟨gs', h', corner', dens, comps, G, W, x, g1, g2, g3, g4, g5, g6, g7, g8, -⟩ := spsr_parts hr
  rw [grid_all, Option.some.injEq, Prod.mk.injEq, Prod.mk.injEq] at g1
  obtain ⟨rfl, rfl, rfl⟩ := g1
  obtain ⟨W', hW', -, -, hw⟩ := C34_fd_interpolate2_weights (P.map (fun p => (p 0, p 1))) (gs 0, gs 1) (h 0, h 1) (some (corner 0, corner 1)) (hh 0) (hh 1)
  obtain ⟨W'', hW'', hs⟩ := C34_fd_interpolate2_exact (P.map (fun p => (p 0, p 1))) (gs 0, gs 1) (h 0, h 1) (some (corner 0, corner 1)) (hh 0) (hh 1)
  have e1 : W = W' := by
    have : interp P gs h corner = some W' := hW'
    rw [g5, Option.some.injEq] at this
    exact this
  have e2 : W = W'' := by
    have : interp P gs h corner = some W'' := hW''
    rw [g5, Option.some.injEq] at this
    exact this
  rw [← e1] at hw
  rw [← e2] at hs
  have hin : ∀ i : Fin P.length, (P.map (fun p => (p 0, p 1)))[(i : ℕ)]? = some (P[i] 0, P[i] 1) := by intro i; simp
  have hrow : ∀ i : Fin P.length, InAxis (P[i] 0) (h 0) (corner 0) (gs 0) ∧ InAxis (P[i] 1) (h 1) (corner 1) (gs 1) :=
    fun i => ⟨hP _ (List.getElem_mem i.isLt) 0, hP _ (List.getElem_mem i.isLt) 1⟩
  have hW1 : ∀ i : Fin P.length, ∑ j : Fin (size gs), (Matrix.of (fun (i : Fin P.length) (j : Fin (size gs)) => W.get i j)) i j = 1 := by
    intro i
    have := (hs i _ (hin i) (hrow i).1 (hrow i).2).2.1
    simp only [Matrix.of_apply]
    rw [← this, Fin.sum_univ_eq_sum_range (fun j => W.get i j), size2]
  have havg := meanField_avg _ (List.length_pos_iff.mpr hne) hW1 g7
  rw [show (P.map (bilinear gs h corner (fun x y => mean.getD (x + gs 0 * y) 0))).sum = ∑ i : Fin P.length, bilinear gs h corner (fun x y => mean.getD (x + gs 0 * y) 0) P[i] by
    rw [← List.sum_ofFn]
    congr 1
    apply List.ext_getElem
    · simp
    · intro i _ _
      simp]
  refine Eq.trans ?_ havg
  refine Finset.sum_congr rfl (fun i _ => ?_)
  unfold bilinear Matrix.mulVec dotProduct
  simp only [Matrix.of_apply]
  have ex : ∀ j : Fin (size gs), W.get i j * x j = (fun k : ℕ => W.get i k * mean.getD k 0) j := by
    intro j
    simp only
    rw [g8, getD_ofFn]
  simp only [ex]
  rw [Fin.sum_univ_eq_sum_range (fun k : ℕ => W.get i k * mean.getD k 0), size2, sum_rows]
  refine Finset.sum_congr rfl (fun y _ => Finset.sum_congr rfl (fun x hx => ?_))
  obtain ⟨d1, d2⟩ := decode2 (y := y) (Finset.mem_range.mp hx)
  rw [hw i _ (hin i) (hrow i).1 (hrow i).2]
  simp only [node2, Option.getD_some, d1, d2]
  rw [mul_comm (h 0), mul_comm (h 1)]

/-! ### Linearity -/

variable {d : ℕ}

theorem meanField_linear {m n p : ℕ} {G : Matrix (Fin m) (Fin n) ℝ} {W : Matrix (Fin p) (Fin n) ℝ} (hb : bicg.Exact) {v v' v'' : Fin m → ℝ} {a a' : ℝ} (hv : v'' = a • v + a' • v')
    {x x' x'' : Fin n → ℝ} (h1 : meanField bicg G W v = some x) (h2 : meanField bicg G W v' = some x') (h3 : meanField bicg G W v'' = some x'') : x'' = a • x + a' • x' := by
  unfold meanField at h1 h2 h3
  cases e1 : bicg n (system G) (G.transpose.mulVec v) with
  | none => simp [e1] at h1
  | some y1 =>
    cases e2 : bicg n (system G) (G.transpose.mulVec v') with
    | none => simp [e2] at h2
    | some y2 =>
      cases e3 : bicg n (system G) (G.transpose.mulVec v'') with
      | none => simp [e3] at h3
      | some y3 =>
        simp only [e1, Option.bind_eq_bind, Option.bind_some, Option.some.injEq] at h1
        simp only [e2, Option.bind_eq_bind, Option.bind_some, Option.some.injEq] at h2
        simp only [e3, Option.bind_eq_bind, Option.bind_some, Option.some.injEq] at h3
        have hy : y3 = a • y1 + a' • y2 := by
          apply system_inj G
          rw [Matrix.mulVec_add, Matrix.mulVec_smul, Matrix.mulVec_smul, hb _ _ _ _ e1, hb _ _ _ _ e2, hb _ _ _ _ e3, hv, Matrix.mulVec_add, Matrix.mulVec_smul, Matrix.mulVec_smul]
        subst h1 h2 h3
        funext j
        have hs : ∑ i, W.mulVec y3 i = a * ∑ i, W.mulVec y1 i + a' * ∑ i, W.mulVec y2 i := by
          rw [hy, Finset.mul_sum, Finset.mul_sum, ← Finset.sum_add_distrib]
          refine Finset.sum_congr rfl (fun i _ => ?_)
          rw [Matrix.mulVec_add, Matrix.mulVec_smul, Matrix.mulVec_smul]
          rfl
        simp only [Pi.add_apply, Pi.smul_apply, smul_eq_mul, hs]
        rw [hy]
        simp only [Pi.add_apply, Pi.smul_apply, smul_eq_mul]
        ring

theorem component_linear {dens : ℕ → ℝ} {gs : Fin d → ℕ} {h corner : Pt d} {P N N' N'' : List (Pt d)} {dd : Fin d} {a a' : ℝ} (hN : ∀ i k, N''.getD i 0 k = a * N.getD i 0 k + a' * N'.getD i 0 k)
    {c c' c'' : List ℝ × (ℕ → ℕ → ℝ)} (h1 : component none sigmaN dens gs h corner P N dd = some c) (h2 : component none sigmaN dens gs h corner P N' dd = some c')
    (h3 : component none sigmaN dens gs h corner P N'' dd = some c'') : c''.1 = List.zipWith (fun s t => a * s + a' * t) c.1 c'.1 := by
  unfold component at h1 h2 h3
  cases e1 : k1 (gsOff gs dd) h (cornerOff h corner dd) with
  | none => simp [e1] at h1
  | some K1 =>
    cases e2 : k2 (gsOff gs dd) h (cornerOff h corner dd) P with
    | none => simp [e1, e2] at h1
    | some K2 =>
      simp only [e1, e2, Option.bind_eq_bind, Option.bind_some, Option.some.injEq] at h1 h2 h3
      subst h1 h2 h3
      simp only
      rw [List.zipWith_map]
      apply List.ext_getElem
      · simp
      · intro i hi hi'
        simp only [List.getElem_map, List.getElem_range, List.getElem_zipWith]
        simp only [zero_add, sub_zero, hN]
        rw [Finset.mul_sum, Finset.mul_sum, ← Finset.sum_add_distrib]
        refine Finset.sum_congr rfl (fun i _ => ?_)
        ring

/-- **C122** (linear in the normals).  Without a prior and with exact solves, the mean for normals that are a linear combination of two sets of normals is the same linear combination of the two means; in
particular flipping all normals flips the sign of the mean.  In any dimension, for every grid. -/
theorem C122_linear {blur : (Fin d → ℕ) → (ℕ → ℝ) → ℕ → ℝ} {P N N' N'' : List (Pt d)} {gs : Option (Fin d → ℕ)} {h corner : Option (Pt d)} {a a' : ℝ} (hb : bicg.Exact)
    (hN : ∀ i k, N''.getD i 0 k = a * N.getD i 0 k + a' * N'.getD i 0 k) {m m' m'' : List ℝ} {var var' var'' : Option (List ℝ)}
    (h1 : spsr blur bicg solve none variance sigmaN sigma P N gs h corner = some (m, var)) (h2 : spsr blur bicg solve none variance sigmaN sigma P N' gs h corner = some (m', var'))
    (h3 : spsr blur bicg solve none variance sigmaN sigma P N'' gs h corner = some (m'', var'')) : m''.length = m.length ∧ ∀ j, m''.getD j 0 = a * m.getD j 0 + a' * m'.getD j 0 := by
  obtain ⟨gs1, hh1, c1, dens, comps, G, W, x, g1, g2, g3, g4, g5, g6, g7, rfl, -⟩ := spsr_parts h1
  obtain ⟨gs2, hh2, c2, dens', comps', G', W', x', g1', g2', g3', g4', g5', g6', g7', rfl, -⟩ := spsr_parts h2
  obtain ⟨gs3, hh3, c3, dens'', comps'', G'', W'', x'', g1'', g2'', g3'', g4'', g5'', g6'', g7'', rfl, -⟩ := spsr_parts h3
  rw [g1, Option.some.injEq, Prod.mk.injEq, Prod.mk.injEq] at g1' g1''
  obtain ⟨rfl, rfl, rfl⟩ := g1'
  obtain ⟨rfl, rfl, rfl⟩ := g1''
  rw [g2, Option.some.injEq] at g2' g2''
  subst g2' g2''
  rw [g4, Option.some.injEq] at g4' g4''
  subst g4' g4''
  rw [g5, Option.some.injEq] at g5' g5''
  subst g5' g5''
  obtain ⟨g, hg, rfl⟩ := comps_eq g3
  obtain ⟨g', hg', rfl⟩ := comps_eq g3'
  obtain ⟨g'', hg'', rfl⟩ := comps_eq g3''
  have hv : ((List.finRange d).map g'').flatMap (fun c => c.1) = List.zipWith (fun s t => a * s + a' * t) (((List.finRange d).map g).flatMap (fun c => c.1)) (((List.finRange d).map g').flatMap (fun c => c.1)) := by
    have hl : ∀ dd, (g dd).1.length = (g' dd).1.length := by
      intro dd
      have e := hg dd
      have e' := hg' dd
      unfold component at e e'
      cases e1 : k1 (gsOff gs1 dd) hh1 (cornerOff hh1 c1 dd) with
      | none => simp [e1] at e
      | some K1 =>
        cases e2 : k2 (gsOff gs1 dd) hh1 (cornerOff hh1 c1 dd) P with
        | none => simp [e1, e2] at e
        | some K2 =>
          simp only [e1, e2, Option.bind_eq_bind, Option.bind_some, Option.some.injEq] at e e'
          rw [← e, ← e']
          simp
    have : ∀ l : List (Fin d), (l.map g'').flatMap (fun c => c.1) = List.zipWith (fun s t => a * s + a' * t) ((l.map g).flatMap (fun c => c.1)) ((l.map g').flatMap (fun c => c.1)) := by
      intro l
      induction l with
      | nil => simp
      | cons dd l ih =>
        simp only [List.map_cons, List.flatMap_cons]
        rw [ih, List.zipWith_append (hl dd), component_linear hN (hg dd) (hg' dd) (hg'' dd)]
    exact this _
  have hx := meanField_linear (a := a) (a' := a') hb (by
    funext i
    simp only [Pi.add_apply, Pi.smul_apply, smul_eq_mul]
    rw [hv]
    have l1 : (i : ℕ) < (((List.finRange d).map g).flatMap (fun c => c.1)).length := by rw [g6]; exact i.isLt
    have l2 : (i : ℕ) < (((List.finRange d).map g').flatMap (fun c => c.1)).length := by rw [g6']; exact i.isLt
    rw [List.getD_eq_getElem _ _ l1, List.getD_eq_getElem _ _ l2, List.getD_eq_getElem _ _ (by rw [List.length_zipWith]; exact lt_min l1 l2), List.getElem_zipWith]) g7 g7' g7''
  refine ⟨by simp, fun j => ?_⟩
  by_cases hj : j < size gs1
  · rw [getD_ofFn x'' 0 ⟨j, hj⟩, getD_ofFn x 0 ⟨j, hj⟩, getD_ofFn x' 0 ⟨j, hj⟩, hx]
    simp
  · rw [List.getD_eq_default _ _ (by simpa using hj), List.getD_eq_default _ _ (by simpa using hj), List.getD_eq_default _ _ (by simpa using hj)]
    simp

/-! ### A concrete run -/

/-- nine by nine nodes, one point in the middle with a horizontal normal -/
example : ∃ mean, spsr (fun _ u => u) exactBicg solve none false 0 1 [fun _ => 4] [![1, 0]] (some (fun _ => 9)) (some (fun _ => 1)) (some (fun _ => 0)) = some (mean, none) :=
  (C122_returns2 exactBicg_total (by norm_num) (by norm_num)).mpr (by
    intro p hp k
    rw [List.mem_singleton] at hp
    subst hp
    norm_num)

end Gpy.Spsr
