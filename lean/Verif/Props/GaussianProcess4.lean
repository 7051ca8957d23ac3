import Verif.Props.GaussianProcess3
import Mathlib.Tactic.IntervalCases

/-! # C84: what `compact_kernel` loses; non-trivial cases -/

set_option autoImplicit false
namespace Gpy
open Np Matrix

theorem supportStep_inv {d : ℕ} (ker : Kernel d) (n : ℕ) : 
    let p := (supportStep ker)^[n] (0, 1)
    0 ≤ p.1 ∧ p.2 = p.1 + (1 / 2) ^ n ∧ p.2 ≤ 1 ∧ (p.1 = 0 ∨ ker none none (fun _ => 0) (fun _ => p.1) > 1e-10) := by
  induction n with
  | zero => simp
  | succ n ih =>
    simp only [Function.iterate_succ_apply'] at ih ⊢
    obtain ⟨h1, h2, h3, h4⟩ := ih
    set p := (supportStep ker)^[n] (0, 1) with hp
    have hh : (0 : ℝ) < (1 / 2) ^ n := by positivity
    unfold supportStep
    simp only
    split
    · next h =>
      simp only
      refine ⟨by linarith, by rw [pow_succ]; linarith, h3, Or.inr h⟩
    · simp only
      refine ⟨h1, by rw [pow_succ]; linarith, by linarith, h4⟩

/-- The support that is found is at most one, and at most the coordinate at which the kernel vanishes on the diagonal. -/
theorem compactSupport_le {d : ℕ} (ker : Kernel d) : compactSupport ker ≤ 1 ∧
    ∀ T : ℝ, 0 ≤ T → (∀ t, T ≤ t → ker none none (fun _ => 0) (fun _ => t) = 0) → compactSupport ker ≤ T + (1 / 2) ^ 10 := by
  obtain ⟨h1, h2, h3, h4⟩ := supportStep_inv ker 10
  refine ⟨h3, fun T hT h => ?_⟩
  unfold compactSupport
  rw [h2]
  have : ((supportStep ker)^[10] (0, 1)).1 ≤ T := by
    rcases h4 with h4 | h4
    · rw [h4]; exact hT
    · by_contra hlt
      rw [h _ (not_le.mp hlt).le] at h4
      norm_num at h4
  linarith

theorem pnorm_diag (d : ℕ) (t : ℝ) (ht : 0 ≤ t) : pnorm (fun _ : Fin d => (0 : ℝ) - t) = Real.sqrt d * t := by
  unfold pnorm psq
  have : ∑ _i : Fin d, ((0 : ℝ) - t) ^ 2 = d * t ^ 2 := by simp
  rw [this, Real.sqrt_mul (by positivity), Real.sqrt_sq ht]

/-- For a radial kernel that vanishes from the radius `R` on, the support that is found is at most `R/√d` (up to the resolution of the bisection), and never more than one. -/
theorem compactSupport_radial {d : ℕ} (hd : 0 < d) (ker : Kernel d) (phi : ℝ → ℝ) (hrad : ∀ x y, ker none none x y = phi (pnorm (fun k => x k - y k))) (R : ℝ) (hR : 0 ≤ R) (hphi : ∀ r, R ≤ r → phi r = 0) :
    compactSupport ker ≤ min 1 (R / Real.sqrt d + (1 / 2) ^ 10) := by
  have hs : 0 < Real.sqrt d := Real.sqrt_pos.mpr (by exact_mod_cast hd)
  obtain ⟨h1, h2⟩ := compactSupport_le ker
  refine le_min h1 (h2 _ (by positivity) (fun t ht => ?_))
  rw [hrad, pnorm_diag d t ((by positivity : 0 ≤ R / Real.sqrt d).trans ht)]
  refine hphi _ ?_
  rw [div_le_iff₀ hs] at ht
  linarith

/-- a better prediction than the prior -/
theorem predError_single {α : Type} (k : α → α → ℝ) (s2 : ℝ) (o ot : List α) (i : Fin o.length) (t : Fin ot.length) (e : ℝ) :
    predError k s2 o ot (Pi.single t 1) (Pi.single i e) = k ot[t] ot[t] - 2 * e * k o[i] ot[t] + e ^ 2 * k o[i] o[i] + s2 * e ^ 2 := by
  unfold predError
  have e1 := quad_single (fun a b : Fin ot.length => k ot[a] ot[b]) t
  have e2 : ∑ a, ∑ b, (Pi.single i e : Fin o.length → ℝ) a * (Pi.single t (1 : ℝ) : Fin ot.length → ℝ) b * k o[a] ot[b] = e * k o[i] ot[t] := by
    rw [Finset.sum_eq_single i]
    · rw [Finset.sum_eq_single t]
      · simp
      · intro b _ hb; simp [hb]
      · simp
    · intro b _ hb; simp [hb]
    · simp
  have e3 : ∑ a, ∑ b, (Pi.single i e : Fin o.length → ℝ) a * (Pi.single i e : Fin o.length → ℝ) b * k o[a] o[b] = e ^ 2 * k o[i] o[i] := by
    rw [Finset.sum_eq_single i]
    · rw [Finset.sum_eq_single i]
      · simp only [Pi.single_eq_same]; ring
      · intro b _ hb; simp [hb]
      · simp
    · intro b _ hb; simp [hb]
    · simp
  have e4 : ∑ a, (Pi.single i e : Fin o.length → ℝ) a ^ 2 = e ^ 2 := by
    rw [Finset.sum_eq_single i]
    · simp
    · intro b _ hb; simp [hb]
    · simp
  rw [e1, e2, e3, e4]
  ring

/-- **C84** (`compact_kernel` loses data).  For a radial covariance kernel of radius `R`, a test point whose distance from every training point exceeds `min(1, R/√d + 2^-10)` is predicted as if there were no
data (mean zero, prior variance) with `compact_kernel=True`, although `compact_kernel=False` gives a smaller variance whenever the kernel at some training point is not zero — which happens for all distances up to `R`. -/
theorem C84_compact_violated {d : ℕ} (hd : 0 < d) {solve : LinSolver ℝ} (hc : solve.Correct) (hs : solve.Complete) {cg : CgSolver} (hcg : cg.Accurate) {query : BallQuery d} (hq : query.Correct)
    {ker : Kernel d} (hk : PsdKernel (ker none none)) (phi : ℝ → ℝ) (hrad : ∀ x y, ker none none x y = phi (pnorm (fun k => x k - y k))) (R : ℝ) (hR : 0 ≤ R) (hphi : ∀ r, R ≤ r → phi r = 0)
    {X : List (Pt d)} (h0 : X ≠ []) {y : List ℝ} (hy : y.length = X.length) {sigma : ℝ} (hsig : sigma ≠ 0) (t : Pt d)
    (hfar : ∀ x ∈ X, min 1 (R / Real.sqrt d + (1 / 2) ^ 10) < pnorm (fun k => x k - t k)) (hnear : ∃ x ∈ X, ker none none x t ≠ 0)
    {mean mean' : List ℝ} {cov cov' : List (List ℝ)}
    (h : gaussianProcess solve cg query X y [t] (some ker) none none false true sigma = some (mean, cov))
    (h' : gaussianProcess solve cg query X y [t] (some ker) none none false false sigma = some (mean', cov')) :
    mean = [0] ∧ cov = [[ker none none t t]] ∧ rowEntry cov' 0 0 < ker none none t t := by
  have hcf : CovFor ker false := by unfold CovFor; simpa using hk
  have hsup := compactSupport_radial hd ker phi hrad R hR hphi
  refine ⟨?_, ?_, ?_⟩
  rotate_left 2
  · obtain ⟨m1, c1, q1, -, -, -, -, hl, -⟩ := C84_regression hc hs hcg (query := query) (X := X) (Xt := [t]) (kernel := some ker) (grad := none) (compact := false) hsig hy (by simp) (Or.inr rfl) hcf
    rw [h'] at q1
    cases q1
    obtain ⟨x, hx, hxt⟩ := hnear
    obtain ⟨i, hi⟩ := List.mem_iff_getElem.mp (show (x, none) ∈ obs X false by simp [obs, hx])
    obtain ⟨hi', hi⟩ := hi
    set it : Fin (obs [t] (none : Option (List (Pt d))).isSome).length := ⟨0, by simp [obs]⟩ with hit
    set ii : Fin (obs X (none : Option (List (Pt d))).isSome).length := ⟨i, hi'⟩ with hii
    have h1 := hl (Pi.single it 1)
    rw [quad_single (fun a b : Fin (obs [t] (none : Option (List (Pt d))).isSome).length => rowEntry cov' a b) it] at h1
    have h2 := h1.2 ⟨Pi.single ii (ker none none x t / (ker none none x x + sigma ^ 2)), rfl⟩
    rw [predError_single] at h2
    have e1 : (obs X (none : Option (List (Pt d))).isSome)[ii] = (x, none) := hi
    have e2 : (obs [t] (none : Option (List (Pt d))).isSome)[it] = (t, none) := rfl
    rw [e1, e2] at h2
    simp only [obsKer, Option.getD_some] at h2
    have h3 : 0 ≤ ker none none x x := by
      have := hk.nonneg 1 (fun _ => x) (fun _ => 1)
      simpa using this
    have h4 : 0 < ker none none x x + sigma ^ 2 := by positivity
    refine lt_of_le_of_lt h2 ?_
    have h5 : ker none none t t - 2 * (ker none none x t / (ker none none x x + sigma ^ 2)) * ker none none x t + (ker none none x t / (ker none none x x + sigma ^ 2)) ^ 2 * ker none none x x +
        sigma ^ 2 * (ker none none x t / (ker none none x x + sigma ^ 2)) ^ 2 = ker none none t t - (ker none none x t) ^ 2 / (ker none none x x + sigma ^ 2) := by
      field_simp
      ring
    rw [h5]
    have : 0 < (ker none none x t) ^ 2 / (ker none none x x + sigma ^ 2) := by positivity
    linarith
  all_goals
    unfold gaussianProcess at h
    rw [if_neg (by simpa using hy.symm)] at h
    simp only [gpKernel, if_true] at h
    obtain ⟨K1, h1, r1⟩ := covMatrix_full query ker [t] [t] false
    obtain ⟨K3', h3', r3'⟩ := covMatrix_cut hq ker h0 X (compactSupport ker)
    obtain ⟨K2', h2', r2'⟩ := covMatrix_cut hq ker h0 [t] (compactSupport ker)
    have r1 : Represents K1 [(t, none)] [(t, none)] (obsKer ker) := r1
    have r2' : Represents K2' (obs X false) [(t, none)] (cutKernel ker (compactSupport ker)) := r2'
    rw [gpPlain_core (grad := none) h3' r3' h2' r2' h1 r1] at h
    have hz : kerMat (cutKernel ker (compactSupport ker)) (obs X false) [(t, none)] = 0 := by
      ext i j
      have hj : [((t, none) : Pt d × Option (Fin d))][j] = (t, none) := List.mem_singleton.mp (List.getElem_mem j.isLt)
      obtain ⟨x, hx, hxe⟩ := List.mem_map.mp (show (obs X false)[i] ∈ X.map (fun x => (x, (none : Option (Fin d)))) from List.getElem_mem i.isLt)
      show cutKernel ker (compactSupport ker) (obs X false)[i] [((t, none) : Pt d × Option (Fin d))][j] = 0
      rw [hj, ← hxe]
      unfold cutKernel
      rw [if_neg]
      exact not_le.mpr (lt_of_le_of_lt hsup (hfar x hx))
    rw [hz] at h
    obtain ⟨yv, -, h⟩ := Option.bind_eq_some_iff.mp h
    unfold gpCore at h
    obtain ⟨S, -, h⟩ := Option.map_eq_some_iff.mp h
    simp only [transpose_zero, zero_mulVec, Matrix.zero_mul, Prod.mk.injEq] at h
  · rw [← h.1]
    rfl
  · rw [← h.2]
    simp [kerMat, obsKer]

end Gpy
