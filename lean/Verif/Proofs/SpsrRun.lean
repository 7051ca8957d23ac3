import Verif.Proofs.SpsrGrid2
import Verif.Props.GaussianProcess

/-! A run of `stochastic_poisson_surface_reconstruction`. -/

set_option autoImplicit false
namespace Gpy.Spsr
open Np Finset

/-- the prior, zero if there is none -/
def priorField {d : ℕ} : Option (Pt d → Pt d) → Pt d → Pt d
  | none => fun _ => 0
  | some f => f

/-- The vector field that the normals `N` at the points `P` are extended to: the prior plus, for every point, the kernel times the deviation of the normal from the prior times a weight. -/
def vectorField {d : ℕ} (k : Pt d → Pt d → ℝ) (f : Pt d → Pt d) (w : ℕ → ℝ) (P N : List (Pt d)) (q : Pt d) : Pt d :=
  fun dd => f q dd + ∑ i ∈ range P.length, k (P.getD i 0) q * (w i * (N.getD i 0 dd - f (P.getD i 0) dd))

variable {d : ℕ} {blur : (Fin d → ℕ) → (ℕ → ℝ) → ℕ → ℝ} {bicg : BicgSolver} {solve : LinSolver ℝ} {prior : Option (Pt d → Pt d)} {variance : Bool} {sigmaN sigma : ℝ}
  {P N : List (Pt d)} {gs : Fin d → ℕ} {h corner : Pt d}

theorem mapM_mem {α β : Type} {f : α → Option β} : ∀ {l : List α} {r : List β}, l.mapM f = some r → ∀ a ∈ l, ∃ b, f a = some b := by
  intro l
  induction l with
  | nil => intro r _ a ha; simp at ha
  | cons x t ih =>
    intro r hr a ha
    rw [List.mapM_cons] at hr
    cases hx : f x with
    | none => simp [hx] at hr
    | some b =>
      simp only [hx, Option.bind_eq_bind, Option.bind_some] at hr
      cases ht : t.mapM f with
      | none => simp [ht] at hr
      | some r' =>
        rcases List.mem_cons.mp ha with rfl | ha
        · exact ⟨b, hx⟩
        · exact ih ht a ha

/-- if the covariances can be computed, the points are in the cells of the grid -/
theorem k2_cells {K : Csr ℝ} (hh : ∀ k, 0 < h k) (hk : k2 gs h corner P = some K) : ∀ p ∈ P, ∀ k, corner k ≤ p k ∧ p k < corner k + gs k * h k := by
  unfold k2 at hk
  cases hc : P.mapM (cellOf gs h corner) with
  | none => simp [hc] at hk
  | some cells =>
    intro p hp k
    obtain ⟨c, hc'⟩ := mapM_mem hc p hp
    unfold cellOf at hc'
    simp only at hc'
    split_ifs at hc' with hb
    obtain ⟨h1, h2⟩ := hb k
    have h0 := hh k
    constructor
    · have := Int.floor_nonneg.mp h1
      rw [le_div_iff₀ h0] at this
      linarith
    · rw [Int.floor_lt, div_lt_iff₀ h0] at h2
      push_cast at h2
      linarith

/-- one component of the vector field -/
theorem component_mean {dens : ℕ → ℝ} {dd : Fin d} {c : List ℝ × (ℕ → ℕ → ℝ)} (hh : ∀ k, 0 < h k) (hg : ∀ k : Fin d, k.val + 1 < d → 8 ≤ gs k)
    (hc : component prior sigmaN dens gs h corner P N dd = some c) :
    c.1 = (List.range (size (gsOff gs dd))).map (fun j => vectorField (kern h) (priorField prior) (fun i => 1 / (dens i + sigmaN * sigmaN)) P N (node (gsOff gs dd) h (cornerOff h corner dd) j) dd) := by
  unfold component at hc
  cases h1 : k1 (gsOff gs dd) h (cornerOff h corner dd) with
  | none => simp [h1] at hc
  | some K1 =>
    cases h2 : k2 (gsOff gs dd) h (cornerOff h corner dd) P with
    | none => simp [h1, h2] at hc
    | some K2 =>
      simp only [h1, h2, Option.bind_eq_bind, Option.bind_some, Option.some.injEq] at hc
      subst hc
      obtain ⟨K, e1, -, -, -, e2⟩ := k2_exact (gs := gsOff gs dd) (h := h) (corner := cornerOff h corner dd) (P := P) (Nat.lt_of_le_of_lt (Nat.zero_le _) dd.isLt) hh (by
        intro k hk
        have := hg k hk
        unfold gsOff
        by_cases hkd : k = dd
        · subst hkd; rw [Function.update_self]; omega
        · rw [Function.update_of_ne hkd]; omega) (k2_cells hh h2)
      rw [h2, Option.some.injEq] at e1
      subst e1
      simp only
      refine List.map_congr_left (fun j hj => ?_)
      rw [List.mem_range] at hj
      unfold vectorField
      have ek : ∀ i ∈ range P.length, K2.get i j = kern h (P.getD i 0) (node (gsOff gs dd) h (cornerOff h corner dd) j) := by
        intro i hi
        rw [Finset.mem_range] at hi
        exact e2 i j _ (by rw [List.getD_eq_getElem _ _ hi, List.getElem?_eq_getElem hi]) hj
      cases prior with
      | none =>
        simp only [priorField]
        congr 1
        exact Finset.sum_congr rfl (fun i hi => by rw [ek i hi]; rfl)
      | some f =>
        simp only [priorField]
        congr 1
        exact Finset.sum_congr rfl (fun i hi => by rw [ek i hi])

/-- the parts of a run -/
theorem spsr_parts {gs' : Option (Fin d → ℕ)} {h' corner' : Option (Pt d)} {mean : List ℝ} {var : Option (List ℝ)} (hr : spsr blur bicg solve prior variance sigmaN sigma P N gs' h' corner' = some (mean, var)) :
    ∃ gs h corner dens comps G W x, grid P gs' h' corner' = some (gs, h, corner) ∧ density blur gs h corner P = some dens ∧ (List.finRange d).mapM (component prior sigmaN dens gs h corner P N) = some comps ∧
      gradient gs h = some G ∧ interp P gs h corner = some W ∧ (comps.flatMap (fun c => c.1)).length = G.nrows ∧
      meanField bicg (Matrix.of (fun (i : Fin G.nrows) (j : Fin (size gs)) => G.get i j)) (Matrix.of (fun (i : Fin P.length) (j : Fin (size gs)) => W.get i j))
        (fun i => (comps.flatMap (fun c => c.1)).getD i 0) = some x ∧ mean = List.ofFn x ∧
      (variance = false → var = none) ∧
      (variance = true → ∃ y, varField solve sigmaN (Matrix.of (fun (i : Fin G.nrows) (j : Fin (size gs)) => G.get i j))
        (Matrix.of (fun (i j : Fin G.nrows) => sigma * sigma * blockDiag (comps.map (fun c => (c.1.length, c.2))) i j)) = some y ∧ var = some (List.ofFn y)) := by
  unfold spsr at hr
  cases h1 : grid P gs' h' corner' with
  | none => simp [h1] at hr
  | some g =>
    obtain ⟨gs, h, corner⟩ := g
    simp only [h1, Option.bind_eq_bind, Option.bind_some] at hr
    cases h2 : density blur gs h corner P with
    | none => simp [h2] at hr
    | some dens =>
      simp only [h2, Option.bind_some] at hr
      cases h3 : (List.finRange d).mapM (component prior sigmaN dens gs h corner P N) with
      | none => simp [h3] at hr
      | some comps =>
        simp only [h3, Option.bind_some] at hr
        cases h4 : gradient gs h with
        | none => simp [h4] at hr
        | some G =>
          simp only [h4, Option.bind_some] at hr
          cases h5 : interp P gs h corner with
          | none => simp [h5] at hr
          | some W =>
            simp only [h5, Option.bind_some] at hr
            split_ifs at hr with h6 hv
            · cases h7 : meanField bicg (Matrix.of (fun (i : Fin G.nrows) (j : Fin (size gs)) => G.get i j)) (Matrix.of (fun (i : Fin P.length) (j : Fin (size gs)) => W.get i j))
                (fun i => (comps.flatMap (fun c => c.1)).getD i 0) with
              | none => simp only [h7, Option.bind_none, reduceCtorEq] at hr
              | some x =>
                simp only [h7, Option.bind_some] at hr
                cases h8 : varField solve sigmaN (Matrix.of (fun (i : Fin G.nrows) (j : Fin (size gs)) => G.get i j))
                  (Matrix.of (fun (i j : Fin G.nrows) => sigma * sigma * blockDiag (comps.map (fun c => (c.1.length, c.2))) i j)) with
                | none => simp only [h8, Option.bind_none, reduceCtorEq] at hr
                | some y =>
                  simp only [h8, Option.bind_some, Option.some.injEq, Prod.mk.injEq] at hr
                  refine ⟨gs, h, corner, dens, comps, G, W, x, rfl, h2, h3, h4, h5, h6, h7, hr.1.symm, ?_, fun _ => ⟨y, h8, hr.2.symm⟩⟩
                  intro hf; rw [hf] at hv; exact absurd hv (by simp)
            · cases h7 : meanField bicg (Matrix.of (fun (i : Fin G.nrows) (j : Fin (size gs)) => G.get i j)) (Matrix.of (fun (i : Fin P.length) (j : Fin (size gs)) => W.get i j))
                (fun i => (comps.flatMap (fun c => c.1)).getD i 0) with
              | none => simp only [h7, Option.bind_none, reduceCtorEq] at hr
              | some x =>
                simp only [h7, Option.bind_some, Option.some.injEq, Prod.mk.injEq] at hr
                exact ⟨gs, h, corner, dens, comps, G, W, x, rfl, h2, h3, h4, h5, h6, h7, hr.1.symm, fun _ => hr.2.symm, fun ht => absurd ht hv⟩

end Gpy.Spsr
