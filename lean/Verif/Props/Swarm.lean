import Verif.Proofs.Swarm
import Mathlib.Tactic.IntervalCases
import Mathlib.Tactic.NormNum

/-! C40: `particle_swarm`. -/

set_option autoImplicit false
namespace Gpy

variable {n : ℕ} {f : Pt n → WithTop ℝ} {lb ub : Pt n}

/-- What a run that called the objective at `evals` and returned `(x,v)` must satisfy: `x` is one of these points, `v` its value, no other
evaluation was smaller, and all evaluations were inside the bounds. -/
def BestOf (f : Pt n → WithTop ℝ) (lb ub : Pt n) (x : Pt n) (v : WithTop ℝ) (evals : List (Pt n)) : Prop :=
  x ∈ evals ∧ v = f x ∧ (∀ y ∈ evals, v ≤ f y) ∧ (∀ y ∈ evals, ∀ j, lb j ≤ y j ∧ y j ≤ ub j)

/-- **C40 (Python)** for every objective, every bounds `lb ≤ ub`, any initial particles inside the bounds, at least one of which has a finite value, and
all random draws, `particle_swarm` returns the best of the `n_particles*(max_iter+1)` points it evaluates, all of which are inside the bounds. -/
theorem C40_python (hb : ∀ j, lb j ≤ ub j) (nP maxIter : ℕ) (momentum phi : ℝ) (topology : Topology) (x0 v0 : ℕ → Pt n) (rp rg : ℕ → ℕ → ℝ)
    (hx : ∀ i < nP, ∀ j, lb j ≤ x0 i j ∧ x0 i j ≤ ub j) (hfin : ∃ i < nP, f (x0 i) ≠ ⊤) (htop : topology ≠ .other) :
    ∃ x v evals, pySwarm f lb ub nP maxIter momentum phi topology x0 v0 rp rg = some (x, v, evals) ∧ BestOf f lb ub x v evals ∧
      evals.length = nP * (maxIter + 1) := by
  obtain ⟨i0, hi0, hfin⟩ := hfin
  have h := swarmInit_inv (f := f) x0 none (⟨x0, v0, x0, fun _ => ⊤, none, ⊤, []⟩ : Swarm n)
    ⟨rfl, by simp, rfl, by simp, by simp, Or.inl ⟨rfl, rfl⟩⟩ nP
  unfold pySwarm
  simp only
  generalize hs : (List.range nP).foldl (swarmInit f) (⟨x0, v0, x0, fun _ => ⊤, none, ⊤, []⟩ : Swarm n) = s at h
  have hcur : s.curF < ⊤ := lt_of_le_of_lt (h.le i0 hi0) (lt_top_iff_ne_top.mpr hfin)
  have inv : SwarmInv True f lb ub nP s := by
    refine ⟨?_, ?_, ?_, ?_⟩
    · intro y hy
      obtain ⟨i, hi, rfl⟩ := (h.evals y).mp hy
      exact h.le i hi
    · intro i hi; rw [h.best i hi]; exact h.le i hi
    · rcases h.cur with hc | ⟨i, hi, a, b⟩
      · exact Or.inl ⟨trivial, hc⟩
      · exact Or.inr ⟨x0 i, a, b.symm, (h.evals _).mpr ⟨i, hi, rfl⟩⟩
    · intro y hy
      obtain ⟨i, hi, rfl⟩ := (h.evals y).mp hy
      exact hx i hi
  have hne : s.evals ≠ [] := by
    intro he
    have := h.len
    rw [he] at this
    simp at this; omega
  have some_of : ∀ s' : Swarm n, s'.curF ≤ s.curF → SwarmInv True f lb ub nP s' → ∃ p, s'.curX = some p ∧ f p = s'.curF ∧ p ∈ s'.evals := by
    intro s' h1 h2
    rcases h2.cur with ⟨_, _, hc⟩ | hc
    · rw [hc] at h1; exact absurd (lt_of_le_of_lt h1 hcur) (lt_irrefl _)
    · exact hc
  obtain ⟨s', e, inv', len', hc'⟩ := swarmLoop_inv (f := f) (momentum := momentum) (phi := phi) (rp := rp) (rg := rg) (maxIter := maxIter)
    (nbr := pyNeighbor topology nP) hb inv (le_refl s.curF) (by
      intro _ s' h1 h2 _ i hi
      cases topology with
      | full => obtain ⟨p, hp, _⟩ := some_of s' h1 h2; exact ⟨p, hp⟩
      | ring =>
        unfold pyNeighbor
        simp only
        cases ha : List.argmin s'.bestF [(i + nP - 1) % nP, i % nP, (i + 1) % nP] with
        | none => rw [List.argmin_eq_none] at ha; cases ha
        | some j => exact ⟨_, rfl⟩
      | other => exact absurd rfl htop) hne
  obtain ⟨p, hp, hpf, hpe⟩ := some_of s' hc' inv'
  rw [e]
  simp only [Option.bind_eq_bind, Option.bind_some, hp]
  refine ⟨p, _, _, rfl, ⟨hpe, hpf.symm, inv'.le_evals, inv'.box⟩, ?_⟩
  rw [len', h.len]; ring

/-- **C40 (C++)** the same for the C++ implementation, with any topology and without a condition on the values. -/
theorem C40_cpp (hb : ∀ j, lb j ≤ ub j) (nP maxIter : ℕ) (hnP : 0 < nP) (momentum phi : ℝ) (topology : Topology) (u0 w0 : ℕ → Pt n)
    (rp rg : ℕ → ℕ → ℝ) (hu : ∀ i j, 0 ≤ u0 i j ∧ u0 i j ≤ 1) :
    ∃ x v evals, cppSwarm f lb ub nP maxIter momentum phi topology u0 w0 rp rg = some (x, v, evals) ∧ BestOf f lb ub x v evals ∧
      evals.length = nP * (maxIter + 1) := by
  unfold cppSwarm
  rw [if_neg (by omega)]
  simp only
  set x0 : ℕ → Pt n := fun i j => lb j + u0 i j * (ub j - lb j) with hx0
  set v0 : ℕ → Pt n := fun i j => (lb j - ub j) + w0 i j * ((ub j - lb j) - (lb j - ub j)) with hv0
  have hx : ∀ i, ∀ j, lb j ≤ x0 i j ∧ x0 i j ≤ ub j := by
    intro i j
    obtain ⟨a, b⟩ := hu i j
    have := hb j
    constructor
    · have : 0 ≤ u0 i j * (ub j - lb j) := mul_nonneg a (by linarith)
      simp only [hx0]; linarith
    · have : u0 i j * (ub j - lb j) ≤ 1 * (ub j - lb j) := mul_le_mul_of_nonneg_right b (by linarith)
      simp only [hx0]; linarith
  have h := swarmInit_inv (f := f) x0 (some (x0 0)) (⟨x0, v0, x0, fun _ => ⊤, some (x0 0), ⊤, []⟩ : Swarm n)
    ⟨rfl, by simp, rfl, by simp, by simp, Or.inl ⟨rfl, rfl⟩⟩ nP
  generalize (List.range nP).foldl (swarmInit f) (⟨x0, v0, x0, fun _ => ⊤, some (x0 0), ⊤, []⟩ : Swarm n) = s at h
  have hcur : ∃ p, s.curX = some p ∧ f p = s.curF ∧ p ∈ s.evals := by
    rcases h.cur with ⟨a, b⟩ | ⟨i, hi, a, b⟩
    · refine ⟨x0 0, a, ?_, (h.evals _).mpr ⟨0, hnP, rfl⟩⟩
      have := h.le 0 hnP
      rw [b, top_le_iff] at this
      rw [this, b]
    · exact ⟨x0 i, a, b.symm, (h.evals _).mpr ⟨i, hi, rfl⟩⟩
  have inv : SwarmInv False f lb ub nP s := by
    refine ⟨?_, ?_, Or.inr hcur, ?_⟩
    · intro y hy
      obtain ⟨i, hi, rfl⟩ := (h.evals y).mp hy
      exact h.le i hi
    · intro i hi; rw [h.best i hi]; exact h.le i hi
    · intro y hy
      obtain ⟨i, hi, rfl⟩ := (h.evals y).mp hy
      exact hx i
  have hne : s.evals ≠ [] := by
    intro he
    have := h.len
    rw [he] at this
    simp at this; omega
  have some_of : ∀ s' : Swarm n, SwarmInv False f lb ub nP s' → ∃ p, s'.curX = some p ∧ f p = s'.curF ∧ p ∈ s'.evals := by
    intro s' h2
    rcases h2.cur with ⟨hf, _⟩ | hc
    · exact hf.elim
    · exact hc
  obtain ⟨s', e, inv', len', hc'⟩ := swarmLoop_inv (f := f) (momentum := momentum) (phi := phi) (rp := rp) (rg := rg) (maxIter := maxIter)
    (nbr := cppNeighbor topology nP) hb inv (le_refl s.curF) (by
      intro _ s' h1 h2 _ i hi
      cases topology with
      | full => obtain ⟨p, hp, _⟩ := some_of s' h2; exact ⟨p, hp⟩
      | ring => exact ⟨_, rfl⟩
      | other => obtain ⟨p, hp, _⟩ := some_of s' h2; exact ⟨p, hp⟩) hne
  obtain ⟨p, hp, hpf, hpe⟩ := some_of s' inv'
  rw [e]
  simp only [Option.bind_eq_bind, Option.bind_some, hp]
  refine ⟨p, _, _, rfl, ⟨hpe, hpf.symm, inv'.le_evals, inv'.box⟩, ?_⟩
  rw [len', h.len]; ring

/-- The two paths differ for an unknown topology: the Python path raises as soon as there is something to iterate. -/
theorem C40_unknown_topology_raises (nP maxIter : ℕ) (hnP : 0 < nP) (hm : 0 < maxIter) (momentum phi : ℝ) (x0 v0 : ℕ → Pt n) (rp rg : ℕ → ℕ → ℝ) :
    pySwarm f lb ub nP maxIter momentum phi .other x0 v0 rp rg = none := by
  unfold pySwarm swarmLoop
  obtain ⟨m, rfl⟩ := Nat.exists_eq_succ_of_ne_zero (Nat.ne_of_gt hm)
  obtain ⟨k, rfl⟩ := Nat.exists_eq_succ_of_ne_zero (Nat.ne_of_gt hnP)
  simp only
  generalize (List.range k.succ).foldl (swarmInit f) (⟨x0, v0, x0, fun _ => ⊤, none, ⊤, []⟩ : Swarm n) = s
  simp only [Nat.succ_eq_add_one, List.range_succ_eq_map, List.foldlM_cons]
  rfl

/-- two particles in the interval `[0,1]`, objective `x ↦ x` -/
example : ∃ x v evals, pySwarm (n := 1) (fun y => ((y 0 : ℝ) : WithTop ℝ)) (fun _ => 0) (fun _ => 1) 2 5 0.9 0.1 .ring (fun i _ => (i : ℝ) / 2)
    (fun _ _ => 0.5) (fun _ _ => 0.25) (fun _ _ => 0.75) = some (x, v, evals) ∧
    BestOf (n := 1) (fun y => ((y 0 : ℝ) : WithTop ℝ)) (fun _ => 0) (fun _ => 1) x v evals ∧ evals.length = 2 * (5 + 1) :=
  C40_python (by intro j; norm_num) 2 5 0.9 0.1 .ring _ _ _ _ (by intro i hi j; interval_cases i <;> norm_num)
    ⟨0, by omega, WithTop.coe_ne_top⟩ (by intro h; cases h)

end Gpy
