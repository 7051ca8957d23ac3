import Verif.Proofs.SwarmMoves
import Verif.Props.Swarm

/-! # C40: how the particles move -/

set_option autoImplicit false
namespace Gpy

variable {n : ℕ} {f : Pt n → WithTop ℝ} {lb ub : Pt n}

theorem ring_mem {nP i j : ℕ} (hi : i < nP) (hj : j = (i + nP - 1) % nP ∨ j = i % nP ∨ j = (i + 1) % nP) : j < nP ∧ Informs .ring nP i j := by
  refine ⟨by rcases hj with rfl | rfl | rfl <;> exact Nat.mod_lt _ (by omega), ?_⟩
  unfold Informs
  rcases hj with rfl | rfl | rfl
  · right; right
    rw [Nat.mod_add_mod, show i + nP - 1 + 1 = i + nP from by omega, Nat.add_mod_right, Nat.mod_eq_of_lt hi]
  · left; exact Nat.mod_eq_of_lt hi
  · right; left; rfl

theorem ring_informs {nP i j : ℕ} (hi : i < nP) (hj : j < nP) (h : Informs .ring nP i j) : j = (i + nP - 1) % nP ∨ j = i % nP ∨ j = (i + 1) % nP := by
  unfold Informs at h
  rcases h with rfl | rfl | rfl
  · right; left; exact (Nat.mod_eq_of_lt hi).symm
  · right; right; rfl
  · left
    by_cases e : j + 1 = nP
    · rw [e, Nat.mod_self, Nat.zero_add, Nat.mod_eq_of_lt (by omega)]; omega
    · rw [Nat.mod_eq_of_lt (show j + 1 < nP by omega), show j + 1 + nP - 1 = j + nP from by omega, Nat.add_mod_right, Nat.mod_eq_of_lt hj]

theorem full_best {nP i : ℕ} {S : ℕ → Pt n → Prop} {t : Swarm n} (h : Recorded f nP S t) (top : Topology) (htop : top ≠ .ring) :
    ∃ g, t.curX = some g ∧ BestIn f (fun y => ∃ j < nP, Informs top nP i j ∧ S j y) g := by
  obtain ⟨c, a, b, j, hj, d⟩ := h.cur
  refine ⟨c, a, ⟨j, hj, ?_, d⟩, ?_⟩
  · cases top with
    | ring => exact absurd rfl htop
    | full => trivial
    | other => trivial
  · rintro y ⟨j', hj', -, hy⟩
    rw [← b]
    exact (h.le j' hj').trans (h.best j' hj' y hy)

theorem ring_best {nP i : ℕ} (hi : i < nP) {S : ℕ → Pt n → Prop} {t : Swarm n} (h : Recorded f nP S t) (b : ℕ) (hb : b = (i + nP - 1) % nP ∨ b = i % nP ∨ b = (i + 1) % nP)
    (hle : t.bestF b ≤ t.bestF ((i + nP - 1) % nP) ∧ t.bestF b ≤ t.bestF (i % nP) ∧ t.bestF b ≤ t.bestF ((i + 1) % nP)) :
    BestIn f (fun y => ∃ j < nP, Informs .ring nP i j ∧ S j y) (t.bestX b) := by
  obtain ⟨hbn, hbi⟩ := ring_mem hi hb
  refine ⟨⟨b, hbn, hbi, h.mem b hbn⟩, ?_⟩
  rintro y ⟨j, hj, hin, hy⟩
  rw [← h.val b hbn]
  refine le_trans ?_ (h.best j hj y hy)
  rcases ring_informs hi hj hin with rfl | rfl | rfl
  · exact hle.1
  · exact hle.2.1
  · exact hle.2.2

theorem py_informed {nP : ℕ} {top : Topology} (htop : top ≠ .other) (S : ℕ → Pt n → Prop) (t : Swarm n) (h : Recorded f nP S t) (i : ℕ) (hi : i < nP) :
    ∃ g, pyNeighbor top nP t i = some g ∧ BestIn f (fun y => ∃ j < nP, Informs top nP i j ∧ S j y) g := by
  cases top with
  | full => exact full_best h .full (by intro h; cases h)
  | other => exact absurd rfl htop
  | ring =>
    unfold pyNeighbor
    simp only
    cases ha : List.argmin t.bestF [(i + nP - 1) % nP, i % nP, (i + 1) % nP] with
    | none => rw [List.argmin_eq_none] at ha; cases ha
    | some b =>
      have hm := List.argmin_mem ha
      have hle : ∀ c ∈ [(i + nP - 1) % nP, i % nP, (i + 1) % nP], t.bestF b ≤ t.bestF c := fun c hc => List.le_of_mem_argmin hc ha
      exact ⟨_, rfl, ring_best hi h b (by simpa using hm) ⟨hle _ (by simp), hle _ (by simp), hle _ (by simp)⟩⟩

theorem cpp_informed {nP : ℕ} {top : Topology} (S : ℕ → Pt n → Prop) (t : Swarm n) (h : Recorded f nP S t) (i : ℕ) (hi : i < nP) :
    ∃ g, cppNeighbor top nP t i = some g ∧ BestIn f (fun y => ∃ j < nP, Informs top nP i j ∧ S j y) g := by
  cases top with
  | full => exact full_best h .full (by intro h; cases h)
  | other => exact full_best h .other (by intro h; cases h)
  | ring =>
    unfold cppNeighbor
    simp only
    have hii : i % nP = i := Nat.mod_eq_of_lt hi
    by_cases h1 : t.bestF ((i + nP - 1) % nP) < t.bestF i
    · rw [if_pos h1]
      by_cases h2 : t.bestF ((i + 1) % nP) < t.bestF ((i + nP - 1) % nP)
      · rw [if_pos h2]
        exact ⟨_, rfl, ring_best hi h _ (Or.inr (Or.inr rfl)) ⟨h2.le, by rw [hii]; exact (h2.trans h1).le, le_refl _⟩⟩
      · rw [if_neg h2]
        exact ⟨_, rfl, ring_best hi h _ (Or.inl rfl) ⟨le_refl _, by rw [hii]; exact h1.le, not_lt.mp h2⟩⟩
    · rw [if_neg h1]
      by_cases h2 : t.bestF ((i + 1) % nP) < t.bestF i
      · rw [if_pos h2]
        exact ⟨_, rfl, ring_best hi h _ (Or.inr (Or.inr rfl)) ⟨h2.le.trans (not_lt.mp h1), by rw [hii]; exact h2.le, le_refl _⟩⟩
      · rw [if_neg h2]
        exact ⟨_, rfl, ring_best hi h _ (Or.inr (Or.inl hii.symm)) ⟨not_lt.mp h1, by rw [hii], not_lt.mp h2⟩⟩

theorem init_moves (x0 v0 : ℕ → Pt n) (c : Option (Pt n)) (k : ℕ) : ∀ s, s = (List.range k).foldl (swarmInit f) (⟨x0, v0, x0, fun _ => ⊤, c, ⊤, []⟩ : Swarm n) →
    s.x = x0 ∧ s.v = v0 ∧ s.bestX = x0 ∧ s.evals.reverse = (List.range k).map x0 := by
  induction k with
  | zero => rintro s rfl; exact ⟨rfl, rfl, rfl, rfl⟩
  | succ k ih =>
    rintro s rfl
    rw [List.range_succ, List.foldl_append, List.foldl_cons, List.foldl_nil]
    generalize hs : (List.range k).foldl (swarmInit f) (⟨x0, v0, x0, fun _ => ⊤, c, ⊤, []⟩ : Swarm n) = s
    obtain ⟨h1, h2, h3, h4⟩ := ih s hs.symm
    have hu : Function.update s.bestX k (s.x k) = x0 := by rw [h3, h1, Function.update_eq_self]
    have he : (s.x k :: s.evals).reverse = (List.range k ++ [k]).map x0 := by rw [List.reverse_cons, h4, h1, List.map_append]; rfl
    unfold swarmInit
    simp only
    split <;> exact ⟨h1, h2, hu, he⟩

theorem init_recorded {x0 v0 : ℕ → Pt n} {c : Option (Pt n)} {nP : ℕ} {s : Swarm n} (hs : s = (List.range nP).foldl (swarmInit f) (⟨x0, v0, x0, fun _ => ⊤, c, ⊤, []⟩ : Swarm n))
    (hc : (∃ i < nP, f (x0 i) ≠ ⊤) ∨ (0 < nP ∧ c = some (x0 0))) : Recorded f nP (fun j y => y = x0 j) s := by
  obtain ⟨-, -, h3, -⟩ := init_moves x0 v0 c nP s hs
  have h := swarmInit_inv (f := f) x0 c (⟨x0, v0, x0, fun _ => ⊤, c, ⊤, []⟩ : Swarm n) ⟨rfl, by simp, rfl, by simp, by simp, Or.inl ⟨rfl, rfl⟩⟩ nP
  rw [← hs] at h
  refine ⟨fun j _ => by rw [h3], fun j hj => by rw [h3]; exact h.best j hj, fun j hj y hy => by rw [hy, h.best j hj], ?_, fun j hj => by rw [h.best j hj]; exact h.le j hj⟩
  rcases h.cur with ⟨a, b⟩ | ⟨i, hi, a, b⟩
  · rcases hc with ⟨i, hi, hf⟩ | ⟨h0, hc⟩
    · have := h.le i hi
      rw [b, top_le_iff] at this
      exact absurd this hf
    · have := h.le 0 h0
      rw [b, top_le_iff] at this
      exact ⟨x0 0, by rw [a, hc], by rw [b, this], 0, h0, rfl⟩
  · exact ⟨x0 i, a, b, i, hi, rfl⟩

/-- **C40** (moves, Python).  The points at which `particle_swarm` calls the objective are, in this order, the positions of the particles in the successive iterations; in each iteration every particle moves with the velocity of particle swarm
optimisation towards a best point it has visited itself and a best point visited so far by the particles it listens to: all of them, or on a ring itself and its two neighbours. -/
theorem C40_moves_python (nP maxIter : ℕ) (momentum phi : ℝ) (topology : Topology) (x0 v0 : ℕ → Pt n) (rp rg : ℕ → ℕ → ℝ) (hfin : ∃ i < nP, f (x0 i) ≠ ⊤) (htop : topology ≠ .other) :
    ∃ X V x v evals, pySwarm f lb ub nP maxIter momentum phi topology x0 v0 rp rg = some (x, v, evals) ∧ SwarmRun f lb ub nP maxIter momentum phi topology x0 v0 rp rg X V ∧
      evals.reverse = visited X nP maxIter := by
  unfold pySwarm
  simp only
  generalize hs : (List.range nP).foldl (swarmInit f) (⟨x0, v0, x0, fun _ => ⊤, none, ⊤, []⟩ : Swarm n) = s
  obtain ⟨h1, h2, -, h4⟩ := init_moves x0 v0 none nP s hs.symm
  obtain ⟨X, V, s', e, r, ev, c, hc⟩ := run_moves (f := f) (lb := lb) (ub := ub) (momentum := momentum) (phi := phi) (rp := rp) (rg := rg) (nbr := pyNeighbor topology nP) (top := topology)
    h1 h2 (init_recorded hs.symm (Or.inl hfin)) h4 maxIter (fun _ S t ht i hi => py_informed htop S t ht i hi)
  rw [e]
  simp only [Option.bind_eq_bind, Option.bind_some, hc]
  exact ⟨X, V, _, _, _, rfl, r, ev⟩

/-- **C40** (moves, C++).  The same for the C++ implementation; every topology but the ring is the full one; `u0` and `w0` are the uniform random numbers for positions and velocities. -/
theorem C40_moves_cpp (nP maxIter : ℕ) (hnP : 0 < nP) (momentum phi : ℝ) (topology : Topology) (u0 w0 : ℕ → Pt n) (rp rg : ℕ → ℕ → ℝ) :
    ∃ X V x v evals, cppSwarm f lb ub nP maxIter momentum phi topology u0 w0 rp rg = some (x, v, evals) ∧
      SwarmRun f lb ub nP maxIter momentum phi topology (fun i j => (1 - u0 i j) * lb j + u0 i j * ub j) (fun i j => (2 * w0 i j - 1) * (ub j - lb j)) rp rg X V ∧ evals.reverse = visited X nP maxIter := by
  unfold cppSwarm
  rw [if_neg (by omega)]
  simp only
  have e1 : (fun (i : ℕ) (j : Fin n) => (1 - u0 i j) * lb j + u0 i j * ub j) = fun i j => lb j + u0 i j * (ub j - lb j) := by funext i j; ring
  have e2 : (fun (i : ℕ) (j : Fin n) => (2 * w0 i j - 1) * (ub j - lb j)) = fun i j => (lb j - ub j) + w0 i j * ((ub j - lb j) - (lb j - ub j)) := by funext i j; ring
  rw [e1, e2]
  set x0 : ℕ → Pt n := fun i j => lb j + u0 i j * (ub j - lb j) with hx0
  set v0 : ℕ → Pt n := fun i j => (lb j - ub j) + w0 i j * ((ub j - lb j) - (lb j - ub j)) with hv0
  change ∃ X V x v evals, (do
    let s' ← swarmLoop f lb ub momentum phi (cppNeighbor topology nP) rp rg nP maxIter ((List.range nP).foldl (swarmInit f) (⟨x0, v0, x0, fun _ => ⊤, some (x0 0), ⊤, []⟩ : Swarm n))
    let x ← s'.curX
    some (x, s'.curF, s'.evals)) = some (x, v, evals) ∧ _
  generalize hs : (List.range nP).foldl (swarmInit f) (⟨x0, v0, x0, fun _ => ⊤, some (x0 0), ⊤, []⟩ : Swarm n) = s
  obtain ⟨h1, h2, -, h4⟩ := init_moves x0 v0 (some (x0 0)) nP s hs.symm
  obtain ⟨X, V, s', e, r, ev, c, hc⟩ := run_moves (f := f) (lb := lb) (ub := ub) (momentum := momentum) (phi := phi) (rp := rp) (rg := rg) (nbr := cppNeighbor topology nP) (top := topology)
    h1 h2 (init_recorded hs.symm (Or.inr ⟨hnP, rfl⟩)) h4 maxIter (fun _ S t ht i hi => cpp_informed S t ht i hi)
  rw [e]
  simp only [Option.bind_eq_bind, Option.bind_some, hc]
  exact ⟨X, V, _, _, _, rfl, r, ev⟩

/-- four particles on a ring -/
example : ∃ X V x v evals, pySwarm (n := 1) (fun y => ((y 0 : ℝ) : WithTop ℝ)) (fun _ => 0) (fun _ => 1) 4 5 0.9 0.1 .ring (fun i _ => (i : ℝ) / 4) (fun _ _ => 0.5) (fun _ _ => 0.25) (fun _ _ => 0.75) = some (x, v, evals) ∧
    SwarmRun (n := 1) (fun y => ((y 0 : ℝ) : WithTop ℝ)) (fun _ => 0) (fun _ => 1) 4 5 0.9 0.1 .ring (fun i _ => (i : ℝ) / 4) (fun _ _ => 0.5) (fun _ _ => 0.25) (fun _ _ => 0.75) X V ∧ evals.reverse = visited X 4 5 :=
  C40_moves_python 4 5 0.9 0.1 .ring _ _ _ _ ⟨0, by omega, WithTop.coe_ne_top⟩ (by intro h; cases h)

end Gpy
