import Verif.Model.Swarm

/-! What a particle swarm does, in terms of the points it visits. -/

set_option autoImplicit false
namespace Gpy

variable {n : ℕ}

/-- `X k i` is the position of particle `i` after `k` iterations.  The positions of particle `j` that are known when particle `i` moves in iteration `k`: within an iteration the particles move one after the other. -/
def Seen (X : ℕ → ℕ → Pt n) (k i j : ℕ) (y : Pt n) : Prop := ∃ k', y = X k' j ∧ (k' ≤ k ∨ k' = k + 1 ∧ j < i)

/-- `p` is a point of `S` with the least value -/
def BestIn (f : Pt n → WithTop ℝ) (S : Pt n → Prop) (p : Pt n) : Prop := S p ∧ ∀ y, S y → f p ≤ f y

/-- particle `i` listens to particle `j`: on a ring to itself, its predecessor and its successor, otherwise to everybody -/
def Informs (top : Topology) (nP i j : ℕ) : Prop :=
  match top with
  | .ring => j = i ∨ j = (i + 1) % nP ∨ i = (j + 1) % nP
  | _ => True

/-- positions `X` and velocities `V` of a run: every particle is drawn towards the best point it has visited itself and the best point that the particles it listens to have visited, and is kept in the box. -/
structure SwarmRun (f : Pt n → WithTop ℝ) (lb ub : Pt n) (nP maxIter : ℕ) (momentum phi : ℝ) (top : Topology) (x0 v0 : ℕ → Pt n) (rp rg : ℕ → ℕ → ℝ) (X V : ℕ → ℕ → Pt n) : Prop where
  startX : ∀ i < nP, X 0 i = x0 i
  startV : ∀ i < nP, V 0 i = v0 i
  move : ∀ k < maxIter, ∀ i < nP, ∃ p g, BestIn f (Seen X k i i) p ∧ BestIn f (fun y => ∃ j < nP, Informs top nP i j ∧ Seen X k i j y) g ∧
    (∀ c, V (k + 1) i c = momentum * V k i c + phi * rp k i * (p c - X k i c) + phi * rg k i * (g c - X k i c)) ∧
    ∀ c, X (k + 1) i c = min (max (X k i c + V (k + 1) i c) (lb c)) (ub c)

/-- the points in the order in which they are visited -/
def visited (X : ℕ → ℕ → Pt n) (nP maxIter : ℕ) : List (Pt n) := (List.range (maxIter + 1)).flatMap (fun k => (List.range nP).map (X k))

end Gpy
