import Verif.Model.Raster

/-!
# What the rasterisation must return (no reference to how it is computed)
-/

set_option autoImplicit false
namespace Gpy.Raster

variable {d : ℕ}

/-- what the things from outside do: different spheres are chosen, random numbers are in [0,1), every sphere goes to one thread -/
structure EnvOk (env : Env d) : Prop where
  choice : ∀ n k : ℕ, k ≤ n → (env.choice n k).length = k ∧ (env.choice n k).Nodup ∧ ∀ i ∈ env.choice n k, i < n
  rnd : ∀ k, 0 ≤ env.rnd k ∧ env.rnd k < 1
  asg : ∀ m, (env.asg m).flatten.Perm (List.range m)

/-- the point of a cell of the grid with `n` cells along each side of the unit box -/
noncomputable def cellPt (n : ℕ) (ξ : (Fin d → ℕ) → Fin d → ℝ) (c : Fin d → ℕ) : Pt d := fun j => (c j + ξ c j) / n

/-- in one of the spheres of the list `L`, their squared radius shrunk by 0.95 -/
def InShrunk (L : List ℕ) (U : ℕ → Pt d) (S : ℕ → ℝ) (x : Pt d) : Prop := ∃ i ∈ L, psq (x - U i) ≤ 95 / 100 * S i ^ 2

/-- cells that touch -/
def Touch (c c' : Fin d → ℕ) : Prop := ∀ j, c' j ≤ c j + 1 ∧ c j ≤ c' j + 1

end Gpy.Raster
