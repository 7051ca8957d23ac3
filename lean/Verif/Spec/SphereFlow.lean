import Verif.Model.SphereFlow

/-!
# A step of the flow of `reach_for_the_spheres`: what it should do
-/

set_option autoImplicit false
namespace Gpy.Spheres

noncomputable section

variable {d n nf m : ℕ}

/-- the point of the mesh with vertices `X` at the place (simplex and barycentric coordinates) that was closest to sample `k` -/
def Hit.at (q : Hit d n nf m) (X : Fin n → Pt d) (k : Fin m) : Pt d := fun j => ∑ c, q.b k c * X (q.F (q.I k) c) j

/-- how far the mesh with vertices `X` is from the targets: the sum of squared distances, over the samples that count -/
def Hit.misfit (q : Hit d n nf m) (w : Fin m → ℝ) (target : Fin m → Pt d) (X : Fin n → Pt d) : ℝ := ∑ k, w k * psq (q.at X k - target k)

/-- the energy of the step: the squared movement, weighted by mass, and the misfit times the step size over the number of samples -/
def Hit.energy (q : Hit d n nf m) (M : Fin n → ℝ) (t : ℝ) (w : Fin m → ℝ) (target : Fin m → Pt d) (X : Fin n → Pt d) : ℝ :=
  ∑ v, M v * psq (X v - q.V v) + t / m * q.misfit w target X

/-- the direction of steepest descent of half the misfit per sample -/
def Hit.descent (q : Hit d n nf m) (w : Fin m → ℝ) (target : Fin m → Pt d) : Fin n → Pt d :=
  fun v j => -(1 / m * ∑ k, ∑ c, if q.F (q.I k) c = v then w k * (q.b k c * (q.at q.V k j - target k j)) else 0)

/-- the mesh does not reach the sphere of sample `k`, and the distance of the sample is only a lower bound: it is clamped, or positive in the pseudo distance of constructive solid geometry -/
def Hit.ignored (q : Hit d n nf m) (u : Smp d m) (clamp : Option ℝ) (pseudo : Bool) (k : Fin m) : Prop :=
  |u.S k| < pnorm (q.at q.V k - u.U k) ∧ ((pseudo = true ∧ 0 < u.S k) ∨ (pseudo = false ∧ clamp = some |u.S k|))

end

end Gpy.Spheres
