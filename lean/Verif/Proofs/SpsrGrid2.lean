import Verif.Proofs.SpsrField
import Verif.Proofs.SpsrKernel
import Verif.Props.Fd

/-! The staggered grid of `stochastic_poisson_surface_reconstruction`: the rows of the gradient. -/

set_option autoImplicit false
namespace Gpy.Spsr
open Np Finset

theorem sum_rows {M : Type} [AddCommMonoid M] (a b : ℕ) (f : ℕ → M) : ∑ k ∈ range (a * b), f k = ∑ y ∈ range b, ∑ x ∈ range a, f (x + a * y) := by
  induction b with
  | zero => simp
  | succ b ih =>
    rw [Nat.mul_succ, Finset.sum_range_add, ih, Finset.sum_range_succ]
    congr 1
    exact Finset.sum_congr rfl (fun x _ => by rw [add_comm])

theorem sum_rows3 {M : Type} [AddCommMonoid M] (a b c : ℕ) (f : ℕ → M) :
    ∑ k ∈ range (a * b * c), f k = ∑ z ∈ range c, ∑ y ∈ range b, ∑ x ∈ range a, f (x + a * (y + b * z)) := by
  rw [mul_assoc, sum_rows, sum_rows]

/-- the rows of the gradient in two dimensions -/
theorem gradient2_rows {gs : Fin 2 → ℕ} {h : Pt 2} {G : Csr ℝ} (hG : gradient gs h = some G) :
    G.nrows = (gs 0 - 1) * gs 1 + gs 0 * (gs 1 - 1) ∧ G.ncols = gs 0 * gs 1 ∧ ∀ (F : ℕ → ℝ → ℝ) (u : ℕ → ℝ),
      ∑ i ∈ range G.nrows, F i (G.mulVec u i) =
        ∑ y ∈ range (gs 1), ∑ x ∈ range (gs 0 - 1), F (x + (gs 0 - 1) * y) ((u (x + 1 + gs 0 * y) - u (x + gs 0 * y)) / h 0) +
        ∑ y ∈ range (gs 1 - 1), ∑ x ∈ range (gs 0), F ((gs 0 - 1) * gs 1 + (x + gs 0 * y)) ((u (x + gs 0 * (y + 1)) - u (x + gs 0 * y)) / h 1) := by
  obtain ⟨Dx, hx, wx, nx, cx, rx⟩ := C35_fd_partial2_x (gs 0, gs 1) (h 0, h 1)
  obtain ⟨Dy, hy, wy, ny, cy, ry⟩ := C35_fd_partial2_y (gs 0, gs 1) (h 0, h 1)
  have e : gradient gs h = some (csrVstack Dx Dy) := by
    show fdGrad2 (gs 0, gs 1) (h 0, h 1) = _
    unfold fdGrad2; rw [hx, hy]; rfl
  rw [e, Option.some.injEq] at hG
  subst hG
  simp only at nx cx rx ny cy ry
  refine ⟨by unfold csrVstack; simp only; rw [nx, ny], by unfold csrVstack; simp only; rw [cx], ?_⟩
  intro F u
  obtain ⟨v1, v2⟩ := vstack_mulVec wx wy (cy.trans cx.symm) u
  have e2 : (csrVstack Dx Dy).nrows = Dx.nrows + Dy.nrows := rfl
  rw [e2, Finset.sum_range_add]
  congr 1
  · rw [nx, sum_rows]
    refine Finset.sum_congr rfl (fun y hy' => Finset.sum_congr rfl (fun x hx' => ?_))
    have hx'' := Finset.mem_range.mp hx'
    have hy'' := Finset.mem_range.mp hy'
    rw [v1 _ (by rw [nx]; exact idx_lt2 hx'' hy''), rx x y hx'' hy'']
  · rw [ny, sum_rows]
    refine Finset.sum_congr rfl (fun y hy' => Finset.sum_congr rfl (fun x hx' => ?_))
    have hx'' := Finset.mem_range.mp hx'
    have hy'' := Finset.mem_range.mp hy'
    rw [v2, ry x y hx'' hy'', nx]

/-- the rows of the gradient in three dimensions -/
theorem gradient3_rows {gs : Fin 3 → ℕ} {h : Pt 3} {G : Csr ℝ} (hG : gradient gs h = some G) :
    G.nrows = (gs 0 - 1) * gs 1 * gs 2 + gs 0 * (gs 1 - 1) * gs 2 + gs 0 * gs 1 * (gs 2 - 1) ∧ G.ncols = gs 0 * gs 1 * gs 2 ∧ ∀ (F : ℕ → ℝ → ℝ) (u : ℕ → ℝ),
      ∑ i ∈ range G.nrows, F i (G.mulVec u i) =
        ∑ z ∈ range (gs 2), ∑ y ∈ range (gs 1), ∑ x ∈ range (gs 0 - 1), F (x + (gs 0 - 1) * (y + gs 1 * z)) ((u (x + 1 + gs 0 * (y + gs 1 * z)) - u (x + gs 0 * (y + gs 1 * z))) / h 0) +
        ∑ z ∈ range (gs 2), ∑ y ∈ range (gs 1 - 1), ∑ x ∈ range (gs 0), F ((gs 0 - 1) * gs 1 * gs 2 + (x + gs 0 * (y + (gs 1 - 1) * z))) ((u (x + gs 0 * (y + 1 + gs 1 * z)) - u (x + gs 0 * (y + gs 1 * z))) / h 1) +
        ∑ z ∈ range (gs 2 - 1), ∑ y ∈ range (gs 1), ∑ x ∈ range (gs 0), F ((gs 0 - 1) * gs 1 * gs 2 + gs 0 * (gs 1 - 1) * gs 2 + (x + gs 0 * (y + gs 1 * z)))
          ((u (x + gs 0 * (y + gs 1 * (z + 1))) - u (x + gs 0 * (y + gs 1 * z))) / h 2) := by
  obtain ⟨Dx, hx, wx, nx, cx, rx⟩ := C35_fd_partial3_x (gs 0, gs 1, gs 2) ⟨h 0, h 1, h 2⟩
  obtain ⟨Dy, hy, wy, ny, cy, ry⟩ := C35_fd_partial3_y (gs 0, gs 1, gs 2) ⟨h 0, h 1, h 2⟩
  obtain ⟨Dz, hz, wz, nz, cz, rz⟩ := C35_fd_partial3_z (gs 0, gs 1, gs 2) ⟨h 0, h 1, h 2⟩
  have e : gradient gs h = some (csrVstack (csrVstack Dx Dy) Dz) := by
    show fdGrad3 (gs 0, gs 1, gs 2) ⟨h 0, h 1, h 2⟩ = _
    unfold fdGrad3; rw [hx, hy, hz]; rfl
  rw [e, Option.some.injEq] at hG
  subst hG
  simp only at nx cx rx ny cy ry nz cz rz
  have wxy : (csrVstack Dx Dy).WF := vstack_wf wx wy (cy.trans cx.symm)
  have cxy : (csrVstack Dx Dy).ncols = Dx.ncols := rfl
  have nxy : (csrVstack Dx Dy).nrows = Dx.nrows + Dy.nrows := rfl
  refine ⟨by unfold csrVstack; simp only; rw [nx, ny, nz], by unfold csrVstack; simp only; rw [cx], ?_⟩
  intro F u
  obtain ⟨v1, v2⟩ := vstack_mulVec wx wy (cy.trans cx.symm) u
  obtain ⟨w1, w2⟩ := vstack_mulVec wxy wz (cz.trans (cx.symm.trans cxy.symm)) u
  have e2 : (csrVstack (csrVstack Dx Dy) Dz).nrows = (Dx.nrows + Dy.nrows) + Dz.nrows := rfl
  rw [e2, Finset.sum_range_add, Finset.sum_range_add]
  congr 1
  · congr 1
    · rw [nx, sum_rows3]
      refine Finset.sum_congr rfl (fun z hz' => Finset.sum_congr rfl (fun y hy' => Finset.sum_congr rfl (fun x hx' => ?_)))
      have hx'' := Finset.mem_range.mp hx'
      have hy'' := Finset.mem_range.mp hy'
      have hz'' := Finset.mem_range.mp hz'
      have hlt := idx_lt3 hx'' hy'' hz''
      rw [w1 _ (by rw [nxy, nx]; omega), v1 _ (by rw [nx]; exact hlt), rx x y z hx'' hy'' hz'']
    · rw [ny, sum_rows3]
      refine Finset.sum_congr rfl (fun z hz' => Finset.sum_congr rfl (fun y hy' => Finset.sum_congr rfl (fun x hx' => ?_)))
      have hx'' := Finset.mem_range.mp hx'
      have hy'' := Finset.mem_range.mp hy'
      have hz'' := Finset.mem_range.mp hz'
      have hlt := idx_lt3 hx'' hy'' hz''
      rw [w1 _ (by rw [nxy, ny]; omega), v2, ry x y z hx'' hy'' hz'', nx]
  · rw [nz, sum_rows3]
    refine Finset.sum_congr rfl (fun z hz' => Finset.sum_congr rfl (fun y hy' => Finset.sum_congr rfl (fun x hx' => ?_)))
    have hx'' := Finset.mem_range.mp hx'
    have hy'' := Finset.mem_range.mp hy'
    have hz'' := Finset.mem_range.mp hz'
    have : Dx.nrows + Dy.nrows = (csrVstack Dx Dy).nrows := rfl
    rw [this, w2, rz x y z hx'' hy'' hz'', nxy, nx, ny]

end Gpy.Spsr
