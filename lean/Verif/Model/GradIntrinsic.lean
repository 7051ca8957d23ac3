import Verif.Model.Elasticity

/-! `grad_intrinsic.py`. -/

set_option autoImplicit false
namespace Gpy
open Np Finset

noncomputable section

/-- `grad.py:61-62,105-106`: planar triangle meshes -/
def grad2d (V : List (Pt 2)) (F : List Tri) : Option (Csr ℝ) := (grad (padZ V) F).map (fun G => csrRows G 0 (2 * F.length))

/-- `grad_intrinsic.py:58-60`: one triangle, the numbers `(gx, gy, l0)`; `none`: a division by zero or the root of a negative number (numpy: `inf` or `nan`) -/
def layoutTri (r : Row3 ℝ) : Option (ℝ × ℝ × ℝ) :=
  let l0 := Real.sqrt r.x0                                                  -- line 58
  let gx := (r.x1 - r.x0 - r.x2) / (-2 * l0)                                -- line 59
  if l0 = 0 ∨ r.x2 - gx ^ 2 < 0 then none else some (gx, Real.sqrt (r.x2 - gx ^ 2), l0)   -- line 60

/-- `grad_intrinsic.py:61`: the triangles side by side, corners 0, then corners 1, then corners 2 -/
def layoutV (L : List (ℝ × ℝ × ℝ)) : List (Pt 2) := L.map (fun x => ![x.1, x.2.1]) ++ L.map (fun _ => ![0, 0]) ++ L.map (fun x => ![x.2.2, 0])

/-- `np.reshape(np.arange(3*m), (m,3), order='F')`, `grad_intrinsic.py:62` -/
def layoutF (m : ℕ) : List Tri := (List.range m).map (fun f => ⟨f, m + f, 2 * m + f⟩)

/-- `F.ravel()` -/
def ravelTri (F : List Tri) : List ℕ := F.flatMap (fun t => [t.a, t.b, t.c])

/-- `grad_intrinsic.py:54-68`; `none` also when an assertion fails -/
def gradIntrinsic (lsq : List (Row3 ℝ)) (F : List Tri) (n : Option ℕ) : Option Mat := do
  if lsq.length = F.length ∧ ∀ r ∈ lsq, 0 ≤ r.x0 ∧ 0 ≤ r.x1 ∧ 0 ≤ r.x2 then         -- lines 51-52
    let n ← nOr n F                                                                  -- lines 54-55
    let m := F.length
    let L ← lsq.mapM layoutTri
    let G2 ← grad2d (layoutV L) (layoutF m)                                      -- line 63
    let P ← csrMatrix (List.replicate (3 * m) 1) (ravelTri (layoutF m)) (ravelTri F) (3 * m) n    -- lines 64-65
    some ⟨G2.nrows, P.ncols, mulE G2.ncols G2.get P.get⟩                             -- line 66
  else none

end
end Gpy
