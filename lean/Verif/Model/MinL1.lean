import Verif.Model.Biharmonic

/-! `min_l1_with_fixed.py`, the SCS branch. -/

set_option autoImplicit false
namespace Gpy
open Finset

/-- The keyword arguments of `min_l1_with_fixed` (`min_l1_with_fixed.py:5`) that describe the problem.  `b` is the column of an `(l,1)` array.
`k` holds nonnegative indices (scipy refuses negative ones). -/
structure L1Args where
  G : Option Mat := none
  Q : Option Mat := none
  L : Option Mat := none
  c : Option (List ℝ) := none
  k : Option (List ℕ) := none
  y : Option (List ℝ) := none
  A : Option Mat := none
  b : Option (List ℝ) := none
  d : ℕ := 1

/-- `np.amax(k)+1`; `none`: `k` is empty -/
def amaxSucc : List ℕ → Option ℕ
  | [] => none
  | a :: l => some (l.foldl max a + 1)

/-- `min_l1_with_fixed.py:404-424`; `none` = `ValueError` -/
def inferN (a : L1Args) : Option ℕ :=
  match a.G, a.Q, a.L, a.c, a.A, a.k with
  | some G, _, _, _, _, _ => some G.ncols
  | none, some Q, _, _, _, _ => some Q.ncols
  | none, none, some L, _, _, _ => some L.ncols
  | none, none, none, some c, _, _ => some c.length
  | none, none, none, none, some A, _ => some A.ncols
  | none, none, none, none, none, some k => amaxSucc k
  | none, none, none, none, none, none => none

noncomputable section

/-- a row of `scsA`: coefficients of the unknowns `u` and of the unknowns `z` -/
structure ScsRow where
  u : ℕ → ℝ
  z : ℕ → ℝ

/-- what is passed to `scs.SCS`: minimise `1/2 xᵀPx + cᵀx` such that `b - Ax` is in the product of `z` zero cones, `l` nonnegative cones and
second order cones of the sizes `q`.  The unknowns `x` are `n` entries `u` followed by `m` entries `z`. -/
structure ScsData where
  n : ℕ
  m : ℕ
  A : List ScsRow
  b : List ℝ
  c : List ℝ
  P : ℕ → ℕ → ℝ
  zlen : ℕ
  llen : ℕ
  q : List ℕ

/-- `L@L.T`, `min_l1_with_fixed.py:438` -/
def gramRows (L : Mat) : Mat := ⟨L.nrows, L.nrows, fun i j => ∑ t ∈ range L.ncols, L.get i t * L.get j t⟩

/-- `min_l1_with_fixed.py:435-438`; `none` = failed assertion -/
def quadTerm : Option Mat → Option Mat → Option (Option Mat)
  | some _, some _ => none
  | some Q, none => some (some Q)
  | none, some L => some (some (gramRows L))
  | none, none => some none

/-- `sp.eye(n)` -/
def eyeMat (n : ℕ) : Mat := ⟨n, n, fun i j => if i = j then 1 else 0⟩

/-- `min_l1_with_fixed.py:446-460`, the assertions -/
def shapesOk (n m d : ℕ) (G : Mat) (c : List ℝ) (k : Option (List ℕ)) (y : Option (List ℝ)) (A : Option Mat) (b : Option (List ℝ)) (Q : Option Mat) : Prop :=
  c.length = n ∧ G.nrows % d = 0 ∧ G.nrows = d * m ∧ G.ncols = n ∧ k.isSome = y.isSome ∧ (∀ k' ∈ k, ∀ y' ∈ y, k'.length = y'.length) ∧
  A.isSome = b.isSome ∧ (∀ A' ∈ A, A'.ncols = n) ∧ (∀ A' ∈ A, ∀ b' ∈ b, A'.nrows = b'.length) ∧ ∀ Q' ∈ Q, Q'.nrows = n ∧ Q'.ncols = n

/-- one entry `v` at position `i` -/
def unitAt (i : ℕ) (v : ℝ) : ℕ → ℝ := fun j => if j = i then v else 0

/-- `min_l1_with_fixed.py:473-488`: the rows of `scsA` -/
def scsRows (m d : ℕ) (G : Mat) (k : List ℕ) (A : Option Mat) : List ScsRow :=
  let rowsA := match A with
    | none => []
    | some A => (List.range A.nrows).map (fun r => ⟨A.get r, 0⟩)                       -- line 473
  let rowsK := k.map (fun i => ⟨unitAt i 1, 0⟩)                                        -- lines 470, 474
  let rowsI := (List.range m).map (fun i => ⟨0, unitAt i (-1)⟩)                        -- line 475
  let rowsG : List ScsRow :=
    if d = 1 then
      (List.range m).map (fun r => ⟨G.get r, unitAt r (-1)⟩) ++ (List.range m).map (fun r => ⟨fun j => -G.get r j, unitAt r (-1)⟩)   -- lines 478-480
    else
      let GIm : ℕ → ScsRow := fun r => if r < d * m then ⟨fun j => -G.get r j, 0⟩ else ⟨0, unitAt (r - d * m) (-1)⟩    -- line 484
      let perm := (List.range m).flatMap (fun i => (d * m + i) :: (List.range d).map (fun j => d * i + j))          -- line 485
      perm.map GIm                                                                     -- lines 486-488
  rowsA ++ rowsK ++ rowsI ++ rowsG

open Classical in
/-- `min_l1_with_fixed.py:404-512`: the data given to the solver; `none`: an error is raised before.  `kI` (line 470) refuses indices that are not below `n`. -/
def scsData (a : L1Args) : Option ScsData := do
  let n ← inferN a
  let G := a.G.getD (eyeMat n)                                                         -- lines 427-428
  let c := a.c.getD (List.replicate n 0)                                               -- lines 429-430
  let Q ← quadTerm a.Q a.L
  let m := G.nrows / a.d                                                               -- line 432
  let k := a.k.getD []
  if 1 ≤ a.d ∧ shapesOk n m a.d G c a.k a.y a.A a.b Q ∧ ∀ i ∈ k, i < n then
    let rows := scsRows m a.d G k a.A
    let b := a.b.getD [] ++ a.y.getD []                                                -- lines 491-495
    let b := b ++ List.replicate (rows.length - b.length) 0                            -- line 496
    some
      { n := n, m := m, A := rows, b := b
        c := c ++ List.replicate m 1                                                   -- line 506
        P := fun i j => if i < n ∧ j < n then (Q.map (fun Q => Q.get i j)).getD 0 else 0    -- lines 463-465
        zlen := (a.A.map (fun A => A.nrows)).getD 0 + k.length                         -- line 499
        llen := m + (if a.d = 1 then 2 * m else 0)                                     -- line 500
        q := if 2 ≤ a.d then List.replicate m (a.d + 1) else [] }                      -- lines 501, 511-512
  else none

/-- `min_l1_with_fixed.py:514-531`: the first `n` entries of the solution; `none`: the solver does not report an optimum -/
def minL1Scs (scs : ScsData → Option (ℕ → ℝ)) (a : L1Args) : Option (List ℝ) := do
  let D ← scsData a
  let x ← scs D
  some ((List.range D.n).map x)

end
end Gpy
