import Verif.Model.Extrinsic
import Verif.Model.Biharmonic
import Verif.Model.GaussianProcess
import Verif.Model.MinQuad

/-! `linear_elasticity_stiffness.py`, `linear_elasticity.py` for planar meshes (with vertices in space both print a message and end in `UnboundLocalError`). -/

set_option autoImplicit false
namespace Gpy
open Np Finset

noncomputable section

/-- `np.concatenate((V, np.zeros((V.shape[0],1))), axis=1)`, `linear_elasticity_stiffness.py:67` -/
def padZ (V : List (Pt 2)) : List (V3 ℝ) := V.map (fun p => ⟨p 0, p 1, 0⟩)

/-- `G[a:b,:]` -/
def csrRows (G : Csr ℝ) (a b : ℕ) : Csr ℝ := ⟨min b G.nrows - a, G.ncols, (G.trip.filter (fun t => decide (a ≤ t.1 ∧ t.1 < b))).map (fun t => (t.1 - a, t.2.1, t.2.2))⟩

/-- `G[:,0:b]` -/
def csrCols (G : Csr ℝ) (b : ℕ) : Csr ℝ := ⟨G.nrows, min b G.ncols, G.trip.filter (fun t => decide (t.2.1 < b))⟩

/-- `s*identity(m)` -/
def csrEye (s : ℝ) (m : ℕ) : Csr ℝ := ⟨m, m, (List.range m).map (fun i => (i, i, s))⟩

/-- `block_diag((A,B))` -/
def blockDiag2 (A B : Csr ℝ) : Csr ℝ := ⟨A.nrows + B.nrows, A.ncols + B.ncols, A.trip ++ B.trip.map (fun t => (A.nrows + t.1, A.ncols + t.2.1, t.2.2))⟩

/-- entries of a product of matrices with `k` inner indices -/
def mulE (k : ℕ) (f g : ℕ → ℕ → ℝ) (i j : ℕ) : ℝ := ∑ l ∈ range k, f i l * g l j

/-- the five results -/
structure Elastic where
  K : Mat
  C : Csr ℝ
  strain : Csr ℝ
  A : Csr ℝ
  M : Csr ℝ

/-- `linear_elasticity_stiffness.py:66-74`: the strain matrix; `none` also when `vstack` is given blocks of different widths -/
def strainMatrix (V : List (Pt 2)) (F : List Tri) : Option (Csr ℝ) := do
  let Z : Csr ℝ := ⟨F.length, V.length, []⟩                                        -- line 61
  let G ← grad (padZ V) F                                                          -- line 67
  let G := csrCols (csrRows G 0 (2 * F.length)) (2 * F.length)                     -- line 68
  let G0 := csrRows G 0 F.length                                                   -- line 69
  let G1 := csrRows G F.length (2 * F.length)                                      -- line 70
  let strain0 ← hstackCsr [G0, Z]                                                  -- line 71
  let strain1 ← hstackCsr [Z, G1]                                                  -- line 72
  let strain2 ← hstackCsr [G1, G0]                                                 -- line 73
  vstackCsr [strain0, strain1, strain2]                                            -- line 74

/-- `linear_elasticity_stiffness.py:75` -/
def elasticC (l mu : ℝ) (m : ℕ) : Option (Csr ℝ) := do
  let c0 ← hstackCsr [csrEye (l + 2 * mu) m, csrEye l m, csrEye 0 m]
  let c1 ← hstackCsr [csrEye l m, csrEye (l + 2 * mu) m, csrEye 0 m]
  let c2 ← hstackCsr [csrEye 0 m, csrEye 0 m, csrEye mu m]
  vstackCsr [c0, c1, c2]

/-- `linear_elasticity_stiffness.py:76-79` -/
def elementVolumes (V : List (Pt 2)) (F : List Tri) : Option (List ℝ) → Option (List ℝ)
  | some v => some v
  | none => (doublearea (padZ V) F).map (fun d => d.map (fun x => x * 0.5))

/-- `linear_elasticity_stiffness.py:81-84` -/
def elementMass (V : List (Pt 2)) (F : List Tri) : Option (Csr ℝ) → Option (Csr ℝ)
  | some M => some M
  | none => massmatrix (padZ V) F .voronoi

/-- `linear_elasticity_stiffness.py:90-95`; `none`: the dimensions of the factors do not fit -/
def elasticAssemble (V : List (Pt 2)) (C strain A M : Csr ℝ) : Option Elastic :=
  if A.nrows = strain.nrows ∧ C.nrows = A.ncols then
    some ⟨⟨strain.ncols, strain.ncols, mulE C.ncols (mulE A.ncols (mulE strain.nrows (fun i r => strain.get r i) A.get) C.get) strain.get⟩, C, strain, A, M⟩   -- lines 91-92
  else none

/-- `linear_elasticity_stiffness.py:60-95` -/
def elasticStiffness (V : List (Pt 2)) (F : List Tri) (K mu : ℝ) (volumes : Option (List ℝ)) (mass : Option (Csr ℝ)) : Option Elastic := do
  let l := K - 2 / 3 * mu                                                          -- line 60
  let strain ← strainMatrix V F
  let C ← elasticC l mu F.length
  let v ← elementVolumes V F volumes
  let A := blockDiag2 (Csr.diags v) (blockDiag2 (Csr.diags v) (Csr.diags v))       -- line 80
  let M ← elementMass V F mass
  elasticAssemble V C strain A (blockDiag2 M M)                                    -- line 86

/-- `np.reshape(X,(-1,1),order='F')` of an array with two columns: first all the first coordinates, then all the second ones -/
def stackF (X : List (Pt 2)) : List ℝ := X.map (fun p => p 0) ++ X.map (fun p => p 1)

/-- `linear_elasticity.py:77-80`: the fixed unknowns (both coordinates of every fixed vertex) -/
def fixedDofs (n : ℕ) : Option (List ℤ × List (Pt 2)) → Option (List ℤ) × QArg ℝ
  | none => (none, .none)
  | some (bb, bc) => (some (bb ++ bb.map (fun z : ℤ => z + (n : ℤ))), .vec (stackF bc))

/-- `linear_elasticity.py:96` -/
def vonMises (s11 s22 s12 : ℝ) : ℝ := Real.sqrt (0.5 * (s11 * s11 - s11 * s22 + s22 * s22 + 3 * s12 * s12))

/-- `linear_elasticity.py:91-96` -/
def faceStress (E : Elastic) (m : ℕ) (U : ℕ → ℝ) : List ℝ :=
  let s : ℕ → ℝ := fun i => E.C.mulVec (fun r => E.strain.mulVec U r) i            -- line 91
  (List.range m).map (fun f => vonMises (s f) (s (m + f)) (s (2 * m + f)))         -- lines 93-96

/-- a list of length `n` from a vector -/
def vecList {n : ℕ} (u : Fin n → ℝ) : List ℝ := List.ofFn u

/-- `linear_elasticity.py:73-99`; `fixed` is the pair `(bb,bc)`.  Arrays whose number of rows is not that of `V` are an error. -/
def linearElasticity (solve : LinSolver ℝ) (garbage : ℕ → ℝ) (V : List (Pt 2)) (F : List Tri) (U0 : List (Pt 2)) (dt : ℝ) (fixed : Option (List ℤ × List (Pt 2)))
    (Ud0 fext : Option (List (Pt 2))) (K mu : ℝ) (volumes : Option (List ℝ)) (mass : Option (Csr ℝ)) : Option (List ℝ × List ℝ) := do
  let n := V.length
  let Ud0 := Ud0.getD (V.map (fun _ => 0))                                         -- lines 73-74
  let fext := fext.getD (V.map (fun _ => 0))                                       -- lines 75-76
  let E ← elasticStiffness V F K mu volumes mass                                   -- line 82
  if U0.length = n ∧ Ud0.length = n ∧ fext.length = n ∧ E.M.nrows = 2 * n ∧ E.M.ncols = 2 * n then
    let A : Matrix (Fin (2 * n)) (Fin (2 * n)) ℝ := Matrix.of fun i j => E.M.get i j + dt ^ 2 * E.K.get i j        -- line 85
    let r : ℕ → ℝ := fun i => dt ^ 2 * (stackF fext).getD i 0 + (stackF U0).getD i 0 + dt * (stackF Ud0).getD i 0
    let c : List ℝ := (List.range (2 * n)).map (fun i => -1.0 * E.M.mulVec r i)    -- lines 86-88
    let cols ← minQuadWithFixed solve garbage A (.vec c) (0 : Matrix (Fin 0) (Fin (2 * n)) ℝ) .none (fixedDofs n fixed).1 (fixedDofs n fixed).2   -- line 88
    match cols with
    | [U] => some (vecList U, faceStress E F.length (fun i => (vecList U).getD i 0))
    | _ => none
  else none

end
end Gpy
