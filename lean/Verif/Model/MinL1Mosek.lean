import Verif.Model.MinL1

/-! `min_l1_with_fixed.py`: the MOSEK branch and the choice of the solver. -/

set_option autoImplicit false
namespace Gpy
open Finset

noncomputable section

/-- boundkeys `fr`, `lo`, `up`, `fx` -/
inductive MoBound where
  | free | lo (v : ℝ) | up (v : ℝ) | fx (v : ℝ)

/-- a row of `moA` or `moF`: coefficients of the unknowns `u`, `z`, `w`, and the constant of `putafeg` -/
structure MoRow where
  u : ℕ → ℝ
  z : ℕ → ℝ
  w : ℝ
  g : ℝ

/-- What the task contains when `optimize` is called: `n` unknowns `u`, `m` unknowns `z` and, if `hasW`, one unknown `w`; costs, bounds of the variables, bounded linear constraints,
affine expressions, and the cones as lists of numbers of affine expressions. -/
structure MosekTask where
  n : ℕ
  m : ℕ
  hasW : Bool
  c : ℕ → ℝ
  bound : ℕ → MoBound
  con : List (MoRow × MoBound)
  F : ℕ → MoRow
  rquad : List (List ℕ)
  quad : List (List ℕ)

/-- `task.appendvars`, `min_l1_with_fixed.py:305` -/
def MosekTask.vars (T : MosekTask) : ℕ := T.n + T.m + (if T.hasW then 1 else 0)

/-- MOSEK: whether a license is found, the sparse Cholesky factorisation of lines 198-210 (`Lt` for `Q`), and the optimiser (`none`: no status `optimal`).  Errors that are no license errors are failures of these. -/
structure MosekLib where
  licensed : Bool
  chol : Mat → Option Mat
  opt : MosekTask → Option (ℕ → ℝ)

/-- `L.T` -/
def transMat (L : Mat) : Mat := ⟨L.ncols, L.nrows, fun i j => L.get j i⟩

/-- `min_l1_with_fixed.py:193-215` -/
def moFactor (chol : Mat → Option Mat) : Option Mat → Option Mat → Option (Option Mat)
  | some _, some _ => none
  | some Q, none => (chol Q).map some
  | none, some L => some (some (transMat L))
  | none, none => some none

/-- the task, `min_l1_with_fixed.py:248-358`; `Lt` has `lt` rows -/
def moTask (n m d : ℕ) (G : Mat) (c : List ℝ) (k : List ℕ) (y : List ℝ) (A : Option Mat) (b : List ℝ) (Lt : Option Mat) : MosekTask :=
  let lt := (Lt.map (fun (L : Mat) => L.nrows)).getD 0                                         -- line 215
  let off := if d = 1 then 0 else d * m + m
  { n := n, m := m, hasW := decide (lt ≠ 0)
    c := fun j => if j < n then c.getD j 0 else 1                                      -- lines 273-277
    bound := (k.zip y).foldl (fun B p => Function.update B p.1 (.fx p.2)) (fun j => if j < n then .free else .lo 0)    -- lines 313-317, 333-335
    con := (match A with                                                               -- lines 249-268, 326-330
        | none => []
        | some A => (List.range A.nrows).map (fun r => (⟨A.get r, 0, 0, 0⟩, .fx (b.getD r 0)))) ++
      (if d = 1 then (List.range m).map (fun r => (⟨fun j => -G.get r j, unitAt r (-1), 0, 0⟩, .up 0)) ++ (List.range m).map (fun r => (⟨G.get r, unitAt r (-1), 0, 0⟩, .up 0)) else [])
    F := fun r =>                                                                      -- lines 280-295, 344
      if r < off then (if r < d * m then ⟨G.get r, 0, 0, 0⟩ else ⟨0, unitAt (r - d * m) 1, 0, 0⟩)
      else if r < off + lt then ⟨((Lt.map (fun (L : Mat) => L.get)).getD 0) (r - off), 0, 0, 0⟩
      else if r = off + lt then ⟨0, 0, 1, 0⟩ else ⟨0, 0, 0, 1⟩
    rquad := if lt ≠ 0 then [(off + lt + 1) :: (off + lt) :: (List.range lt).map (fun t => off + t)] else []    -- lines 347-350
    quad := if d = 1 then [] else (List.range m).map (fun i => (d * m + i) :: (List.range d).map (fun j => d * i + j)) }   -- lines 353-358

open Classical in
/-- `min_l1_with_fixed.py:160-358`; `none`: an error that has nothing to do with licenses.  Indices of `k` beyond the last variable are refused by `putvarbound`. -/
def moData (chol : Mat → Option Mat) (a : L1Args) : Option MosekTask := do
  let n ← inferN a
  let G := a.G.getD (eyeMat n)
  let c := a.c.getD (List.replicate n 0)
  let m := G.nrows / a.d
  let Lt ← moFactor chol a.Q a.L
  let T := moTask n m a.d G c (a.k.getD []) (a.y.getD []) a.A (a.b.getD []) Lt
  if 1 ≤ a.d ∧ shapesOk n m a.d G c a.k a.y a.A a.b a.Q ∧ (∀ L ∈ Lt, L.ncols = n) ∧ ∀ i ∈ a.k.getD [], i < T.vars then some T else none

inductive MoOut where
  | value (u : List ℝ) | license | error

/-- `_min_l1_with_fixed_mosek`, `min_l1_with_fixed.py:140-385`.  A missing license is noticed once the arguments have been checked. -/
def minL1Mosek (lib : MosekLib) (a : L1Args) : MoOut :=
  match moData lib.chol a with
  | none => .error
  | some T =>
    if lib.licensed then
      match lib.opt T with
      | some x => .value ((List.range T.n).map x)
      | none => .error
    else .license

inductive L1Solver where
  | default | mosek | scs | other

/-- `min_l1_with_fixed`, `min_l1_with_fixed.py:84-135`; `lib`: the module `mosek`, if it is installed -/
def minL1 (lib : Option MosekLib) (scs : ScsData → Option (ℕ → ℝ)) (solver : L1Solver) (a : L1Args) : Option (List ℝ) :=
  match solver with
  | .default =>
    match lib with
    | none => minL1Scs scs a                                                           -- lines 89-93
    | some lib =>
      match minL1Mosek lib a with
      | .value u => some u
      | .license => minL1Scs scs a                                                     -- lines 119-123
      | .error => none
  | .mosek =>
    match lib with
    | none => none
    | some lib =>
      match minL1Mosek lib a with
      | .value u => some u
      | _ => none
  | .scs => minL1Scs scs a
  | .other => none

end
end Gpy
