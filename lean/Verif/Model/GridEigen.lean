import Verif.Model.Generators
import Verif.Model.Biharmonic
import Verif.Np.Pt

/-! `grid_laplacian_eigenfunctions.py`. -/

set_option autoImplicit false
namespace Gpy
open Np

noncomputable section

/-- `grid_laplacian_eigenfunctions.py:48-55`, the first output of `psi` at one point -/
def psiAt {d : ℕ} (N : Fin d → ℕ) (l v : Fin d → ℝ) : ℝ :=
  (List.finRange d).foldl (fun out dd => out * Real.cos (N dd * Real.pi * v dd / l dd)) 1

/-- `grid_laplacian_eigenfunctions.py:73-74,100-101`: the value of one candidate -/
def candVal {d : ℕ} (N : Fin d → ℕ) (l : Fin d → ℝ) : ℝ :=
  (List.finRange d).foldl (fun acc dd => acc + Real.pi ^ 2 * ((N dd / l dd) ^ 2)) 0

/-- grid points of the planar branch, `grid_laplacian_eigenfunctions.py:85-87`: `meshgrid` puts `x` along the columns, `reshape` reads row by row -/
def eigGrid2 (g : Fin 2 → ℕ) (l : Fin 2 → ℝ) : List (Pt 2) :=
  (List.range (g 1)).flatMap (fun j => (List.range (g 0)).map (fun i => ![linspace 0 (l 0) (g 0) i, linspace 0 (l 1) (g 1) j]))

/-- grid points of the spatial branch, `grid_laplacian_eigenfunctions.py:59-60`: `indexing='ij'`, read with the first index fastest -/
def eigGrid3 (g : Fin 3 → ℕ) (l : Fin 3 → ℝ) : List (Pt 3) :=
  (List.range (g 2)).flatMap (fun k => (List.range (g 1)).flatMap (fun j => (List.range (g 0)).map (fun i =>
    ![linspace 0 (l 0) (g 0) i, linspace 0 (l 1) (g 1) j, linspace 0 (l 2) (g 2) k])))

/-- `grid_laplacian_eigenfunctions.py:76-83,102-110`: sort the candidates, keep `num`, fill the columns; a column without a candidate keeps its ones -/
def eigFill {d : ℕ} (argsort : List ℝ → List ℕ) (num : ℕ) (l : Fin d → ℝ) (v : List (Pt d)) (cnt : ℕ) (cand : ℕ → Fin d → ℕ) : Mat :=
  let vals := (List.range cnt).map (fun k => candVal (cand k) l)
  let relevant := (argsort vals).take num
  ⟨v.length, num, fun r s => match v[r]?, relevant[s]? with
    | some p, some k => psiAt (cand k) l p
    | some _, none => 1
    | none, _ => 0⟩

/-- `grid_laplacian_eigenfunctions.py:85-115`: `dim` other than 3 (the code reads `gs[0]`, `gs[1]`, so it is meant for planar grids).
A side of length zero is left out (`0/0` gives `nan`): `none`. -/
def gridEig2 (argsort : List ℝ → List ℕ) (num : ℕ) (g : Fin 2 → ℕ) (l : Fin 2 → ℝ) : Option Mat :=
  if ∃ k, l k = 0 then none
  else some (eigFill argsort num l (eigGrid2 g l) (num * num) (fun k => ![k / num, k % num]))        -- lines 89, 92, 94

/-- `grid_laplacian_eigenfunctions.py:59-83,115`: `dim==3`.  `round(np.sqrt(q))` of an integer `q`: the root of an integer is never
halfway between two integers, so the rule for ties does not matter. -/
def gridEig3 (argsort : List ℝ → List ℕ) (num : ℕ) (g : Fin 3 → ℕ) (l : Fin 3 → ℝ) : Option Mat :=
  let N := ⌊Real.sqrt ((num / 8 : ℕ) : ℝ) + 1 / 2⌋₊                                            -- line 62
  if ∃ k, l k = 0 then none
  else some (eigFill argsort num l (eigGrid3 g l) (N * N * N) (fun k => ![k / (N * N), k / N % N, k % N]))   -- lines 65-67

end
end Gpy
