import Verif.Model.FineTune
import Verif.Model.Raster

/-!
# `reach_for_the_arcs.py`: the whole

Exact arithmetic.  Parameters: `point_cloud_to_mesh`, and everything that is a parameter of the parts.
-/

set_option autoImplicit false
namespace Gpy.Arcs
open Classical

noncomputable section

variable {d : ℕ}

/-- `_sdf_to_point_cloud(U, S, …)`, `reach_for_the_arcs.py:284-395` -/
def sdfToCloud [NeZero d] (eR : Raster.Env d) (eF : Env d) (m : ℕ) (U : ℕ → Pt d) (S : ℕ → ℝ) (res nLocal iters bs numSph : Int) (tol clamp : ℝ) : Option (List (Row d)) :=
  (Raster.pyRaster eR m U S res numSph true).bind (fun P => if P = [] then some [] else pyFeasible eF m U S P nLocal iters bs tol clamp)

/-- one of the groups `pos` and `neg`, `:149-181`: its rows with the numbers of the samples (`pos[f_pos]`); nothing is computed for an empty group -/
def group [NeZero d] (eR : Raster.Env d) (eF : Env d) (G : List ℕ) (U : ℕ → Pt d) (S : ℕ → ℝ) (res nLocal iters bs numSph : Int) (tol clamp : ℝ) : Option (List (Row d)) :=
  if G = [] then some []
  else (sdfToCloud eR eF G.length (fun k => U (G.getD k 0)) (fun k => S (G.getD k 0)) res nLocal iters bs numSph tol clamp).map
    (List.map (fun r => { r with index := G.getD r.index 0 }))

/-- what comes from outside: the environments of the two groups, the random numbers, sorting and threads of the fine tuning, and `point_cloud_to_mesh` (with what libigl computes from
a mesh that is not empty) -/
structure ArcEnv (d : ℕ) where
  rPos : Raster.Env d
  fPos : Env d
  rNeg : Raster.Env d
  fNeg : Env d
  choice : ℕ → ℕ → ℕ → List ℕ
  shuffle : ℕ → List ℕ → List ℕ
  sh : ℕ → List ℕ → List ℕ
  slices : ℕ → ℕ → List (List ℕ)
  sched : ℕ → ℕ → List (ℕ × ℕ)
  sort : List ℕ → List ℕ
  sortC : List (ℕ × Pt d) → List (ℕ × Pt d)
  mesh : List (Pt d × Pt d) → List (Pt d) × List (List ℕ)
  recon : List (Row d) → Recon d

/-- the arguments with default values -/
structure ArcArgs where
  tuneIters : Int
  bs : Int
  numSph : Int
  res : Int
  maxP : Int
  nLocal : Int
  iters : Int
  lt : ℝ
  tol : ℝ
  clamp : ℝ

/-- what is returned with `return_point_cloud=True` -/
structure ArcOut (d : ℕ) where
  V : List (Pt d)
  F : List (List ℕ)
  P : List (Pt d)
  N : List (Pt d)

/-- `trans` and `scale`, `:128-130` -/
def transOf (n : ℕ) (U : ℕ → Pt d) : Pt d := fun j => Raster.minOver n (fun i => U i j)
def scaleOf [NeZero d] (n : ℕ) (U : ℕ → Pt d) : ℝ :=
  (List.finRange d).foldl (fun a j => max a (Raster.maxOver n (fun i => U i j - transOf n U j))) (Raster.maxOver n (fun i => U i 0 - transOf n U 0))

/-- the environment of the iteration `it` of the fine tuning -/
def tuneEnv (env : ArcEnv d) (n : ℕ) (bs : Int) (it : ℕ) : IterEnv d :=
  ⟨batchOf (env.choice it) (env.shuffle it) n bs, env.sh it (List.range n), env.slices it n, env.sched it⟩

/-- the points and normals of a cloud -/
def pn (R : List (Row d)) : List (Pt d × Pt d) := R.map (fun r => (r.point, r.normal))

/-- `reach_for_the_arcs(U, S, …, return_point_cloud=True)`, `:11-281`, with the resolution and the number of local searches given (`:118-121` compute them from the number of samples).
`none`: an exception (no samples; all samples at one place: the scale is zero, and the division gives not-a-numbers that fail the assertion `:342`; other assertions).  The
cases of `:183-190` all give the rows of the positive samples, then those of the negative ones; no cloud (`None`) counts as an empty one. -/
def reachArcs [NeZero d] (env : ArcEnv d) (a : ArcArgs) (n : ℕ) (U : ℕ → Pt d) (S : ℕ → ℝ) : Option (ArcOut d) :=
  if ¬ (d = 2 ∨ d = 3) then none
  else if n = 0 then none
  else
    let tr := transOf n U
    let sc := scaleOf n U
    if sc = 0 then none
    else
      let U' : ℕ → Pt d := fun i j => (U i j - tr j) / sc
      let S' : ℕ → ℝ := fun i => S i / sc
      let cl := a.clamp / sc
      let back : Pt d → Pt d := fun p j => sc * p j + tr j
      let neg := (List.range n).filter (fun i => S' i < 0)
      let pos := (List.range n).filter (fun i => ¬ S' i < 0)
      (group env.rPos env.fPos pos U' S' a.res a.nLocal a.iters a.bs a.numSph a.tol cl).bind (fun Rp =>
        (group env.rNeg env.fNeg neg U' S' a.res a.nLocal a.iters a.bs a.numSph a.tol cl).bind (fun Rn =>
          let C := Rp ++ Rn
          if C = [] then some ⟨[], [], [], []⟩
          else
            (fineTune U' S' (fun R => if (env.mesh (pn R)).1 = [] then none else some (env.recon R)) env.sort env.sortC (tuneEnv env n a.bs) a.tuneIters a.maxP a.nLocal a.iters a.lt
              a.tol cl C).bind (fun R =>
                let VF := if R.length < 2 then ([], []) else env.mesh (pn R)
                if VF.1 = [] then some ⟨VF.1, VF.2, R.map (fun r => back r.point), R.map Row.normal⟩
                else some ⟨VF.1.map back, VF.2, R.map (fun r => back r.point), R.map Row.normal⟩)))

end

end Gpy.Arcs
