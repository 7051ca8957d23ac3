import Verif.Model.Subdivide
import Verif.Np.Pt

/-! # `icosphere.py` -/

set_option autoImplicit false
namespace Gpy

/-- The table `V`, `icosphere.py:67-78`, as exact decimals. -/
def icoTable : List (Fin 3 → ℚ) :=
  [![0, 0, 1],
   ![0.723606797749979, -0.525731112119134, 0.447213595499958],
   ![0.723606797749979, 0.525731112119134, 0.447213595499958],
   ![-0.276393202250021, 0.85065080835204, 0.447213595499958],
   ![-0.894427190999916, 0, 0.447213595499958],
   ![-0.276393202250021, -0.85065080835204, 0.447213595499958],
   ![0.894427190999916, 0, -0.447213595499958],
   ![0.276393202250021, 0.85065080835204, -0.447213595499958],
   ![-0.723606797749979, 0.525731112119134, -0.447213595499958],
   ![-0.723606797749979, -0.525731112119133, -0.447213595499958],
   ![0.276393202250021, -0.85065080835204, -0.447213595499958],
   ![0, 0, -1]]

/-- `V -= np.mean(V, axis=0)[None,:]`, `icosphere.py:79`. -/
def icoCentred : List (Fin 3 → ℚ) :=
  icoTable.map (fun x c => x c - (icoTable.map (fun y => y c)).sum / icoTable.length)

/-- The table `F`, `icosphere.py:82-101`. -/
def icoF : List Tri :=
  [⟨0, 1, 2⟩, ⟨0, 2, 3⟩, ⟨0, 3, 4⟩, ⟨0, 4, 5⟩, ⟨0, 5, 1⟩, ⟨1, 6, 2⟩, ⟨2, 7, 3⟩, ⟨3, 8, 4⟩, ⟨4, 9, 5⟩, ⟨5, 10, 1⟩, ⟨6, 7, 2⟩, ⟨7, 8, 3⟩,
   ⟨8, 9, 4⟩, ⟨9, 10, 5⟩, ⟨10, 6, 1⟩, ⟨6, 11, 7⟩, ⟨7, 11, 8⟩, ⟨8, 11, 9⟩, ⟨9, 11, 10⟩, ⟨10, 11, 6⟩]

noncomputable section

/-- `V /= np.linalg.norm(V, axis=-1)[:,None]`, one row, `icosphere.py:80,105`. -/
def normalizeRow {d : ℕ} (x : Pt d) : Pt d := fun c => x c / pnorm x

/-- `icosphere(n)`, `icosphere.py:65-107`.  (`n` is a natural number: `assert n>=0`.) -/
def icosphere : ℕ → Option (List (Pt 3) × List Tri)
  | 0 => some (icoCentred.map (fun x => normalizeRow (fun c => (x c : ℝ))), icoF)
  | n + 1 => do
    let (V, F) ← icosphere n
    let (o, _) ← upsampleTriangleMesh (some V) F                             -- line 104
    let Vu ← o.Vu
    some (Vu.map normalizeRow, o.Fu)                                         -- line 105

end
end Gpy
