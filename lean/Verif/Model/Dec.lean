import Verif.Model.HalfedgeEdgeMap
import Verif.Np.Sparse

namespace Gpy
open Np

/-- `np.max(F)+1` (raises on an empty array). -/
def npMaxSucc (F : List Tri) : Option ℕ :=
  if F = [] then none else some (F.foldr (fun t m => max (max t.a (max t.b t.c)) m) 0 + 1)

/-- integer indices handed to scipy; a negative index raises -/
def indexNat (l : List Int) : Option (List ℕ) := l.mapM (fun i => if 0 ≤ i then some i.toNat else none)

/-- `dec_d0.py:39-53`. -/
def decD0 (K : Type) [Ring K] (F : List Tri) (E : Option (List Edge)) (n : Option ℕ) : Option (Csr K) := do
  let n ← match n with | some n => some n | none => npMaxSucc F                              -- lines 41-42
  let E ← match E with | some E => some E | none => (halfedgeEdgeMap F).map (fun o => o.E)   -- lines 44-45
  let i := List.range E.length ++ List.range E.length                                        -- line 47
  let j := E.map (fun e => e.s) ++ E.map (fun e => e.t)                                      -- line 48
  let k := List.replicate E.length (1 : K) ++ List.replicate E.length (-1 : K)               -- lines 49-50
  csrMatrix k i j E.length n                                                                 -- line 51

/-- `dec_d1.py:38-53`. -/
def decD1 (K : Type) [Ring K] (F : List Tri) (EToHe : Option (List ((Int × Int) × (Int × Int)))) : Option (Csr K) := do
  let EToHe ← match EToHe with | some E => some E | none => (halfedgeEdgeMap F).map (fun o => o.EToHe)  -- lines 40-41
  let se := EToHe.map (fun p => decide (0 ≤ p.2.1))                                          -- line 44
  let i ← indexNat (EToHe.map (fun p => p.1.1) ++ (npMask EToHe se).map (fun p => p.2.1))    -- line 46
  let j := List.range EToHe.length ++ npMask (List.range EToHe.length) se                    -- lines 47-48
  let k := List.replicate EToHe.length (1 : K) ++ List.replicate (se.count true) (-1 : K)    -- lines 49-50
  csrMatrix k i j F.length EToHe.length                                                      -- line 51

end Gpy
