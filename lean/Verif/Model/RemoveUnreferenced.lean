import Verif.Np.Basic

/-! `remove_unreferenced.py`, `remove_duplicate_vertices.py`. -/

set_option autoImplicit false
namespace Gpy
open Np

variable {α : Type}

/-- `I[J] = vals` (fancy assignment, in order; the last assignment to an index wins).  An index out of range raises `IndexError`. -/
def npPut {β : Type} (I : List β) (J : List Int) (vals : List β) : Option (List β) :=
  (J.zip vals).foldlM (fun (acc : List β) (jv : Int × β) =>
    if 0 ≤ jv.1 ∧ jv.1 < acc.length then some (acc.set jv.1.toNat jv.2)
    else if jv.1 < 0 ∧ -(acc.length : Int) ≤ jv.1 then some (acc.set (jv.1 + acc.length).toNat jv.2)
    else none) I

/-- `np.max` of an integer array; raises `ValueError` (`none`) on an empty one. -/
def npMaxInt : List Int → Option Int
  | [] => none
  | x :: xs => some (xs.foldl max x)

/-- `remove_unreferenced(V,F,return_maps=True)`, `remove_unreferenced.py:68-94`: `(newV,newF,I,J)`.  `F` is passed as the flat list of
its entries: its shape only matters in line 90, which gives `newF` the shape of `F`.  `V` is the list of its rows.
Lines 76-82 (no distinct entries) are never reached because `np.max(F)` of an empty array raises first. -/
def removeUnreferenced (V : Option (List α)) (F : List Int) : Option (Option (List α) × List Int × List Int × List Int) :=
  if ¬ (F.all (fun x => decide (x ≥ -1))) then none                             -- line 68
  else
    match npMaxInt F with                                                       -- lines 70, 73
    | none => none
    | some mx =>
      let n : Int := match V with | none => mx + 1 | some V => V.length         -- lines 69-72
      if V.isSome ∧ ¬ (mx < n) then none                                        -- line 73
      else
        let J := npUnique F                                                     -- line 75
        let newF : List Int := (npUniqueInverse F).map (fun k : ℕ => (k : Int))
        let m1 : Bool := J.head? = some (-1)                                    -- line 83
        let J' := if m1 then J.tail else J                                      -- line 84
        let newF' := if m1 then newF.map (fun x => x - 1) else newF             -- line 85
        let I0 := List.replicate (if m1 then n.toNat + 1 else n.toNat) (-1 : Int)   -- lines 86, 88
        (npPut I0 J' ((List.range J'.length).map (fun k : ℕ => (k : Int)))).bind (fun I =>     -- line 89
          match V with                                                          -- line 91
          | none => some (none, newF', I, J')
          | some V => (npTake V J').map (fun V2 => (some V2, newF', I, J')))

end Gpy
