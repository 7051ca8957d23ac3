import Verif.Np.Basic

namespace Gpy
open Np

/-- Model of `array_correspondence.py:61-73` (`src/gpytoolbox/array_correspondence.py`).
`α` is the type of entries (`axis=None`, after the flattening done by numpy), of rows (`axis=0`) or of columns (`axis=1`,
after the transposition of lines 49-54).  `none` is the `IndexError` raised by `mapB[imap]` in line 71 when `mapB` is empty.
Simplification: the checks on `axis` and on the number of dimensions (lines 44-47) are not modelled. -/
def arrayCorrespondence {α : Type*} [LinearOrder α] (A B : List α) : Option (List Int) := do
  let uB := npUnique B                                                            -- line 61
  let mapB := npUniqueIndex B                                                     -- line 61
  let cat := uB ++ A                                                              -- line 64
  let idx := npUniqueIndex cat                                                    -- lines 64-65
  let inv := npUniqueInverse cat
  let imap0 ← npTake idx ((inv.drop uB.length).map (fun i : Nat => (i : Int)))          -- line 69
  let imap := imap0.map (fun x : Nat => if uB.length ≤ x then (-1 : Int) else (x : Int)) -- line 70
  let taken ← npTake mapB imap                                                    -- line 71: mapB[imap]
  return List.zipWith (fun x y => if x < 0 then (-1 : Int) else ((y : Nat) : Int)) imap taken  -- line 71: np.where

end Gpy
