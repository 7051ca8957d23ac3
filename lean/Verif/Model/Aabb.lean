import Verif.Np.Pt

/-! `initialize_aabbtree.py` and `traverse_aabbtree.py`. -/

namespace Gpy
open Np

noncomputable section
variable {d : ℕ}

/-- One row of the arrays `C, W, CH, PAR, D, tri_indices, split_dir` and of the list `tri_index_list` that
`initialize_aabbtree.py` keeps in parallel. -/
structure AabbNode (d : ℕ) where
  C : Pt d
  W : Pt d
  ch0 : Int
  ch1 : Int
  par : Int
  D : ℕ
  tri : Int
  split : Int
  tris : List ℕ

/-- `initialize_aabbtree.py:66-71`: row of `(vmin_big, vmax_big)` of one element, starting from the sentinels `10000` and
`-10000`.  `none` = `IndexError` of `V[F[:,i],j]` (negative indices, which would wrap around, are not modelled). -/
def elemBox (V : List (Pt d)) (e : List ℕ) : Option (Pt d × Pt d) := do
  let X ← e.mapM (fun i => V[i]?)
  some (fun j => X.foldl (fun acc x => min acc (x j)) 10000, fun j => X.foldl (fun acc x => max acc (x j)) (-10000))

/-- A fresh childless row (lines 155-170). -/
def freshNode (C W : Pt d) (par : Int) (D : ℕ) (tris : List ℕ) : AabbNode d :=
  { C := C, W := W, ch0 := -1, ch1 := -1, par := par, D := D, tri := -1, split := -1, tris := tris }

/-- One half of `subdivide_box` (`initialize_aabbtree.py:132-135` and `172-174` for `left_inds`, `137-140` and `175-177` for
`right_inds`): the new row for the elements at the positions `inds` of `tris`. -/
def halfBox (vmin vmax : List (Pt d)) (tris inds : List ℕ) (par : Int) (D : ℕ) : Option (AabbNode d) := do
  let hs ← inds.mapM (fun k => vmax[k]?)
  let hi ← npAmax hs
  let ls ← inds.mapM (fun k => vmin[k]?)
  let lo ← npAmin ls
  let t ← inds.mapM (fun k => tris[k]?)
  some (freshNode (fun j => 0.5 * (hi j + lo j)) (fun j => hi j - lo j) par D t)

/-- Lines 109-121 of `subdivide_box`: `best_dim` and `sorted_max_values`. -/
def sortAlong (argsort : List ℝ → List ℕ) (vmin vmax : List (Pt d)) : Option (Fin d × List ℕ) := do
  let hi ← npAmax vmax
  let lo ← npAmin vmin
  let best ← npArgmax (fun j => hi j - lo j)                          -- lines 117-118
  some (best, argsort (vmax.map (fun x => x best)))                   -- lines 120-121

/-- `subdivide_box`, `initialize_aabbtree.py:107-180`; `boxes` are the rows of `(vmin_big, vmax_big)`. -/
def subdivideBox (argsort : List ℝ → List ℕ) (boxes : List (Pt d × Pt d)) (i : ℕ) (T : List (AabbNode d)) :
    Option (List (AabbNode d)) := do
  let node ← T[i]?
  let B ← node.tris.mapM (fun t => boxes[t]?)                         -- lines 113-114
  let s ← sortAlong argsort (B.map Prod.fst) (B.map Prod.snd)
  let cl ← halfBox (B.map Prod.fst) (B.map Prod.snd) node.tris (s.2.take (node.tris.length / 2))      -- line 122
    i (node.D + 1)
  let cr ← halfBox (B.map Prod.fst) (B.map Prod.snd) node.tris
    ((s.2.take node.tris.length).drop (node.tris.length / 2)) i (node.D + 1)                          -- line 123
  some (T.set i { node with ch0 := T.length, ch1 := T.length + 1, split := s.1.val } ++ [cl, cr])     -- lines 143-180

/-- The loop of `initialize_aabbtree.py:82-102`.  `none` = a failing assertion, an exception, or not done within `fuel`
rounds. -/
def aabbLoop (argsort : List ℝ → List ℕ) (boxes : List (Pt d × Pt d)) :
    ℕ → ℕ → List (AabbNode d) → Option (List (AabbNode d))
  | fuel, i, T =>
    if T.length ≤ i then some T                                       -- lines 85-86
    else match fuel with
    | 0 => none
    | fuel + 1 => do
      let node ← T[i]?
      if node.ch1 ≠ -1 then none                                      -- line 88
      else if node.tris.length = 0 then none                          -- line 97
      else if 2 ≤ node.tris.length then do                            -- lines 98-100
        let T' ← subdivideBox argsort boxes i T
        aabbLoop argsort boxes fuel (i + 1) T'
      else do                                                         -- lines 101-102
        let t : ℕ ← node.tris[0]?
        aabbLoop argsort boxes fuel (i + 1) (T.set i { node with tri := (t : Int) })

/-- `initialize_aabbtree(V,F,vmin,vmax)` (`initialize_aabbtree.py:50-104`), the loop cut off after `fuel` rounds. -/
def initializeAabbtree (argsort : List ℝ → List ℕ) (V : List (Pt d)) (F : List (List ℕ)) (vmin vmax : Option (Pt d))
    (fuel : ℕ) : Option (List (AabbNode d)) := do
  let lo ← vmin <|> npAmin V                                          -- lines 57-58
  let hi ← vmax <|> npAmax V                                          -- lines 59-60
  let boxes ← F.mapM (elemBox V)
  let root := freshNode (fun j => (lo j + hi j) / 2) (fun j => hi j - lo j) (-1) 1 (List.range F.length)   -- lines 61-80
  aabbLoop argsort boxes fuel 0 [root]

/-- `F = np.linspace(0,V.shape[0]-1,V.shape[0],dtype=int)[:,None]` when `F` is omitted (`initialize_aabbtree.py:50-51`,
`squared_distance.py:147-148`). -/
def pointElements (V : List (Pt d)) : List (List ℕ) := (List.range V.length).map (fun i => [i])

/-- `traverse_aabbtree.py:101-114` for given callbacks: `visit s q node isLeaf` is `traversal_bool_fun` acting on the state
`s`, `addq s queue node` is `add_to_queue`.  `none` = exception, or not done within `fuel` rounds. -/
def traverse {σ : Type} (T : List (AabbNode d)) (visit : σ → AabbNode d → Bool → Option (Bool × σ))
    (addq : σ → List Int → AabbNode d → List Int) : ℕ → List Int → σ → Option σ
  | _, [], s => some s
  | 0, _ :: _, _ => none
  | fuel + 1, q :: queue, s => do
    let node ← npGet? T q                                             -- lines 105-106
    let isLeaf : Bool := node.ch1 = -1
    let r ← visit s node isLeaf                                       -- line 108
    if r.1 && !isLeaf then traverse T visit addq fuel (addq r.2 queue node) r.2       -- lines 110-112
    else traverse T visit addq fuel queue r.2

end
end Gpy
