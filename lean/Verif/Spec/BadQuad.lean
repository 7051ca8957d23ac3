import Verif.Spec.Quadtree

/-!
# Meshes of quadtrees
-/

set_option autoImplicit false
namespace Gpy.BadQuad

variable {K : Type} [Field K] [LinearOrder K] {dim : ℕ}

/-- the corner of a cell on the sides `s` (`true`: the upper side) -/
def corner (c : QuadCell K dim) (s : Fin dim → Bool) : List K := (List.finRange dim).map (fun j => if s j then c.hi j else c.lo j)

/-- the four corners of a square, around it -/
def ring : Fin 4 → Fin 2 → Bool
  | 0 => fun _ => false
  | 1 => fun j => j = 1
  | 2 => fun _ => true
  | 3 => fun j => j = 0

/-- the eight corners of a cube: those below, around, and those above -/
def hex (k : Fin 8) (j : Fin 3) : Bool :=
  if j = 2 then decide (4 ≤ k.val) else ring ⟨k.val % 4, Nat.mod_lt _ (by decide)⟩ (if j = 0 then 0 else 1)

/-- the faces of a cube: below, above, back, front, left, right; `C104_faces_of_cube` says that these are the faces -/
def face : Fin 6 → Fin 4 → Fin 8
  | 0 => fun k => ⟨k.val, by omega⟩
  | 1 => fun k => ⟨k.val + 4, by omega⟩
  | 2 => fun k => if k = 0 then 2 else if k = 1 then 1 else if k = 2 then 5 else 6
  | 3 => fun k => if k = 0 then 3 else if k = 1 then 0 else if k = 2 then 4 else 7
  | 4 => fun k => if k = 0 then 1 else if k = 1 then 0 else if k = 2 then 4 else 5
  | 5 => fun k => if k = 0 then 3 else if k = 1 then 2 else if k = 2 then 6 else 7

open Classical in
/-- the leaves, in the order of the arrays -/
noncomputable def leaves (cells : List (QuadCell K dim)) : List (QuadCell K dim) := cells.filter (fun c => decide c.Childless)

/-- row `r` of `Q` has the corners `p 0, p 1, …` -/
def RowShows {n : ℕ} (V : List (List K)) (Q : List (List ℕ)) (r : ℕ) (p : Fin n → List K) : Prop :=
  ∃ q, Q[r]? = some q ∧ q.length = n ∧ ∀ k : Fin n, ∃ v, q[k.val]? = some v ∧ V[v]? = some (p k)

end Gpy.BadQuad
