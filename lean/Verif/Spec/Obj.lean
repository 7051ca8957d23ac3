import Mathlib.Data.List.Basic
import Mathlib.Algebra.Ring.Int.Defs

/-! What an OBJ file written for a mesh says. -/

set_option autoImplicit false
namespace Gpy.Spec

variable {ν : Type}

/-- The texture (normal) faces in effect: those given, or the faces themselves if there is one texture coordinate (normal) per vertex, or none
(docstring of `write_mesh`: "Ft … default None: UV faces equal F"). -/
def effFaces (V : List (List ν)) (F : List (List ℤ)) (UV : Option (List (List ν))) (Ft : Option (List (List ℤ))) : Option (List (List ℤ)) :=
  match Ft, UV with
  | some t, _ => some t
  | none, some uv => if uv.length = V.length then some F else none
  | none, none => none

/-- A mesh file holds no index where there is none; the readers return `-1` there. -/
def orMinusOne (F : List (List ℤ)) (Ft : Option (List (List ℤ))) : List (List ℤ) := Ft.getD (F.map (fun _ => [-1, -1, -1]))

/-- a matrix with `d` columns -/
def HasCols {α : Type} (d : ℕ) (M : List (List α)) : Prop := ∀ r ∈ M, r.length = d

/-- an array with no rows is returned as `None` by the Python reader -/
def orNone {α : Type} (M : List α) : Option (List α) := if M.isEmpty then none else some M

/-- the shapes of the arguments of `write_mesh` -/
structure ObjOk (V : List (List ν)) (F : List (List ℤ)) (UV : Option (List (List ν))) (Ft : Option (List (List ℤ)))
    (N : Option (List (List ν))) (Fn : Option (List (List ℤ))) : Prop where
  hV : ∃ d, 0 < d ∧ HasCols d V
  hF : HasCols 3 F
  hUV : ∃ d, 0 < d ∧ HasCols d (UV.getD [])
  hN : ∃ d, 0 < d ∧ HasCols d (N.getD [])
  hFt : ∀ m ∈ Ft, HasCols 3 m ∧ m.length = F.length
  hFn : ∀ m ∈ Fn, HasCols 3 m ∧ m.length = F.length

/-- the names of the file formats -/
def formatNames : List (List Char) := [['o', 'b', 'j'], ['s', 't', 'l'], ['p', 'l', 'y']]

end Gpy.Spec
