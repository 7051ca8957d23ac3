import Verif.Model.Stl

/-!
# What an STL file says
-/

set_option autoImplicit false
namespace Gpy.Stl
open Gpy.Ply

/-- The contract of text formatting for the floats `fin` (the finite ones): what is printed is one word of visible characters, and scanning text that
begins with it, after blanks, gives `canon x` (the float nearest to the six printed digits) and the text behind it. -/
structure FloatIO.Ok (io : FloatIO) (fin : W32 → Prop) (canon : W32 → W32) : Prop where
  zero : fin zero32
  word : ∀ x, fin x → io.print x ≠ [] ∧ (io.print x).length ≤ 16 ∧ ∀ b ∈ io.print x, 33 ≤ b.val
  scan : ∀ x blanks rest, fin x → (∀ b ∈ blanks, isWs b = true) → (∀ b, rest.head? = some b → isWs b = true) →
    io.scan (blanks ++ io.print x ++ rest) = some (canon x, rest)

/-- a line of a text file, by its meaning -/
inductive Line where
  | solid (name : List Byte)
  | facet (normal : Pt)
  | outer
  | vertex (p : Pt)
  | endloop
  | endfacet
  | endsolid (name : List Byte)
  /-- a line that begins with no keyword -/
  | noise (s : List Byte)

/-- three numbers -/
def text3 (io : FloatIO) (p : Pt) : List Byte := io.print (p 0) ++ [32] ++ io.print (p 1) ++ [32] ++ io.print (p 2)

/-- the text of a line -/
def Line.text (io : FloatIO) : Line → List Byte
  | .solid name => asc (c! "solid") ++ name
  | .facet n => asc (c! "facet normal ") ++ text3 io n
  | .outer => asc (c! "outer loop")
  | .vertex p => asc (c! "vertex ") ++ text3 io p
  | .endloop => asc (c! "endloop")
  | .endfacet => asc (c! "endfacet")
  | .endsolid name => asc (c! "endsolid") ++ name
  | .noise s => s

/-- the words lines may begin with -/
def keywords : List (List Byte) := [kSolid, kEndsolid, kFacet, kEndfacet, kOuter, kEndloop, kVertex]

/-- names have no line breaks; numbers are finite; noise begins with no keyword -/
def Line.Ok (fin : W32 → Prop) : Line → Prop
  | .solid name | .endsolid name => ∀ b ∈ name, b.val ≠ 10
  | .facet p | .vertex p => ∀ i, fin (p i)
  | .noise s => (∀ b ∈ s, b.val ≠ 10) ∧ ∀ k ∈ keywords, ¬ k <+: s.dropWhile isWs
  | _ => True

/-- blanks within a line -/
def Blank (s : List Byte) : Prop := ∀ b ∈ s, b.val = 9 ∨ b.val = 32 ∨ b.val = 13

/-- the lines of one facet -/
def facetLines (n : Pt) (f : Facet) : List Line := [.facet n, .outer, .vertex (f 0), .vertex (f 1), .vertex (f 2), .endloop, .endfacet]

def Line.isNoise : Line → Bool
  | .noise _ => true
  | _ => false

/-- The lines say: one solid with these facets (each with some normal), whatever noise is between. -/
def SaysFacets (ls : List Line) (fs : List Facet) : Prop :=
  ∃ (name name' : List Byte) (ns : List Pt), ns.length = fs.length ∧
    ls.filter (fun l => !l.isNoise) = .solid name :: ((ns.zip fs).flatMap (fun q => facetLines q.1 q.2) ++ [.endsolid name'])

/-- a line as it stands in a file: indented, and with blanks (or a carriage return) behind -/
structure Physical where
  pre : List Byte
  line : Line
  post : List Byte

def Physical.text (io : FloatIO) (l : Physical) : List Byte := l.pre ++ l.line.text io ++ l.post

/-- a text file that may be read: the first line begins with `solid`, lines are not too long, and the file is smaller than eight gigabytes -/
structure TextOk (io : FloatIO) (fin : W32 → Prop) (ls : List Physical) : Prop where
  ok : ∀ l ∈ ls, l.line.Ok fin ∧ Blank l.pre ∧ Blank l.post
  short : ∀ l ∈ ls, (l.text io).length ≤ 256
  first : ∃ name post rest, ls = ⟨[], .solid name, post⟩ :: rest
  chars : ∀ l ∈ ls, ∀ b ∈ l.text io, 9 ≤ b.val
  size : (ls.flatMap (fun l => l.text io ++ [10])).length ≤ 7500000000

/-- the file of these lines -/
def textFile (io : FloatIO) (ls : List Physical) : List Byte := ls.flatMap (fun l => l.text io ++ [10])

/-- a facet of a binary file -/
structure BinFacet where
  normal : Fin 12 → Byte
  corners : Facet
  attr : Fin 2 → Byte

/-- the binary file with this header and these facets, and further bytes behind them -/
def binFile (header : Fin 80 → Byte) (fs : List BinFacet) (rest : List Byte) : List Byte :=
  List.ofFn header ++ leBytes 4 fs.length
    ++ fs.flatMap (fun f => List.ofFn f.normal ++ (List.ofFn f.corners).flatMap (fun p => (List.ofFn p).flatMap (fun x => List.ofFn x)) ++ List.ofFn f.attr) ++ rest

/-- the corners of the faces of a mesh, as floats -/
def Corners {D : Type} (narrow : D → W32) (V : List (Fin 3 → D)) (F : List (Fin 3 → ℕ)) (fs : List Facet) : Prop :=
  fs.length = F.length ∧ ∀ (i : ℕ) f fc, F[i]? = some f → fs[i]? = some fc → ∀ k : Fin 3, ∃ v, V[f k]? = some v ∧ ∀ j, fc k j = narrow (v j)

/-- `(V', F')` shows the triangles `fs`: corner `k` of triangle `i` stands at the right place -/
def Shows {K : Type} (val : W32 → K) (fs : List Facet) (V' : List (List K)) (F' : List (List ℕ)) : Prop :=
  F'.length = fs.length ∧ ∀ (i : ℕ) f, fs[i]? = some f → ∃ t, F'[i]? = some t ∧ t.length = 3 ∧
    ∀ k : Fin 3, ∃ v, t[k.val]? = some v ∧ V'[v]? = some ((List.ofFn (f k)).map val)

/-- `(V', F')` has the faces of `(V, F)`, in the same order, corner by corner; coordinate `x` of `V` has become `conv x` -/
def SameTriangles {D K : Type} (conv : D → K) (V : List (Fin 3 → D)) (F : List (Fin 3 → ℕ)) (V' : List (List K)) (F' : List (List ℕ)) : Prop :=
  F'.length = F.length ∧ ∀ (i : ℕ) f, F[i]? = some f → ∃ t, F'[i]? = some t ∧ t.length = 3 ∧
    ∀ k : Fin 3, ∃ v p, t[k.val]? = some v ∧ V[f k]? = some p ∧ V'[v]? = some [conv (p 0), conv (p 1), conv (p 2)]

end Gpy.Stl
