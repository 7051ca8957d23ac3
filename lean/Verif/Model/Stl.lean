import Verif.Model.Ply
import Verif.Model.RemoveDuplicate

/-!
# STL files: `cpp/microstl/microstl.h`, `cpp/microstl/microstl_wrappers.cpp`, `write_mesh.py:_write_stl`, `read_mesh.py:_read_stl`

A file is a list of bytes.  A `float` is its four bytes (little-endian machine).  `none` stands for an exception in Python, whatever the message, and
for an index outside `V`.
-/

set_option autoImplicit false
namespace Gpy.Stl
open Gpy.Ply

/-- three `float`s -/
abbrev Pt := Fin 3 → W32
/-- `Facet` without its normal, `microstl.h:675`: the three corners -/
abbrev Facet := Fin 3 → Pt

/-- the characters of a text -/
def asc (s : List Char) : List Byte := s.map (fun c => ⟨c.toNat % 256, Nat.mod_lt _ (by decide)⟩)

/-- Text formatting of `float`s: `os << x` with default precision, and `ss >> x`, which also skips blanks and leaves the rest of the text. -/
structure FloatIO where
  print : W32 → List Byte
  scan : List Byte → Option (W32 × List Byte)

/-! ## reading -/

/-- `isWhiteSpace`, `microstl.h:192-195` -/
def isWs (b : Byte) : Bool := b.val = 9 || b.val = 32 || b.val = 13 || b.val = 10

/-- `stringTrim`, `microstl.h:197-227` -/
def trim (s : List Byte) : List Byte := ((s.dropWhile isWs).reverse.dropWhile isWs).reverse

/-- `stringParseThreeValues`, `microstl.h:236-252` -/
def scan3 (io : FloatIO) (s : List Byte) : Option Pt :=
  (io.scan s).bind (fun a => (io.scan a.2).bind (fun b => (io.scan b.2).map (fun c => fun i => if i = 0 then a.1 else if i = 1 then b.1 else c.1)))

/-- `readNextLine`, `microstl.h:171-190`, repeated until the stream ends.  `g` is the uninitialised byte that is looked at when `is.read` fails at the end
of the file.  `none` = a line over the limit.  (The code reads and treats the lines one by one; an error in either ends in an exception.) -/
def lines (g : Byte) : List Byte → List Byte → Option (List (List Byte))
  | [], out => if g.val = 10 then some [out] else if out.length > 256 then some [] else some [out ++ [g]]
  | b :: s, out => if b.val = 10 then (lines g s []).map (fun r => out :: r) else if out.length > 256 then none else lines g s (out ++ [b])

/-- the variables of the state machine, `microstl.h:287-293` (without those for normals) -/
structure St where
  solid : Bool
  facet : Bool
  loop : Bool
  solids : ℕ
  loops : ℕ
  verts : ℕ
  v : Facet
  out : List Facet

def kSolid : List Byte := asc (c! "solid")
def kEndsolid : List Byte := asc (c! "endsolid")
def kFacet : List Byte := asc (c! "facet normal")
def kEndfacet : List Byte := asc (c! "endfacet")
def kOuter : List Byte := asc (c! "outer loop")
def kEndloop : List Byte := asc (c! "endloop")
def kVertex : List Byte := asc (c! "vertex")

/-- One trimmed line, `microstl.h:317-406`.  In the code the tests follow one another without `else`; no keyword is the beginning of another, so at most
one applies. -/
def step (io : FloatIO) (st : St) (line : List Byte) : Option St :=
  if kSolid.isPrefixOf line then
    if st.solid || st.solids != 0 then none else some { st with solid := true }
  else if kEndsolid.isPrefixOf line then
    if !st.solid || st.facet || st.loop then none else some { st with solid := false, solids := st.solids + 1 }
  else if kFacet.isPrefixOf line then
    if !st.solid || st.loop || st.facet then none else (scan3 io (trim (line.drop 12))).map (fun _ => { st with facet := true })
  else if kEndfacet.isPrefixOf line then
    if !st.solid || st.loop || !st.facet || st.loops != 1 then none else some { st with facet := false, loops := 0, out := st.out ++ [st.v] }
  else if kOuter.isPrefixOf line then
    if !st.solid || !st.facet || st.loop then none else some { st with loop := true }
  else if kEndloop.isPrefixOf line then
    if !st.solid || !st.facet || !st.loop || st.verts != 3 then none else some { st with loop := false, loops := st.loops + 1, verts := 0 }
  else if kVertex.isPrefixOf line then
    if !st.solid || !st.facet || !st.loop || st.verts ≥ 3 then none
    else (scan3 io (trim (line.drop 6))).map (fun p => { st with v := fun i => if i.val = st.verts then p else st.v i, verts := st.verts + 1 })
  else some st

/-- `readAsciiStream`, `microstl.h:284-413` -/
def readAscii (io : FloatIO) (g : Byte) (s : List Byte) : Option (List Facet) :=
  (lines g s []).bind (fun ls =>
    (ls.foldlM (fun st l => step io st (trim l)) (⟨false, false, false, 0, 0, 0, fun _ _ _ => 0, []⟩ : St)).bind (fun st =>
      if st.solid || st.facet || st.loop || st.solids == 0 then none else some st.out))

/-- the facets of a binary file, `microstl.h:438-452`: 50 bytes each, the normal first; normal and attributes are not used -/
def binFacets : ℕ → List Byte → Option (List Facet)
  | 0, _ => some []
  | n + 1, s => (takeBytes 50 s).bind (fun q => (binFacets n q.2).map (fun r => (fun k c => valAt 4 q.1 (12 + 12 * k.val + 4 * c.val)) :: r))

/-- `readBinaryStream`, `microstl.h:415-455` -/
def readBinary (s : List Byte) : Option (List Facet) :=
  (takeBytes 80 s).bind (fun h => (takeBytes 4 h.2).bind (fun q =>
    if leVal q.1 = 0 then none else if leVal q.1 > 500000000 then none else binFacets (leVal q.1) q.2))

/-- `isAsciiFormat`, `microstl.h:128-169` -/
def isAscii (s : List Byte) : Bool :=
  kSolid.isPrefixOf s && !(decide (84 ≤ s.length) && decide (s.length = 84 + leVal ((s.drop 80).take 4) * 50))

/-- `readStlStream`, `microstl.h:113-120` -/
def readSoup (io : FloatIO) (g : Byte) (s : List Byte) : Option (List Facet) := if isAscii s then readAscii io g s else readBinary s

/-- `read_stl`, `microstl_wrappers.cpp:5-36`: three rows of `V` for each facet, `F` counts them; `val` is the number that a `float` stands for -/
def soup {K : Type} (val : W32 → K) (fs : List Facet) : List (List K) × List (List ℕ) :=
  (fs.flatMap (fun f => (List.ofFn f).map (fun p => (List.ofFn p).map val)),
   (List.range fs.length).map (fun i => [i * 3, i * 3 + 1, i * 3 + 2]))

/-- the rows of an array with three columns -/
def rows3 : List ℕ → List (List ℕ)
  | a :: b :: c :: r => [a, b, c] :: rows3 r
  | _ => []

/-- `_read_stl`, `read_mesh.py:229-248` -/
def readStl {K : Type} [Field K] [LinearOrder K] [IsStrictOrderedRing K] [FloorRing K] (io : FloatIO) (g : Byte) (val : W32 → K) (merge : Bool) (s : List Byte) :
    Option (List (List K) × List (List ℕ)) :=
  (readSoup io g s).bind (fun fs =>
    let VF := soup val fs
    if merge then (removeDuplicateVerticesFaces VF.1 0 (VF.2.flatten.map (fun k : ℕ => (k : Int)))).map (fun r => (r.1, rows3 r.2.2.2))
    else some VF)

/-! ## writing -/

/-- the corners of the faces, `microstl_wrappers.cpp:44-58`; `narrow` is the conversion from `double` to `float` -/
def facetsOf {D : Type} (narrow : D → W32) (V : List (Fin 3 → D)) (F : List (Fin 3 → ℕ)) : Option (List Facet) :=
  F.mapM (fun f => (V[f 0]?).bind (fun a => (V[f 1]?).bind (fun b => (V[f 2]?).map (fun c =>
    fun k j => narrow ((if k = 0 then a else if k = 1 then b else c) j)))))

/-- a `float` that is zero -/
def zero32 : W32 := fun _ => 0

/-- three numbers and the end of a line -/
def print3 (io : FloatIO) (p : Pt) : List Byte := io.print (p 0) ++ [32] ++ io.print (p 1) ++ [32] ++ io.print (p 2) ++ [10]

/-- one facet, `microstl.h:579-594`; the normals of the new facets are zero -/
def asciiFacet (io : FloatIO) (f : Facet) : List Byte :=
  asc (c! "  facet normal ") ++ print3 io (fun _ => zero32) ++ asc (c! "    outer loop\n") ++ asc (c! "      vertex ") ++ print3 io (f 0)
    ++ asc (c! "      vertex ") ++ print3 io (f 1) ++ asc (c! "      vertex ") ++ print3 io (f 2) ++ asc (c! "    endloop\n") ++ asc (c! "  endfacet\n")

/-- `writeAsciiStream`, `microstl.h:569-597` -/
def writeAscii (io : FloatIO) (fs : List Facet) : List Byte := asc (c! "solid microstl\n") ++ fs.flatMap (asciiFacet io) ++ asc (c! "endsolid\n")

/-- the nine floats of a facet -/
def bytes9 (f : Facet) : List Byte := (List.ofFn f).flatMap (fun p => (List.ofFn p).flatMap (fun x => List.ofFn x))

/-- `writeBinaryStream`, `microstl.h:599-632`; `getHeader`, `microstl.h:497` -/
def writeBinary (fs : List Facet) : List Byte :=
  asc (c! "microstl") ++ List.replicate 72 0 ++ leBytes 4 fs.length
    ++ fs.flatMap (fun f => List.replicate 12 0 ++ bytes9 f ++ List.replicate 2 0)

/-- `write_stl`, `microstl_wrappers.cpp:38-79`, `_write_stl`, `write_mesh.py:171-183` -/
def writeStl {D : Type} (io : FloatIO) (narrow : D → W32) (binary : Bool) (V : List (Fin 3 → D)) (F : List (Fin 3 → ℕ)) : Option (List Byte) :=
  (facetsOf narrow V F).map (fun fs => if binary then writeBinary fs else writeAscii io fs)

end Gpy.Stl
