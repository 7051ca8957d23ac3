import Verif.Model.Ply

/-!
# What a PLY file says

A document is a list of elements; an element has a name, properties and rows; a row has one cell for each property; a cell is a list of values (one
value for a scalar property); a value is its bytes.
-/

set_option autoImplicit false
namespace Gpy.Ply

structure DProp where
  name : Name
  ty : Ty
  list : Option Ty

structure DElem where
  name : Name
  props : List DProp
  rows : List (List (List (List Byte)))

abbrev Doc := List DElem

/-- integer types -/
def Ty.isInt : Ty → Bool
  | .int8 | .uint8 | .int16 | .uint16 | .int32 | .uint32 => true
  | _ => false

/-- the cell fits the property: values of the right width; one value, or a list whose length the type of list sizes can hold (as a positive
signed number) -/
def CellOk (p : DProp) (c : List (List Byte)) : Prop :=
  p.ty ≠ .invalid ∧ (∀ v ∈ c, v.length = p.ty.stride) ∧
    match p.list with
    | none => c.length = 1
    | some lt => lt.isInt = true ∧ 2 * c.length < 256 ^ lt.stride

/-- every row has a fitting cell for each property -/
def Doc.Ok (d : Doc) : Prop := ∀ e ∈ d, ∀ row ∈ e.rows, List.Forall₂ CellOk e.props row

/-- the words of a header line for a property -/
def dpropLine (p : DProp) : HLine :=
  match p.list with
  | some lt => [.word (c! "property"), .word (c! "list"), .word lt.str, .word p.ty.str, .word p.name]
  | none => [.word (c! "property"), .word p.ty.str, .word p.name]

/-- the lines for an element -/
def delemLines (e : DElem) : List HLine := [.word (c! "element"), .word e.name, .num e.rows.length] :: e.props.map dpropLine

/-- the word for a format -/
def Fmt.str : Fmt → Name
  | .ascii => c! "ascii"
  | .little => c! "binary_little_endian"
  | .big => c! "binary_big_endian"

/-- the header of a document, with comments -/
def Doc.header (fmt : Fmt) (comments : List (List HTok)) (d : Doc) : List HLine :=
  [.word (c! "ply")] :: [.word (c! "format"), .word fmt.str, .word (c! "1.0")]
    :: (comments.map (fun cs => .word (c! "comment") :: cs) ++ (d.flatMap delemLines ++ [[.word (c! "end_header")]]))

/-- a cell in the payload -/
def encCell (pt : Put) (p : DProp) (c : List (List Byte)) : List Byte :=
  match p.list with
  | none => c.flatMap (pt.val p.ty)
  | some lt => pt.count lt c.length ++ c.flatMap (pt.val p.ty)

/-- a row in the payload -/
def encRow (pt : Put) (ps : List DProp) (row : List (List (List Byte))) : List Byte :=
  (ps.zip row).flatMap (fun q => encCell pt q.1 q.2) ++ pt.eol

/-- the payload: element after element, row after row -/
def Doc.payload (pt : Put) (d : Doc) : List Byte := d.flatMap (fun e => e.rows.flatMap (encRow pt e.props))

/-- how values are written in the three formats -/
def putOf (io : TextIO) : Fmt → Put
  | .ascii => ⟨fun t b => io.print t b ++ [32], fun _ n => io.printNat n ++ [32], [10]⟩
  | .little => ⟨fun _ b => b, fun t n => leBytes t.stride n, []⟩
  | .big => ⟨fun _ b => b.reverse, fun t n => (leBytes t.stride n).reverse, []⟩

/-- the file of a document -/
def Doc.file (io : TextIO) (fmt : Fmt) (comments : List (List HTok)) (d : Doc) : File := ⟨d.header fmt comments, d.payload (putOf io fmt)⟩

/-- The contract of text formatting: words without blanks; what is printed is parsed; `canon t b` is the value that survives (for a `double`, the
number nearest to its six printed digits); integers survive. -/
structure TextIO.Ok (io : TextIO) (canon : Ty → List Byte → List Byte) : Prop where
  print_word : ∀ t b, io.print t b ≠ [] ∧ ∀ c ∈ io.print t b, isSp c = false
  printNat_word : ∀ n, io.printNat n ≠ [] ∧ ∀ c ∈ io.printNat n, isSp c = false
  parse_print : ∀ t b, t ≠ .invalid → b.length = t.stride → io.parse t (io.print t b) = some (canon t b)
  parse_nat : ∀ t n, t.isInt = true → 2 * n < 256 ^ t.stride → io.parse t (io.printNat n) = some (leBytes t.stride n)
  parse_len : ∀ t s v, io.parse t s = some v → v.length = t.stride
  canon_int : ∀ t b, t.isInt = true → b.length = t.stride → canon t b = b

/-- the value that survives writing and reading: in a binary file, the value -/
def canonOf (canon : Ty → List Byte → List Byte) : Fmt → Ty → List Byte → List Byte
  | .ascii, t, b => canon t b
  | _, _, b => b

/-- the type and the cell of the property `key` in a row -/
def DElem.field (e : DElem) (key : Name) (row : List (List (List Byte))) : Option (Ty × List (List Byte)) :=
  ((e.props.zip row).find? (fun q => decide (q.1.name = key))).map (fun q => (q.1.ty, q.2))

/-- the document has an element `r.elem` with all the properties `r.keys` -/
def Doc.has (d : Doc) (r : Request) : Prop := ∃ e ∈ d, e.name = r.elem ∧ ∀ k ∈ r.keys, ∃ p ∈ e.props, p.name = k

/-- `R` holds, row by row and column by column, the values of the scalar properties `keys` of the element `e` -/
def Scalars {m k : ℕ} (canon : Ty → List Byte → List Byte) (e : DElem) (keys : List Name) (R : List (Fin m → Fin k → Byte)) : Prop :=
  R.length = e.rows.length ∧
  ∀ (i : ℕ) r row, R[i]? = some r → e.rows[i]? = some row → ∀ j : Fin m, ∃ key t v, keys[j.val]? = some key ∧
    e.field key row = some (t, [v]) ∧ List.ofFn (r j) = canon t v

/-- `R` holds, row by row, the three values of the list property `key` of the element `e` -/
def Triples (canon : Ty → List Byte → List Byte) (e : DElem) (key : Name) (R : List (Fin 3 → W32)) : Prop :=
  R.length = e.rows.length ∧
  ∀ (i : ℕ) r row, R[i]? = some r → e.rows[i]? = some row → ∃ t v0 v1 v2, e.field key row = some (t, [v0, v1, v2]) ∧
    List.ofFn (r 0) = canon t v0 ∧ List.ofFn (r 1) = canon t v1 ∧ List.ofFn (r 2) = canon t v2

/-- the properties of a group are scalar, of type `t`, and stand in the file in the order of the keys -/
def InOrder (e : DElem) (keys : List Name) (t : Ty) : Prop :=
  (e.props.map DProp.name).filter (fun n => decide (n ∈ keys)) = keys ∧ ∀ p ∈ e.props, p.name ∈ keys → p.ty = t ∧ p.list = none

/-- all requests `read_ply` may make -/
def allRequests : List Request := [rV, rN, rC, rC', rFC, rFC', rF, rF']

/-- names do not confuse the reader: elements and the properties of an element have different names, and no property of the file has the hash of a
requested one without being it -/
structure Doc.Named (d : Doc) : Prop where
  elems : (d.map DElem.name).Nodup
  props : ∀ e ∈ d, (e.props.map DProp.name).Nodup
  hash : ∀ e ∈ d, ∀ p ∈ e.props, ∀ r ∈ allRequests, ∀ k ∈ r.keys, fnv1a (e.name ++ p.name) = fnv1a (r.elem ++ k) → e.name = r.elem ∧ p.name = k

/-- a list property of three 32-bit integers in every row -/
def TriangleList (e : DElem) (key : Name) : Prop :=
  (∀ p ∈ e.props, p.name = key → (p.ty = .int32 ∨ p.ty = .uint32) ∧ p.list ≠ none) ∧
  ∀ row ∈ e.rows, ∃ t v0 v1 v2, e.field key row = some (t, [v0, v1, v2])

/-- The files `read_ply` reads faithfully.  `tv` is the type of the coordinates. -/
structure Doc.Readable (d : Doc) (tv : Ty) : Prop where
  ok : d.Ok
  named : d.Named
  tvok : tv = .float32 ∨ tv = .float64
  v : ∃ e ∈ d, e.name = rV.elem ∧ InOrder e rV.keys tv
  n : d.has rN → ∀ e ∈ d, e.name = rN.elem → InOrder e rN.keys .float32 ∨ (InOrder e rN.keys .float64 ∧ tv = .float64)
  c : ∀ r ∈ [rC, rC', rFC, rFC'], d.has r → ∀ e ∈ d, e.name = r.elem → InOrder e r.keys .uint8
  f : ∀ r ∈ [rF, rF'], d.has r → ∀ e ∈ d, e.name = r.elem → ∀ k ∈ r.keys, TriangleList e k
  cloud : ¬ d.has rF → ¬ d.has rF' → ∀ e ∈ d, ∀ p ∈ e.props, p.list = none

/-- `r` is the first request of the list that the document answers -/
def Doc.First (d : Doc) (rs : List Request) (r : Request) : Prop := ∃ s t, rs = s ++ r :: t ∧ d.has r ∧ ∀ x ∈ s, ¬ d.has x

/-- `R` holds the three coordinates `keys` of type `t`, `float` converted to `double` -/
def Coords (canon : Ty → List Byte → List Byte) (widen : W32 → D64) (e : DElem) (keys : List Name) (t : Ty) (R : List (Fin 3 → D64)) : Prop :=
  (t = .float64 → Scalars canon e keys R) ∧
  (t = .float32 → ∃ R0 : List (Fin 3 → W32), Scalars canon e keys R0 ∧ R = R0.map (fun r j => widen (r j)))

/-- the mesh says what the document says -/
structure Says (canon : Ty → List Byte → List Byte) (widen : W32 → D64) (d : Doc) (tv : Ty) (M : Mesh) : Prop where
  v : ∀ e ∈ d, e.name = rV.elem → Coords canon widen e rV.keys tv M.V
  n : d.has rN → ∀ e ∈ d, e.name = rN.elem → ∃ t, (∀ p ∈ e.props, p.name ∈ rN.keys → p.ty = t) ∧ Coords canon widen e rN.keys t M.N
  n0 : ¬ d.has rN → M.N = []
  c : ∀ r, d.First [rC', rC, rFC', rFC] r → ∀ e ∈ d, e.name = r.elem →
    ∃ R : List (Fin 4 → Fin 1 → Byte), Scalars canon e r.keys R ∧ M.C = R.map (fun x j => x j 0)
  c0 : (∀ r ∈ [rC', rC, rFC', rFC], ¬ d.has r) → M.C = []
  f : ∀ r, d.First [rF', rF] r → ∀ e ∈ d, e.name = r.elem → ∀ k ∈ r.keys, Triples canon e k M.F
  f0 : (∀ r ∈ [rF', rF], ¬ d.has r) → M.F = []

/-- the document of a mesh: what `write_mesh` is expected to store -/
def meshDoc (M : Mesh) (colV colF : List (Fin 4 → Byte)) : Doc :=
  let sc (t : Ty) (n : Name) : DProp := ⟨n, t, none⟩
  let vertex : DElem := ⟨c! "vertex",
    [sc .float64 (c! "x"), sc .float64 (c! "y"), sc .float64 (c! "z")]
      ++ (if M.N = [] then [] else [sc .float64 (c! "nx"), sc .float64 (c! "ny"), sc .float64 (c! "nz")])
      ++ (if colV = [] then [] else [sc .uint8 (c! "red"), sc .uint8 (c! "green"), sc .uint8 (c! "blue"), sc .uint8 (c! "alpha")]),
    (List.range M.V.length).map (fun i =>
      ((M.V[i]?).elim [] (fun r => (List.ofFn r).map (fun x => [List.ofFn x])))
        ++ ((M.N[i]?).elim [] (fun r => (List.ofFn r).map (fun x => [List.ofFn x])))
        ++ ((colV[i]?).elim [] (fun r => (List.ofFn r).map (fun x => [[x]]))))⟩
  let face : DElem := ⟨c! "face",
    (if colF = [] then [] else [sc .uint8 (c! "red"), sc .uint8 (c! "green"), sc .uint8 (c! "blue"), sc .uint8 (c! "alpha")])
      ++ [⟨c! "vertex_indices", .uint32, some .uint8⟩],
    (List.range M.F.length).map (fun i =>
      ((colF[i]?).elim [] (fun r => (List.ofFn r).map (fun x => [[x]])))
        ++ ((M.F[i]?).elim [] (fun r => [(List.ofFn r).map (fun x => List.ofFn x)])))⟩
  if M.F = [] then [vertex] else [vertex, face]

/-- the comment line of a file written by the library -/
def plyComment : List HTok := [.word (c! "generated"), .word (c! "by"), .word (c! "tinyply"), .word (c! "2.3")]

/-- The colours that actually reach the file: row `i` is component `i % 4` of colour `i / 4`, followed by zeros. -/
def scrambled (C : List (Fin 4 → Byte)) : List (Fin 4 → Byte) :=
  (List.range C.length).map (fun i => fun j => if j = 0 then (C.getD (i / 4) (fun _ => 0)) ⟨i % 4, Nat.mod_lt _ (by decide)⟩ else 0)

end Gpy.Ply
