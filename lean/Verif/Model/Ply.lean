import Mathlib.Data.List.Basic
import Mathlib.Data.Fintype.Basic

/-!
# PLY files: `cpp/tinyply/tinyply.h`, `cpp/tinyply/tinyply_wrappers.cpp`, `write_mesh.py:_write_ply`, `read_mesh.py:_read_ply`

Values are bit patterns: a `double` is eight bytes, an `int`/`uint32_t`/`float` is four bytes, in memory order (little-endian machine).
A file is a header, kept as lines of tokens, and a payload of bytes.  `none` stands for every outcome after which nothing is promised: a C++
exception that reaches Python, a null dereference, an access outside a buffer, or a result that contains uninitialised bytes.
-/

set_option autoImplicit false
namespace Gpy.Ply

abbrev Byte := Fin 256
/-- names and header words -/
abbrev Name := List Char

/-- `c! "abc"` is the list of characters `['a', 'b', 'c']` -/
macro "c!" s:str : term => do
  let cs : Array (Lean.TSyntax `term) := (s.getString.toList.map (fun c => (⟨Lean.Syntax.mkCharLit c⟩ : Lean.TSyntax `term))).toArray
  `(([$cs,*] : List Char))

/-- a `double` -/
abbrev D64 := Fin 8 → Byte
/-- an `int`, `uint32_t` or `float` -/
abbrev W32 := Fin 4 → Byte

/-- `enum class Type`, `tinyply.h:40-51` -/
inductive Ty where
  | invalid | int8 | uint8 | int16 | uint16 | int32 | uint32 | float32 | float64
deriving DecidableEq

/-- `PropertyTable[t].stride`, `tinyply.h:62-73` -/
def Ty.stride : Ty → ℕ
  | .int8 => 1 | .uint8 => 1 | .int16 => 2 | .uint16 => 2 | .int32 => 4 | .uint32 => 4 | .float32 => 4 | .float64 => 8 | .invalid => 0

/-- `PropertyTable[t].str`, `tinyply.h:62-73` -/
def Ty.str : Ty → Name
  | .int8 => c! "char" | .uint8 => c! "uchar" | .int16 => c! "short" | .uint16 => c! "ushort" | .int32 => c! "int" | .uint32 => c! "uint"
  | .float32 => c! "float" | .float64 => c! "double" | .invalid => c! "INVALID"

/-- `property_type_from_string`, `tinyply.h:226-237` -/
def Ty.ofStr (t : Name) : Ty :=
  if t = c! "int8" ∨ t = c! "char" then .int8
  else if t = c! "uint8" ∨ t = c! "uchar" then .uint8
  else if t = c! "int16" ∨ t = c! "short" then .int16
  else if t = c! "uint16" ∨ t = c! "ushort" then .uint16
  else if t = c! "int32" ∨ t = c! "int" then .int32
  else if t = c! "uint32" ∨ t = c! "uint" then .uint32
  else if t = c! "float32" ∨ t = c! "float" then .float32
  else if t = c! "float64" ∨ t = c! "double" then .float64
  else .invalid

/-- `PlyProperty`, `tinyply.h:101-112`; `list` is `listType` when `isList` holds -/
structure Prp where
  name : Name
  ty : Ty
  list : Option Ty
  listCount : ℕ
deriving DecidableEq

/-- `PlyElement`, `tinyply.h:114-121` -/
structure Elem where
  name : Name
  size : ℕ
  props : List Prp
deriving DecidableEq

/-- `hash_fnv1a`, `tinyply.h:217-224` (names of 7-bit characters: `static_cast<uint32_t>(c)` does not sign-extend) -/
def fnv1a (s : Name) : ℕ := s.foldl (fun r c => ((r ^^^ c.toNat) * 0x01000193) % 2 ^ 32) 0x811C9DC5

/-- The map `userData`, `tinyply.h:263`, from hashes to the number of the group of properties that shares one `ParsingHelper`.  Entries are only
ever added with `insert`, which keeps an existing entry: the first entry for a hash counts. -/
abbrev Table := List (ℕ × ℕ)

/-- `userData.find(hash_fnv1a(element.name + property.name))`, `tinyply.h:371` -/
def Table.find (t : Table) (e p : Name) : Option ℕ := t.lookup (fnv1a (e ++ p))

/-! ## the header -/

/-- a token of a header line -/
inductive HTok where
  | word (w : Name)
  | num (n : ℕ)
deriving DecidableEq

/-- a line of the header, split at blanks -/
abbrev HLine := List HTok

/-- `isBinary`, `isBigEndian` -/
inductive Fmt where
  | ascii | little | big
deriving DecidableEq

/-- a file: the lines up to and including `end_header`, then the payload -/
structure File where
  header : List HLine
  payload : List Byte

/-- the number printed by `os << e.size`; everything else is text -/
def w (s : Name) : HTok := .word s

/-- `write_header`, one property line, `tinyply.h:688-697` -/
def propLine (p : Prp) : HLine :=
  match p.list with
  | some lt => [w (c! "property"), w (c! "list"), w lt.str, w p.ty.str, w p.name]
  | none => [w (c! "property"), w p.ty.str, w p.name]

/-- `write_header`, one element, `tinyply.h:680-700`; properties without data are left out -/
def elemLines (t : Table) (e : Elem) : List HLine :=
  [w (c! "element"), w e.name, .num e.size] :: (e.props.filter (fun p => (t.find e.name p.name).isSome)).map propLine

/-- `write_header`, `tinyply.h:664-703`; the comment of `tinyply_wrappers.cpp:344`.  (`isBigEndian` is false for every file written.) -/
def writeHeader (binary : Bool) (t : Table) (es : List Elem) : List HLine :=
  [w (c! "ply")]
    :: (if binary then [w (c! "format"), w (c! "binary_little_endian"), w (c! "1.0")] else [w (c! "format"), w (c! "ascii"), w (c! "1.0")])
    :: [w (c! "comment"), w (c! "generated"), w (c! "by"), w (c! "tinyply"), w (c! "2.3")]
    :: (es.flatMap (elemLines t) ++ [[w (c! "end_header")]])

/-- `PlyProperty(std::istream&)`, `tinyply.h:301-314`; extraction that fails yields an empty word (a missing or numeric token) -/
def parseProp : HLine → Prp
  | .word l :: rest =>
    if l = c! "list" then
      match rest with
      | .word ct :: .word t :: .word nm :: _ => ⟨nm, Ty.ofStr t, some (Ty.ofStr ct), 0⟩
      | .word ct :: .word t :: _ => ⟨[], Ty.ofStr t, some (Ty.ofStr ct), 0⟩
      | _ => ⟨[], .invalid, some .invalid, 0⟩
    else
      match rest with
      | .word nm :: _ => ⟨nm, Ty.ofStr l, none, 0⟩
      | _ => ⟨[], Ty.ofStr l, none, 0⟩
  | _ => ⟨[], .invalid, none, 0⟩

/-- `PlyElement(std::istream&)`, `tinyply.h:316-319` -/
def parseElem : HLine → Elem
  | .word nm :: .num n :: _ => ⟨nm, n, []⟩
  | .word nm :: _ => ⟨nm, 0, []⟩
  | _ => ⟨[], 0, []⟩

/-- `read_header_format`, `tinyply.h:413-419` -/
def parseFormat (f : Fmt) : HLine → Fmt
  | .word s :: _ => if s = c! "binary_little_endian" then (if f = .big then .big else .little)
      else if s = c! "binary_big_endian" then .big else f
  | _ => f

/-- `elements.back().properties.emplace_back(is)`, `tinyply.h:426-430`; `none` = "no elements defined; file is malformed" -/
def addProp (p : Prp) : List Elem → Option (List Elem)
  | [] => none
  | [e] => some [{ e with props := e.props ++ [p] }]
  | e :: es => (addProp p es).map (fun r => e :: r)

/-- `parse_header`, `tinyply.h:387-406`: the lines up to `end_header`; comments and unknown lines are passed over (the wrapper ignores the
returned flag) -/
def parseHeader : List HLine → Fmt → List Elem → Option (Fmt × List Elem)
  | [], f, es => some (f, es)
  | (.word k :: rest) :: ls, f, es =>
    if k = c! "format" then parseHeader ls (parseFormat f rest) es
    else if k = c! "element" then parseHeader ls f (es ++ [parseElem rest])
    else if k = c! "property" then (addProp (parseProp rest) es).bind (fun es' => parseHeader ls f es')
    else if k = c! "end_header" then some (f, es)
    else parseHeader ls f es
  | _ :: ls, f, es => parseHeader ls f es

/-! ## the payload -/

/-- the value of an unsigned little-endian number -/
def leVal : List Byte → ℕ
  | [] => 0
  | b :: bs => b.val + 256 * leVal bs

/-- the first `n` bytes of the little-endian representation of a number -/
def leBytes : ℕ → ℕ → List Byte
  | 0, _ => []
  | k + 1, n => ⟨n % 256, Nat.mod_lt _ (by decide)⟩ :: leBytes k (n / 256)

/-- Text formatting of values: `os << x` (default precision) and `is >> x`.  `print t b` are the characters for the value with the bytes `b`;
`printNat` is used for list sizes. -/
structure TextIO where
  print : Ty → List Byte → List Byte
  printNat : ℕ → List Byte
  parse : Ty → List Byte → Option (List Byte)

/-- blanks, as skipped by `is >> x` -/
def isSp (b : Byte) : Bool := b.val = 32 || (9 ≤ b.val && b.val ≤ 13)

/-- the way values are taken from the payload; the stream is what has not been read yet -/
structure Codec where
  get : Ty → List Byte → Option (List Byte × List Byte)
  skip : Ty → List Byte → Option (List Byte)

/-- `is.read(dest, stride)`, `tinyply.h:432-442`; a short read leaves uninitialised bytes: `none` -/
def takeBytes (k : ℕ) (s : List Byte) : Option (List Byte × List Byte) :=
  if s.length < k then none else some (s.take k, s.drop k)

/-- the next word of a text stream, and what follows it -/
def token (s : List Byte) : Option (List Byte × List Byte) :=
  let s1 := s.dropWhile isSp
  let t := s1.takeWhile (fun b => !isSp b)
  if t = [] then none else some (t, s1.dropWhile (fun b => !isSp b))

/-- `read_property_ascii`/`skip` of an ASCII file, `tinyply.h:444-465,911-923` -/
def asciiCodec (io : TextIO) : Codec where
  get t s := (token s).bind (fun q => (io.parse t q.1).map (fun v => (v, q.2)))
  skip _ s := (token s).map (fun q => q.2)

/-- `read_property_binary`/`skip` of a little-endian file, `tinyply.h:432-442,879-890` -/
def littleCodec : Codec where
  get t s := takeBytes t.stride s
  skip t s := (takeBytes t.stride s).map (fun q => q.2)

/-- The same for a big-endian file.  In the code list sizes are swapped when read (`tinyply.h:847-864`) and the values of a buffer after the whole
payload has been read (`tinyply.h:546-566`); here every value is swapped when it is read. -/
def bigCodec : Codec where
  get t s := (takeBytes t.stride s).map (fun q => (q.1.reverse, q.2))
  skip t s := (takeBytes t.stride s).map (fun q => q.2)

/-- the codec of a file -/
def codecOf (io : TextIO) : Fmt → Codec
  | .ascii => asciiCodec io
  | .little => littleCodec
  | .big => bigCodec

/-- reading a list size into the 32-bit `listSize`, `tinyply.h:847-864,902,917`; a list size of type `double` overflows that variable -/
def getCount (cd : Codec) (lt : Ty) (s : List Byte) : Option (ℕ × List Byte) :=
  if lt.stride > 4 then none else (cd.get lt s).map (fun q => (leVal q.1, q.2))

/-- `n` values of type `t` appended to a buffer of capacity `cap`, `tinyply.h:432-465`, `parse_data`'s `read`, `tinyply.h:866-909`; exceeding the
capacity throws.  (A binary list is read with one check and one `read` for all its values: the outcome is the same.) -/
def readVals (cd : Codec) (t : Ty) (cap : ℕ) : ℕ → List Byte → List Byte → Option (List Byte × List Byte)
  | 0, s, b => some (s, b)
  | n + 1, s, b => if b.length + t.stride > cap then none else (cd.get t s).bind (fun q => readVals cd t cap n q.2 (b ++ q.1))

/-- `read(lookup, property, …)`, `tinyply.h:866-909`.  The capacity check of the ASCII branch for the list-size cursor is not modelled: it cannot
fire when a value is at least a third as wide as a list size. -/
def readProp (cd : Codec) (cap : ℕ) (p : Prp) (s b : List Byte) : Option (List Byte × List Byte) :=
  match p.list with
  | none => readVals cd p.ty cap 1 s b
  | some lt => (getCount cd lt s).bind (fun q => readVals cd p.ty cap q.1 q.2 b)

/-- skipping `n` values -/
def skipVals (cd : Codec) (t : Ty) : ℕ → List Byte → Option (List Byte)
  | 0, s => some s
  | n + 1, s => (cd.skip t s).bind (skipVals cd t n)

/-- `skip(lookup, property, is)`, `tinyply.h:879-890,911-923`: the new value of `listSize`, the number of bytes, the rest of the stream -/
def skipProp (cd : Codec) (p : Prp) (ls : ℕ) (s : List Byte) : Option (ℕ × ℕ × List Byte) :=
  match p.list with
  | none => (skipVals cd p.ty 1 s).map (fun r => (ls, p.ty.stride, r))
  | some lt => (getCount cd lt s).bind (fun q => (skipVals cd p.ty q.1 q.2).map (fun r => (q.1, p.ty.stride * q.1, r)))

/-- a function changed at one argument -/
def upd {β : Type} (f : ℕ → β) (i : ℕ) (b : β) : ℕ → β := fun j => if j = i then b else f j

/-- `n` repetitions of a step that may fail -/
def repeatM {σ : Type} (f : σ → Option σ) : ℕ → σ → Option σ
  | 0, s => some s
  | n + 1, s => (f s).bind (repeatM f n)

/-- the state of the second pass of `parse_data`: the stream and the bytes read so far into each buffer -/
structure RSt where
  s : List Byte
  bufs : ℕ → List Byte

/-- one property of one row, `tinyply.h:936-959`, second pass -/
def readStep (cd : Codec) (tab : Table) (caps : ℕ → ℕ) (e : Name) (st : RSt) (p : Prp) : Option RSt :=
  match tab.find e p.name with
  | some g => (readProp cd (caps g) p st.s (st.bufs g)).map (fun r => ⟨r.1, upd st.bufs g r.2⟩)
  | none => (skipProp cd p 0 st.s).map (fun r => ⟨r.2.2, st.bufs⟩)

/-- `parse_data(is, false)`, `tinyply.h:829-966` -/
def parseData (cd : Codec) (tab : Table) (caps : ℕ → ℕ) (es : List Elem) (st : RSt) : Option RSt :=
  es.foldlM (fun st e => repeatM (fun st => e.props.foldlM (readStep cd tab caps e.name) st) e.size st) st

/-- the state of the first pass: the stream, `listSize`, `totalSizeBytes` of each group, `listCount` of each property of the element -/
structure FSt where
  s : List Byte
  ls : ℕ
  tot : ℕ → ℕ
  lc : ℕ → ℕ

/-- one property of one row, `tinyply.h:936-959`, first pass; `none` also when "variable length lists are not supported yet" -/
def firstStep (cd : Codec) (tab : Table) (e : Name) (st : FSt) (p : ℕ × Prp) : Option FSt :=
  (skipProp cd p.2 st.ls st.s).bind (fun r =>
    match tab.find e p.2.name with
    | none => some { st with s := r.2.2, ls := r.1 }
    | some g =>
      let c := if st.lc p.1 = 0 then r.1 else st.lc p.1
      if c ≠ r.1 then none
      else some ⟨r.2.2, r.1, upd st.tot g (st.tot g + r.2.1), upd st.lc p.1 c⟩)

/-- `parse_data(is, true)`, `tinyply.h:829-966` -/
def firstPass (cd : Codec) (tab : Table) (es : List Elem) (s : List Byte) : Option (ℕ → ℕ) :=
  (es.foldlM (fun st e =>
      repeatM (fun st => (e.props.zipIdx.map (fun q => (q.2, q.1))).foldlM (firstStep cd tab e.name) st) e.size { st with lc := fun _ => 0 })
    (⟨s, 0, fun _ => 0, fun _ => 0⟩ : FSt)).map (fun st => st.tot)

/-! ## requests -/

/-- a call of `request_properties_from_element`; `id` stands for the `PlyData` object it creates -/
structure Request where
  id : ℕ
  elem : Name
  keys : List Name
  hint : ℕ

/-- `PlyData` and the list-size hint of a group -/
structure Group where
  ty : Ty
  isList : Bool
  count : ℕ
  hint : ℕ

/-- the state of the reader between the header and the payload -/
structure Reqs where
  tab : Table
  groups : ℕ → Group

/-- the insertion loop, `tinyply.h:761-772`; the flag is false when a key was there already -/
def insertKeys (e : Elem) (id : ℕ) : List Name → Table → Table × Bool
  | [], t => (t, true)
  | k :: ks, t =>
    let h := fnv1a (e.name ++ k)
    if (t.lookup h).isSome then (t, false) else insertKeys e id ks (t ++ [(h, id)])

/-- `find_property`, `tinyply.h:349-353` -/
def findProp (k : Name) (e : Elem) : Option Prp := e.props.find? (fun p => decide (p.name = k))

/-- `find_element`, `tinyply.h:343-347` -/
def findElem (k : Name) (es : List Elem) : Option Elem := es.find? (fun e => decide (e.name = k))

/-- "all requested properties must share the same type", `tinyply.h:774-786` -/
def sameTypes (e : Elem) (ks : List Name) : Bool :=
  let ts := ks.filterMap (fun k => (findProp k e).map Prp.ty)
  (ts.zip ts.tail).all (fun q => decide (q.1 = q.2))

/-- `request_properties_from_element`, `tinyply.h:705-792`, inside the `try` of the wrapper; the flag is false when it throws (the entries made
before stay) -/
def request (es : List Elem) (st : Reqs) (r : Request) : Reqs × Bool :=
  match findElem r.elem es with
  | none => (st, false)
  | some e =>
    if r.keys.all (fun k => (findProp k e).isSome) then
      let q := insertKeys e r.id r.keys st.tab
      let last := (r.keys.getLast?.bind (fun k => findProp k e)).getD ⟨[], .invalid, none, 0⟩
      (⟨q.1, upd st.groups r.id ⟨last.ty, last.list.isSome, e.size, r.hint⟩⟩, q.2 && sameTypes e r.keys)
    else (st, false)

/-- the requests of `read_ply`, `tinyply_wrappers.cpp:122-155` -/
def rV : Request := ⟨0, c! "vertex", [c! "x", c! "y", c! "z"], 0⟩
def rN : Request := ⟨1, c! "vertex", [c! "nx", c! "ny", c! "nz"], 0⟩
def rC : Request := ⟨2, c! "vertex", [c! "red", c! "green", c! "blue", c! "alpha"], 0⟩
def rC' : Request := ⟨3, c! "vertex", [c! "r", c! "g", c! "b", c! "a"], 0⟩
def rFC : Request := ⟨4, c! "face", [c! "red", c! "green", c! "blue", c! "alpha"], 0⟩
def rFC' : Request := ⟨5, c! "face", [c! "r", c! "g", c! "b", c! "a"], 0⟩
def rF : Request := ⟨6, c! "face", [c! "vertex_indices"], 3⟩
def rF' : Request := ⟨7, c! "face", [c! "vertex_index"], 3⟩

/-- which requests were answered -/
structure Answers where
  v : Bool
  n : Bool
  c : Option ℕ
  f : Option ℕ

/-- the later of two answers, `x = request(a); x = request(b)` with failures caught -/
def later (a b : Request) (fa fb : Bool) : Option ℕ := if fb then some b.id else if fa then some a.id else none

/-- the sequence of requests, `tinyply_wrappers.cpp:122-155` -/
def requests (es : List Elem) : Reqs × Answers :=
  let q0 := request es ⟨[], fun _ => ⟨.invalid, false, 0, 0⟩⟩ rV
  let q1 := request es q0.1 rN
  let q2 := request es q1.1 rC
  let q3 := request es q2.1 rC'
  let vc := later rC rC' q2.2 q3.2
  let q4 := if vc.isSome then (q3.1, false) else request es q3.1 rFC
  let q5 := if vc.isSome then (q4.1, false) else request es q4.1 rFC'
  let q6 := request es q5.1 rF
  let q7 := request es q6.1 rF'
  (q7.1, ⟨q0.2, q1.2, if vc.isSome then vc else later rFC rFC' q4.2 q5.2, later rF rF' q6.2 q7.2⟩)

/-- the sizes of the buffers, `PlyFileImpl::read`, `tinyply.h:491-540` (the sum of hints is taken without 32-bit overflow) -/
def capacities (cd : Codec) (es : List Elem) (st : Reqs) (s : List Byte) : Option (ℕ → ℕ) :=
  if st.tab.any (fun q => decide ((st.groups q.2).hint ≠ 0)) then
    some (fun g => (st.groups g).count * (st.groups g).ty.stride * (if (st.groups g).isList then (st.groups g).hint else 1)
      * (st.tab.countP (fun q => decide (q.2 = g))))
  else firstPass cd st.tab es s

/-! ## from buffers to arrays -/

/-- what `read_ply` returns; a row of `V`, `N` has three entries, a row of `C` four -/
structure Mesh where
  V : List (Fin 3 → D64)
  F : List (Fin 3 → W32)
  N : List (Fin 3 → D64)
  C : List (Fin 4 → Byte)

/-- the bytes from `off` on, as a value of `k` bytes -/
def valAt (k : ℕ) (b : List Byte) (off : ℕ) : Fin k → Byte := fun i => b.getD (off + i.val) 0

/-- `std::vector<T> a(count); memcpy(a.data(), buffer, size)` where `T` has `m` members of `k` bytes: a zero-initialised array that the bytes
overwrite; `none` when they are more than it holds -/
def rowsOf (m k count : ℕ) (b : List Byte) : Option (List (Fin m → Fin k → Byte)) :=
  if count * (m * k) < b.length then none
  else some ((List.range count).map (fun i => fun j => valAt k b ((i * m + j.val) * k)))

/-- the matrix filled from vertices or normals, `tinyply_wrappers.cpp:161-211`; `widen` is the conversion from `float` to `double` -/
def fillD (widen : W32 → D64) (asFloat asDouble : Bool) (count : ℕ) (b : List Byte) : Option (List (Fin 3 → D64)) :=
  if asFloat then (rowsOf 3 4 count b).map (fun rs => rs.map (fun r => fun j => widen (r j)))
  else if asDouble then rowsOf 3 8 count b
  else some []

/-- the buffer of a group; it must have been filled completely -/
def bufOf (caps : ℕ → ℕ) (st : RSt) (g : ℕ) : Option (List Byte) := if (st.bufs g).length = caps g then some (st.bufs g) else none

/-- `fill_C`, `tinyply_wrappers.cpp:215-225` -/
def fillC (count : ℕ) (b : List Byte) : Option (List (Fin 4 → Byte)) := (rowsOf 4 1 count b).map (fun rs => rs.map (fun r => fun j => r j 0))

/-- the end of `read_ply`, `tinyply_wrappers.cpp:160-234`; without `x`, `y`, `z` the pointer `vertices` is null -/
def fillMesh (widen : W32 → D64) (st : Reqs) (a : Answers) (buf : ℕ → Option (List Byte)) : Option Mesh :=
  if a.v then do
    let bv ← buf rV.id
    let V ← fillD widen (decide ((st.groups rV.id).ty = .float32)) (decide ((st.groups rV.id).ty = .float64)) (st.groups rV.id).count bv
    let F ← (match a.f with
      | some g => (buf g).bind (fun b => rowsOf 3 4 (st.groups g).count b)
      | none => some [])
    let N ← (if a.n then (buf rN.id).bind (fun b =>
        fillD widen (decide ((st.groups rN.id).ty = .float32)) (decide ((st.groups rV.id).ty = .float64)) (st.groups rN.id).count b)
      else some [])
    let C ← (match a.c with
      | some g => (buf g).bind (fun b => fillC (st.groups g).count b)
      | none => some [])
    some ⟨V, F, N, C⟩
  else none

/-- `read_ply`, `tinyply_wrappers.cpp:78-235`, called by `_read_ply`, `read_mesh.py:250-258` -/
def readPly (io : TextIO) (widen : W32 → D64) (f : File) : Option Mesh := do
  let (fmt, es) ← parseHeader f.header .ascii []
  let (st, a) := requests es
  let cd := codecOf io fmt
  let caps ← capacities cd es st f.payload
  let r ← parseData cd st.tab caps es ⟨f.payload, fun _ => []⟩
  fillMesh widen st a (bufOf caps r)

/-! ## writing -/

/-- the state of the file being written: elements, table, and for each group the bytes of its array -/
structure WFile where
  elems : List Elem
  tab : Table
  bufs : List (List Byte)

/-- appending properties to the element of that name, or a new element, `tinyply.h:815-827` -/
def addToElem (e : Name) (count : ℕ) (ps : List Prp) : List Elem → List Elem
  | [] => [⟨e, count, ps⟩]
  | x :: xs => if x.name = e then { x with props := x.props ++ ps } :: xs else x :: addToElem e count ps xs

/-- `add_properties_to_element`, `tinyply.h:794-827`; `list` is the list type and count -/
def addProps (f : WFile) (e : Name) (keys : List Name) (t : Ty) (count : ℕ) (data : List Byte) (list : Option (Ty × ℕ)) : WFile :=
  ⟨addToElem e count (keys.map (fun k => ⟨k, t, list.map Prod.fst, (list.map Prod.snd).getD 0⟩)) f.elems,
   f.tab ++ keys.map (fun k => (fnv1a (e ++ k), f.bufs.length)),
   f.bufs ++ [data]⟩

/-- the way values are written -/
structure Put where
  val : Ty → List Byte → List Byte
  count : Ty → ℕ → List Byte
  eol : List Byte

/-- `write_binary_internal`, `tinyply.h:586-624`: a list size is the first bytes of a 32-bit number -/
def binaryPut : Put := ⟨fun _ b => b, fun t n => leBytes t.stride n, []⟩

/-- `write_ascii_internal`, `tinyply.h:626-662`, `write_property_ascii`, `tinyply.h:467-483` -/
def asciiPut (io : TextIO) : Put := ⟨fun t b => io.print t b ++ [32], fun _ n => io.printNat n ++ [32], [10]⟩

/-- what is left of each array, and the output -/
structure WSt where
  left : ℕ → List Byte
  out : List Byte

/-- `n` values from the array of group `g`; reading past its end is undefined -/
def writeVals (pt : Put) (t : Ty) (g : ℕ) : ℕ → WSt → Option WSt
  | 0, st => some st
  | n + 1, st => (takeBytes t.stride (st.left g)).bind (fun q => writeVals pt t g n ⟨upd st.left g q.2, st.out ++ pt.val t q.1⟩)

/-- one property of one row, `tinyply.h:600-618,637-656`.  (Every property of a file that is written has data; the branch for one without is not
reached.) -/
def writeStep (pt : Put) (tab : Table) (e : Name) (st : WSt) (p : Prp) : Option WSt :=
  (tab.find e p.name).bind (fun g =>
    match p.list with
    | some lt => writeVals pt p.ty g p.listCount { st with out := st.out ++ pt.count lt p.listCount }
    | none => writeVals pt p.ty g 1 st)

/-- one row, `tinyply.h:600-619,637-657` -/
def writeRowP (pt : Put) (tab : Table) (e : Elem) (st : WSt) : Option WSt :=
  (e.props.foldlM (writeStep pt tab e.name) st).map (fun st => { st with out := st.out ++ pt.eol })

/-- the payload, `tinyply.h:594-623,632-661` -/
def writePayload (pt : Put) (f : WFile) : Option (List Byte) :=
  (f.elems.foldlM (fun st e => repeatM (writeRowP pt f.tab e) e.size st) (⟨fun g => f.bufs.getD g [], []⟩ : WSt)).map WSt.out

/-- the bytes of an array of `double3`, `tinyply_wrappers.cpp:247-250,267-270` -/
def bytesD (R : List (Fin 3 → D64)) : List Byte := R.flatMap (fun r => List.ofFn (r 0) ++ List.ofFn (r 1) ++ List.ofFn (r 2))

/-- the bytes of an array of `uint3`, `tinyply_wrappers.cpp:253-259` -/
def bytesW (R : List (Fin 3 → W32)) : List Byte := R.flatMap (fun r => List.ofFn (r 0) ++ List.ofFn (r 1) ++ List.ofFn (r 2))

/-- the bytes of an array of `uint4` filled from colours: each component is widened to 32 bits, `tinyply_wrappers.cpp:68,277-291` -/
def bytesC (C : List (Fin 4 → Byte)) : List Byte :=
  C.flatMap (fun r => [r 0, 0, 0, 0] ++ [r 1, 0, 0, 0] ++ [r 2, 0, 0, 0] ++ [r 3, 0, 0, 0])

/-- the data handed to `tinyply`, `tinyply_wrappers.cpp:315-342` -/
def plyFile (M : Mesh) : WFile :=
  let f0 := addProps ⟨[], [], []⟩ (c! "vertex") [c! "x", c! "y", c! "z"] .float64 M.V.length (bytesD M.V) none
  let f1 := if 0 < M.N.length then addProps f0 (c! "vertex") [c! "nx", c! "ny", c! "nz"] .float64 M.N.length (bytesD M.N) none else f0
  let f2 := if 0 < M.C.length ∧ M.C.length = M.V.length then
    addProps f1 (c! "vertex") [c! "red", c! "green", c! "blue", c! "alpha"] .uint8 M.C.length (bytesC M.C) none else f1
  let f3 := if 0 < M.C.length ∧ M.C.length = M.F.length then
    addProps f2 (c! "face") [c! "red", c! "green", c! "blue", c! "alpha"] .uint8 M.C.length (bytesC M.C) none else f2
  if 0 < M.F.length then addProps f3 (c! "face") [c! "vertex_indices"] .uint32 M.F.length (bytesW M.F) (some (.uint8, 3)) else f3

/-- `write_ply`, `tinyply_wrappers.cpp:237-350`, called by `_write_ply`, `write_mesh.py:185-205`, whose assertion on the number of colours is the
first test.  (That `C` has four columns is in the type.  Failure to open the file is not reported by the code and not modelled.) -/
def writePly (io : TextIO) (binary : Bool) (M : Mesh) : Option File :=
  if M.C.length = 0 ∨ M.C.length = M.V.length ∨ M.C.length = M.F.length then
    let f := plyFile M
    (writePayload (if binary then binaryPut else asciiPut io) f).map (fun p => ⟨writeHeader binary f.tab f.elems, p⟩)
  else none

end Gpy.Ply
