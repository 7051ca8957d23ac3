import Verif.Np.Text

/-!
# OBJ files: `write_mesh.py`, `read_mesh.py`, `cpp/write_obj.cpp`, `cpp/read_obj.cpp`

Files are character lists.  Formatting and parsing of floating-point numbers is a parameter.
-/

set_option autoImplicit false
namespace Gpy
open Np

/-- Number formatting: `fmt` is `str(x)` (Python) or `stream << x` with `max_digits10` digits (C++); `parse` is the conversion of a string to a
float (Python) or `std::stod` (C++). -/
structure NumIO (ν : Type) where
  fmt : ν → List Char
  parse : List Char → Option ν

/-- The contract of number formatting: a nonempty string without blanks, slashes, line ends or quotes that parses to the number written. -/
def NumIO.Ok {ν : Type} (io : NumIO ν) : Prop :=
  ∀ x, io.fmt x ≠ [] ∧ (∀ c ∈ io.fmt x, c ≠ ' ' ∧ c ≠ '\t' ∧ c ≠ '\n' ∧ c ≠ '\r' ∧ c ≠ '"' ∧ c ≠ '/') ∧ io.parse (io.fmt x) = some x

variable {ν : Type} (io : NumIO ν)

/-! ## choosing the format -/

inductive MeshFormat where
  | obj | stl | ply
deriving DecidableEq

/-- The choice of format in `read_mesh`/`write_mesh`, `read_mesh.py:82-98`, `write_mesh.py:69-81`: `ext` is `os.path.splitext(file)[1]`;
`none` = `AssertionError`. -/
def meshFormat (fmt : Option (List Char)) (ext : List Char) : Option MeshFormat :=
  let fmt := ((fmt.getD ext).drop 1).map Char.toLower
  if fmt = ['o', 'b', 'j'] then some .obj
  else if fmt = ['s', 't', 'l'] then some .stl
  else if fmt = ['p', 'l', 'y'] then some .ply
  else none

/-! ## writers -/

/-- `write_row(identifier, x)`, `write_mesh.py:137-141`. -/
def writeRow (ident : List Char) (x : List (List Char)) : List Char := ident ++ ' ' :: (joinWith ' ' x ++ ['\n'])

/-- the tokens of a face, `write_mesh.py:161-168` -/
def faceTokens (f : List ℤ) (ft fn : Option (List ℤ)) : List (List Char) :=
  match ft, fn with
  | some t, some n => (f.zip (t.zip n)).map (fun q => intStr (q.1 + 1) ++ '/' :: (intStr (q.2.1 + 1) ++ '/' :: intStr (q.2.2 + 1)))
  | some t, none => (f.zip t).map (fun q => intStr (q.1 + 1) ++ '/' :: intStr (q.2 + 1))
  | none, some n => (f.zip n).map (fun q => intStr (q.1 + 1) ++ '/' :: '/' :: intStr (q.2 + 1))
  | none, none => f.map (fun a => intStr (a + 1))

/-- `if UV is not None: if Ft is None and V.shape[0] == UV.shape[0]: Ft = F`, `write_mesh.py:145-147,150-152`. -/
def pyDefaultFaces (V : List (List ν)) (F : List (List ℤ)) (UV : Option (List (List ν))) (Ft : Option (List (List ℤ))) : Option (List (List ℤ)) :=
  match UV, Ft with
  | some uv, none => if V.length = uv.length then some F else none
  | _, ft => ft

/-- `_write_obj_python`, `write_mesh.py:132-169`; the contents of the file, `none` = `AssertionError`.  (The assertions come after the vertices
have been written; the partial file left then is not modelled.) -/
def pyWriteObj (V : List (List ν)) (F : List (List ℤ)) (UV : Option (List (List ν))) (Ft : Option (List (List ℤ)))
    (N : Option (List (List ν))) (Fn : Option (List (List ℤ))) : Option (List Char) :=
  let Ft := pyDefaultFaces V F UV Ft
  let Fn := pyDefaultFaces V F N Fn
  if (∀ ft ∈ Ft, ft.length = F.length) ∧ (∀ fn ∈ Fn, fn.length = F.length) then     -- lines 156-159
    some (V.flatMap (fun r => writeRow ['v'] (r.map io.fmt)) ++
      (UV.getD []).flatMap (fun r => writeRow ['v', 't'] (r.map io.fmt)) ++
      (N.getD []).flatMap (fun r => writeRow ['v', 'n'] (r.map io.fmt)) ++
      (List.range F.length).flatMap (fun r => writeRow ['f'] (faceTokens (F[r]?.getD []) (Ft.map (fun m => m[r]?.getD []))
        (Fn.map (fun m => m[r]?.getD [])))))
  else none

/-- `stream << M(i,0) << " " << … << M(i,cols-1) << "\n"`, `write_obj.cpp:37-61`. -/
def cppRow (ident : List Char) (x : List (List Char)) : List Char := ident ++ ' ' :: (joinWith ' ' x ++ ['\n'])

/-- `write_F_element(i,j)`, `write_obj.cpp:64-84`. -/
def cppFaceElement (writeT useDefaultFt writeN useDefaultFn : Bool) (f t n : ℤ) : List Char :=
  intStr (f + 1) ++ (if writeT || writeN then ['/'] else []) ++
    (if writeT then (if useDefaultFt then intStr (f + 1) else intStr (t + 1)) else []) ++
    (if writeN then (if useDefaultFn then '/' :: intStr (f + 1) else '/' :: intStr (n + 1)) else [])

/-- `write_obj`, `cpp/write_obj.cpp:10-96`, called from `write_mesh.py:101-125` (`None` becomes an empty matrix); `none` = error code. -/
def cppWriteObj (V : List (List ν)) (F : List (List ℤ)) (UV : Option (List (List ν))) (Ft : Option (List (List ℤ)))
    (N : Option (List (List ν))) (Fn : Option (List (List ℤ))) : Option (List Char) :=
  let UV := UV.getD []
  let Ft := Ft.getD []
  let N := N.getD []
  let Fn := Fn.getD []
  let useDefaultFt := decide (Ft.length = 0 ∧ UV.length = V.length)
  let useDefaultFn := decide (Fn.length = 0 ∧ N.length = V.length)
  let writeT := decide (0 < Ft.length) || useDefaultFt
  let writeN := decide (0 < Fn.length) || useDefaultFn
  if writeT ∧ ¬useDefaultFt ∧ (Ft.map List.length ≠ F.map List.length) then none           -- line 24: `return -11`
  else if writeN ∧ ¬useDefaultFn ∧ (Fn.map List.length ≠ F.map List.length) then none      -- line 27: `return -12`
  else some (V.flatMap (fun r => cppRow ['v'] (r.map io.fmt)) ++
      UV.flatMap (fun r => cppRow ['v', 't'] (r.map io.fmt)) ++
      N.flatMap (fun r => cppRow ['v', 'n'] (r.map io.fmt)) ++
      (List.range F.length).flatMap (fun i => cppRow ['f'] ((List.range (F[i]?.getD []).length).map (fun j =>
        cppFaceElement writeT useDefaultFt writeN useDefaultFn ((F[i]?.getD [])[j]?.getD 0) ((Ft[i]?.getD [])[j]?.getD 0)
          ((Fn[i]?.getD [])[j]?.getD 0)))))

/-! ## the Python reader -/

/-- what a reader returns; `none` = `None` -/
structure ObjData (ν : Type) where
  V : Option (List (List ν)) := none
  F : Option (List (List ℤ)) := none
  UV : Option (List (List ν)) := none
  Ft : Option (List (List ℤ)) := none
  N : Option (List (List ν)) := none
  Fn : Option (List (List ℤ)) := none

/-- append a row of numbers, `read_mesh.py:175-181` (`none`: inconsistent dimensions or not a number) -/
def pyAddRow (M : Option (List (List ν))) (row : List (List Char)) : Option (Option (List (List ν))) := do
  let r ← row.mapM io.parse
  match M with
  | none => some (some [r])
  | some m => if ∀ q ∈ m, q.length = r.length then some (some (m ++ [r])) else none

/-- the `k`-th entry of the split face token, `'0'` if missing or empty, `read_mesh.py:220,223` -/
def pyFaceEntry (k : ℕ) (x : List (List Char)) : Option ℤ :=
  match x[k]? with
  | none => some 0
  | some t => if t.isEmpty then some 0 else parseInt t

/-- one line, `read_mesh.py:163-224`; `none` = exception -/
def pyLine (retUV retN : Bool) (line : List Char) (s : ObjData ν) : Option (ObjData ν) :=
  match (splitOn ' ' line).filter (fun t => !t.isEmpty) with
  | [] => some s
  | ident :: row =>
    if ident = ['v'] then do
      let V ← pyAddRow io s.V row
      some { s with V := V }
    else if ident = ['v', 't'] then
      if retUV then do
        let UV ← pyAddRow io s.UV row
        some { s with UV := UV }
      else some s
    else if ident = ['v', 'n'] then
      if retN then do
        let N ← pyAddRow io s.N row
        some { s with N := N }
      else some s
    else if ident = ['f'] then
      if row.length = 3 then do
        let fs := row.map (splitOn '/')
        let f ← fs.mapM (fun x => (x[0]?.getD []) |> parseInt)
        let t ← if retUV then fs.mapM (pyFaceEntry 1) else some []
        let n ← if retN then fs.mapM (pyFaceEntry 2) else some []
        some { s with F := some ((s.F.getD []) ++ [f.map (· - 1)]),
                      Ft := if retUV then some ((s.Ft.getD []) ++ [t.map (· - 1)]) else s.Ft,
                      Fn := if retN then some ((s.Fn.getD []) ++ [n.map (· - 1)]) else s.Fn }
      else none
    else some s

/-- `_read_obj_python(file,return_UV,return_N)`, `read_mesh.py:150-226`.  `csv.reader` splits at line ends and blanks (quoting does not occur in
the files considered). -/
def pyReadObj (retUV retN : Bool) (text : List Char) : Option (ObjData ν) :=
  (splitOn '\n' text).foldlM (fun s line => pyLine io retUV retN line s) {}

/-! ## the C++ reader -/

def isBlank (c : Char) : Bool := c == ' ' || c == '\t'

/-- `non_space`, `read_obj.cpp:8-31`: the first token and what follows it. -/
def nonSpace (s : List Char) : List Char × List Char :=
  let s' := s.dropWhile isBlank
  (s'.takeWhile (fun c => !isBlank c), s'.dropWhile (fun c => !isBlank c))

/-- `count_non_spaces`, `read_obj.cpp:33-50`; the first argument bounds the number of iterations. -/
def countNonSpaces : ℕ → List Char → ℕ
  | 0, _ => 0
  | k + 1, s => if s.isEmpty then 0 else
    let (t, r) := nonSpace s
    if t.isEmpty then 0 else 1 + countNonSpaces k r

/-- the loops `for(int i=0; i<cols; ++i) { its = non_space(at, end); …; if(its.end != end) at = its.end+1; }` -/
def cppTokens : ℕ → List Char → List (List Char)
  | 0, _ => []
  | k + 1, at' => let (t, r) := nonSpace at'
    t :: cppTokens k (if r.isEmpty then at' else r.drop 1)

/-- A matrix grown row by row, `read_obj.cpp:95-130`: `mem` are the rows allocated, `n` the number of rows used, `cols` the number of columns.
`conservativeResize` leaves the new rows uninitialised (`junk`). -/
structure GMat (α : Type) where
  mem : List (List α) := []
  cols : ℕ := 0
  n : ℕ := 0

/-- `if(M.size()==0) initialize(cols) else addrow()` followed by writing row `n-1` -/
def GMat.addRow {α : Type} (junk : List α) (M : GMat α) (count : ℕ) (row : ℕ → List α) : GMat α :=
  if M.mem.length * M.cols = 0 then
    ⟨[row count], count, 1⟩
  else
    let n := M.n + 1
    let mem := if M.mem.length < n then M.mem ++ List.replicate M.mem.length junk else M.mem
    ⟨mem.set (n - 1) (row M.cols), M.cols, n⟩

/-- the final shrinking, `read_obj.cpp:316-334` -/
def GMat.rows {α : Type} (M : GMat α) : List (List α) := if M.n < M.mem.length then M.mem.take M.n else M.mem

/-- `it_to_int`, `read_obj.cpp:66-79`.  (`std::stoi` also accepts trailing garbage; not modelled.) -/
def itToInt (s : List Char) : ℤ := match parseInt s with
  | some z => z - 1
  | none => -1

/-- `tup_it_to_double`, `read_obj.cpp:52-64`. -/
def itToDouble (nan : ν) (s : List Char) : ν := (io.parse s).getD nan

structure CppObj (ν : Type) where
  V : GMat ν := {}
  UV : GMat ν := {}
  N : GMat ν := {}
  F : List (List ℤ) := []
  Ft : List (List ℤ) := []
  Fn : List (List ℤ) := []
  m : ℕ := 0

/-- the entries of one face token, `read_obj.cpp:285-301`: position, texture and normal index (`none` = not written) -/
def cppFace (tok : List Char) : ℤ × Option ℤ × Option ℤ :=
  let a := tok.takeWhile (· != '/')
  let r := tok.dropWhile (· != '/')
  if r.isEmpty then (itToInt a, none, none)
  else
    let b := (r.drop 1).takeWhile (· != '/')
    let r2 := (r.drop 1).dropWhile (· != '/')
    (itToInt a, if b.isEmpty then none else some (itToInt b), if r2.isEmpty || (r2.drop 1).isEmpty then none else some (itToInt (r2.drop 1)))

/-- `case 'f'`, `read_obj.cpp:263-307`, after the line has been recognised; `none` = error -8.  The columns of `F` are always three. -/
def cppFaceLine (junk : List ℤ) (retUV retN : Bool) (rest : List Char) (s : CppObj ν) : Option (CppObj ν) :=
  if s.F.length = 0 ∧ countNonSpaces (rest.length + 1) rest ≠ 3 then none
  else
    let m := s.m + 1
    let grow : Bool := decide (s.F.length < m)
    -- `initialize_F` (one row) or `addrow_Fs` (doubling)
    let k := if s.F.length = 0 then 1 else s.F.length
    let F := if grow then s.F ++ List.replicate k junk else s.F
    let Ft := if grow && retUV then s.Ft ++ List.replicate k [-1, -1, -1] else s.Ft
    let Fn := if grow && retN then s.Fn ++ List.replicate k [-1, -1, -1] else s.Fn
    let es := (cppTokens 3 rest).map cppFace
    some { s with
      F := F.set (m - 1) (es.map (·.1)),
      Ft := if retUV then Ft.modify (m - 1) (fun old => List.zipWith (fun (e : ℤ × Option ℤ × Option ℤ) o => e.2.1.getD o) es old) else Ft,
      Fn := if retN then Fn.modify (m - 1) (fun old => List.zipWith (fun (e : ℤ × Option ℤ × Option ℤ) o => e.2.2.getD o) es old) else Fn,
      m := m }

/-- a `v`, `vt` or `vn` line, e.g. `read_obj.cpp:189-208`: `rest` is what follows the identifier -/
def cppNumRow (nan : ν) (junk : List ν) (M : GMat ν) (rest : List Char) : GMat ν :=
  M.addRow junk (countNonSpaces (rest.length + 1) rest) (fun cols => (cppTokens cols rest).map (itToDouble io nan))

/-- one line, `read_obj.cpp:173-313`; `none` = an error code -/
def cppLine (nan : ν) (junk : List ν) (junkF : List ℤ) (retUV retN : Bool) (line : List Char) (s : CppObj ν) : Option (CppObj ν) :=
  match line with
  | 'v' :: [] => none
  | 'v' :: ' ' :: r => some { s with V := cppNumRow io nan junk s.V (' ' :: r) }
  | 'v' :: 't' :: r => if retUV then some { s with UV := cppNumRow io nan junk s.UV r } else some s
  | 'v' :: 'n' :: r => if retN then some { s with N := cppNumRow io nan junk s.N r } else some s
  | 'f' :: [] => none
  | 'f' :: ' ' :: r => cppFaceLine junkF retUV retN (' ' :: r) s
  | _ => some s

/-- `std::getline` until the end: the last piece is not a line if the file ends with a newline -/
def getLines (text : List Char) : List (List Char) :=
  let l := splitOn '\n' text
  if l.getLast? = some [] then l.dropLast else l

/-- `read_obj`, `cpp/read_obj.cpp:81-337`: the matrices `V,F,UV,Ft,N,Fn` returned. -/
def cppReadObj (nan : ν) (junk : List ν) (junkF : List ℤ) (retUV retN : Bool) (text : List Char) :
    Option (List (List ν) × List (List ℤ) × List (List ν) × List (List ℤ) × List (List ν) × List (List ℤ)) := do
  let s ← (getLines text).foldlM (fun s line => cppLine io nan junk junkF retUV retN line s) {}
  some (s.V.rows, s.F.take s.m, s.UV.rows, s.Ft.take s.m, s.N.rows, s.Fn.take s.m)

end Gpy
