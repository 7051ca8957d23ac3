import Verif.Proofs.Ply12
import Mathlib.Data.Fin.VecNotation

/-!
# C101: PLY files
-/

set_option autoImplicit false
namespace Gpy.Ply

/-! ## reading -/

/-- Any document - any elements, properties, rows and comments, in any of the three formats - that meets `Readable` is read, and the arrays returned
say what the document says. -/
theorem C101_read_says (io : TextIO) (canon : Ty → List Byte → List Byte) (hio : io.Ok canon) (fmt : Fmt) (widen : W32 → D64) (comments : List (List HTok))
    (d : Doc) (tv : Ty) (hR : d.Readable tv) :
    ∃ M, readPly io widen (d.file io fmt comments) = some M ∧ Says (canonOf canon fmt) widen d tv M :=
  read_doc io canon fmt (lawfulOf io canon hio fmt) widen comments d tv hR

/-! ## writing -/

/-- Without colours the file written is the file of the mesh: vertices, normals and faces, each row in its place. -/
theorem C101_write_says (io : TextIO) (binary : Bool) (M : Mesh) (hN : M.N = [] ∨ M.N.length = M.V.length) (hC : M.C = []) :
    writePly io binary M = some ((meshDoc M [] []).file io (if binary then .little else .ascii) [plyComment]) := by
  have h := write_doc io binary M (hN.imp id (fun h => by omega)) (Or.inl (by rw [hC]; rfl))
  have h1 : colV M = [] := by unfold colV; rw [hC]; split <;> rfl
  have h2 : colF M = [] := by unfold colF; rw [hC]; split <;> rfl
  rw [h1, h2] at h
  exact h

/-- A number of colours that is neither zero nor that of the vertices or faces is refused. -/
theorem C101_colour_count (io : TextIO) (binary : Bool) (M : Mesh) (h : M.C.length ≠ 0) (hV : M.C.length ≠ M.V.length) (hF : M.C.length ≠ M.F.length) :
    writePly io binary M = none := by
  unfold writePly
  rw [if_neg (by rintro (h' | h' | h') <;> contradiction)]

/-! ## the round trip -/

/-- A mesh without colours written to a binary file is read back bit for bit. -/
theorem C101_binary_roundtrip (io : TextIO) (widen : W32 → D64) (M : Mesh) (hN : M.N = [] ∨ M.N.length = M.V.length) (hC : M.C = []) :
    ∃ F, writePly io true M = some F ∧ readPly io widen F = some M := by
  obtain ⟨F, M', h1, h2, hV, hn, hF, hc⟩ := write_read io (fun _ b => b) true (little_lawful io _) (fun _ => rfl) (fun _ => rfl) widen M
    (hN.imp id (fun h => by omega)) (Or.inl (by rw [hC]; rfl))
  refine ⟨F, h1, ?_⟩
  have key : ∀ A B : List (Fin 3 → D64), SameUpTo (canonOf (fun _ b => b) (if true then Fmt.little else .ascii)) A B → A = B := by
    intro A B h
    apply List.ext_getElem?
    intro i
    by_cases hi : i < A.length
    · have hj : i < B.length := h.1 ▸ hi
      rw [List.getElem?_eq_getElem hi, List.getElem?_eq_getElem hj]
      congr 1
      funext j
      exact List.ofFn_injective (h.2 i _ _ (List.getElem?_eq_getElem hi) (List.getElem?_eq_getElem hj) j)
    · rw [List.getElem?_eq_none (by omega), List.getElem?_eq_none (by have := h.1; omega)]
  have eV := key _ _ hV
  have eN : M'.N = M.N := by
    rw [key _ _ hn, List.take_of_length_le]
    rcases hN with h | h
    · rw [h]; simp
    · omega
  have eC : M'.C = M.C := by rw [hc, hC]; rfl
  rw [h2]
  cases M; cases M'
  simp only at eV eN eC hF
  rw [eV, eN, eC, hF]

/-- A mesh without colours written to a text file is read back with the same faces and with the coordinates that survive printing. -/
theorem C101_ascii_roundtrip (io : TextIO) (canon : Ty → List Byte → List Byte) (hio : io.Ok canon) (widen : W32 → D64) (M : Mesh)
    (hN : M.N = [] ∨ M.N.length = M.V.length) (hC : M.C = []) :
    ∃ F M', writePly io false M = some F ∧ readPly io widen F = some M' ∧ M'.F = M.F ∧ M'.C = [] ∧
      M'.V.length = M.V.length ∧ M'.N.length = M.N.length ∧
      (∀ (i : ℕ) a b, M'.V[i]? = some a → M.V[i]? = some b → ∀ j, List.ofFn (a j) = canon .float64 (List.ofFn (b j))) ∧
      (∀ (i : ℕ) a b, M'.N[i]? = some a → M.N[i]? = some b → ∀ j, List.ofFn (a j) = canon .float64 (List.ofFn (b j))) := by
  obtain ⟨F, M', h1, h2, hV, hn, hF, hc⟩ := write_read io canon false (ascii_lawful io canon hio)
    (fun x => hio.canon_int .uint8 [x] rfl rfl) (fun x => hio.canon_int .uint32 _ rfl (by rw [List.length_ofFn]; rfl)) widen M
    (hN.imp id (fun h => by omega)) (Or.inl (by rw [hC]; rfl))
  have ht : M.N.take M.V.length = M.N := by
    rw [List.take_of_length_le]
    rcases hN with h | h
    · rw [h]; simp
    · omega
  rw [ht] at hn
  exact ⟨F, M', h1, h2, hF, by rw [hc, hC]; rfl, hV.1, hn.1, hV.2, hn.2⟩

/-! ## what does not hold -/

/-- Colours do not survive: the file holds `scrambled` colours (component `i % 4` of colour `i / 4` as red, the rest zero), for every mesh with
colours, in both formats; everything else survives. -/
theorem C101_colours_violated (io : TextIO) (widen : W32 → D64) (M : Mesh) (hN : M.N = [] ∨ M.N.length = M.V.length)
    (hC : M.C.length = M.V.length ∨ M.C.length = M.F.length) :
    ∃ F M', writePly io true M = some F ∧ readPly io widen F = some M' ∧ M'.F = M.F ∧ M'.C = scrambled M.C := by
  obtain ⟨F, M', h1, h2, hV, hn, hF, hc⟩ := write_read io (fun _ b => b) true (little_lawful io _) (fun _ => rfl) (fun _ => rfl) widen M
    (hN.imp id (fun h => by omega)) (Or.inr hC)
  exact ⟨F, M', h1, h2, hF, hc⟩

/-- so one opaque grey vertex comes back black and transparent but for its red -/
example : scrambled [fun _ => 7] = [fun j => if j = 0 then 7 else 0] := by decide

/-- Fewer normals than vertices: the writer leaves the array of normals. -/
theorem C101_short_normals_violated (io : TextIO) (binary : Bool) (M : Mesh) (h0 : M.N ≠ []) (h : M.N.length < M.V.length) : writePly io binary M = none :=
  short_normals io binary M h0 h

/-- no text is needed in a binary file -/
def noIO : TextIO := ⟨fun _ _ => [], fun _ => [], fun _ _ => none⟩

/-- a `double` with the first byte given -/
def dbl (x : Byte) : List Byte := [x, 0, 0, 0, 0, 0, 0, 0]
/-- an `int` with the first byte given -/
def int4 (x : Byte) : List Byte := [x, 0, 0, 0]
def d64 (x : Byte) : D64 := fun i => if i = 0 then x else 0
def w32 (x : Byte) : W32 := fun i => if i = 0 then x else 0

/-- the arrays `V` and `F` as lists of bytes -/
def Mesh.lists (M : Mesh) : List (List (List Byte)) × List (List (List Byte)) :=
  (M.V.map (fun r => [List.ofFn (r 0), List.ofFn (r 1), List.ofFn (r 2)]), M.F.map (fun r => [List.ofFn (r 0), List.ofFn (r 1), List.ofFn (r 2)]))

/-- a vertex element with coordinates named by `ks` -/
def vertexNamed (ks : List Name) (rows : List (List (List (List Byte)))) : DElem := ⟨c! "vertex", ks.map (fun k => ⟨k, .float64, none⟩), rows⟩

/-- A file whose coordinates stand in the order `z`, `y`, `x` is read with `z` in the column of `x`. -/
theorem C101_order_violated : (readPly noIO (fun _ _ => 0)
      (Doc.file noIO .little [] [vertexNamed [c! "z", c! "y", c! "x"] [[[dbl 3], [dbl 2], [dbl 1]]]])).map Mesh.lists
    = some ([[dbl 3, dbl 2, dbl 1]], []) := by decide +kernel

/-- A square and a segment are read as two triangles that are not in the file. -/
theorem C101_polygons_violated : (readPly noIO (fun _ _ => 0)
      (Doc.file noIO .little [] [vertexNamed [c! "x", c! "y", c! "z"] [],
        ⟨c! "face", [⟨c! "vertex_indices", .int32, some .uint8⟩], [[[int4 1, int4 2, int4 3, int4 4]], [[int4 5, int4 6]]]⟩])).map Mesh.lists
    = some ([], [[int4 1, int4 2, int4 3], [int4 4, int4 5, int4 6]]) := by decide +kernel

/-- A mesh of squares is refused. -/
theorem C101_squares : (readPly noIO (fun _ _ => 0)
      (Doc.file noIO .little [] [vertexNamed [c! "x", c! "y", c! "z"] [],
        ⟨c! "face", [⟨c! "vertex_indices", .int32, some .uint8⟩], [[[int4 1, int4 2, int4 3, int4 4]]]⟩])).map Mesh.lists = none := by decide +kernel

/-- Indices of 16 bits are read in pairs. -/
theorem C101_short_indices_violated : (readPly noIO (fun _ _ => 0)
      (Doc.file noIO .little [] [vertexNamed [c! "x", c! "y", c! "z"] [],
        ⟨c! "face", [⟨c! "vertex_indices", .uint16, some .uint8⟩], [[[[1, 0], [2, 0], [3, 0]]]]⟩])).map Mesh.lists
    = some ([], [[[1, 0, 2, 0], int4 3, int4 0]]) := by decide +kernel

/-- A property `x` of an element `vertexn` is taken for the property `nx` of the vertices: this file is refused because the buffer of normals
overflows. -/
theorem C101_names_violated :
    let doc : Name → Doc := fun name => [⟨name, [⟨c! "x", .float64, none⟩], [[[dbl 9]]]⟩,
      vertexNamed [c! "x", c! "y", c! "z", c! "nx", c! "ny", c! "nz"] [[[dbl 1], [dbl 2], [dbl 3], [dbl 4], [dbl 5], [dbl 6]]],
      ⟨c! "face", [⟨c! "vertex_indices", .int32, some .uint8⟩], []⟩]
    (readPly noIO (fun _ _ => 0) ((doc (c! "vertexn")).file noIO .little [])).map Mesh.lists = none ∧
    (readPly noIO (fun _ _ => 0) ((doc (c! "vertexm")).file noIO .little [])).map Mesh.lists = some ([[dbl 1, dbl 2, dbl 3]], []) := by decide +kernel

/-! ## the hypotheses are met -/

/-- a triangle with normals -/
def demoMesh : Mesh := ⟨[![d64 1, d64 2, d64 3], ![d64 4, d64 5, d64 6], ![d64 7, d64 8, d64 9]], [![w32 0, w32 1, w32 2]],
  [![d64 11, d64 12, d64 13], ![d64 14, d64 15, d64 16], ![d64 17, d64 18, d64 19]], []⟩

example : (∃ F, writePly noIO true demoMesh = some F ∧ readPly noIO (fun _ _ => 0) F = some demoMesh)
    ∧ (∃ F, writePly demoIO false demoMesh = some F ∧ (readPly demoIO (fun _ _ => 0) F).map Mesh.lists = some demoMesh.lists) := by
  refine ⟨C101_binary_roundtrip _ _ _ (Or.inr rfl) rfl, ?_⟩
  exact ⟨_, C101_write_says demoIO false demoMesh (Or.inr rfl) rfl, by decide +kernel⟩

/-- a text format that meets the contract -/
example : demoIO.Ok (fun _ b => b) := demoIO_ok

/-- a readable document: the one of the mesh above, with an element more -/
def demoDoc : Doc := [⟨c! "camera", [⟨c! "fov", .float32, none⟩, ⟨c! "ids", .int16, some .uint8⟩], [[[[1, 2, 3, 4]], [[1, 2], [3, 4], [5, 6], [7, 8]]]]⟩,
  ⟨c! "vertex", [⟨c! "x", .float32, none⟩, ⟨c! "quality", .float64, none⟩, ⟨c! "y", .float32, none⟩, ⟨c! "z", .float32, none⟩],
    [[[[1, 1, 1, 1]], [dbl 5], [[2, 2, 2, 2]], [[3, 3, 3, 3]]]]⟩,
  ⟨c! "face", [⟨c! "vertex_index", .int32, some .uint8⟩], [[[int4 0, int4 0, int4 0]]]⟩]

theorem demoDoc_readable : demoDoc.Readable .float32 where
  ok := by
    intro e he row hrow
    simp only [demoDoc, List.mem_cons, List.not_mem_nil, or_false] at he
    have h : ∀ (p : DProp) (c : List (List Byte)), (p.ty ≠ .invalid ∧ (∀ v ∈ c, v.length = p.ty.stride) ∧
      (p.list = none → c.length = 1) ∧ ∀ lt, p.list = some lt → lt.isInt = true ∧ 2 * c.length < 256 ^ lt.stride) → CellOk p c := by
      rintro p c ⟨h1, h2, h3, h4⟩
      refine ⟨h1, h2, ?_⟩
      cases hl : p.list with
      | none => exact h3 hl
      | some lt => exact h4 lt hl
    rcases he with rfl | rfl | rfl <;> rw [List.mem_singleton.mp hrow]
    · exact .cons (h _ _ ⟨by decide, by decide, fun _ => rfl, (by intro lt h; cases h)⟩) (.cons (h _ _ ⟨by decide, by decide, (by intro h; cases h), (by
        intro lt h; cases h; decide)⟩) .nil)
    · exact .cons (h _ _ ⟨by decide, by decide, fun _ => rfl, (by intro lt h; cases h)⟩) (.cons (h _ _ ⟨by decide, by decide, fun _ => rfl, (by intro lt h; cases h)⟩)
        (.cons (h _ _ ⟨by decide, by decide, fun _ => rfl, (by intro lt h; cases h)⟩) (.cons (h _ _ ⟨by decide, by decide, fun _ => rfl, (by intro lt h; cases h)⟩) .nil)))
    · exact .cons (h _ _ ⟨by decide, by decide, (by intro h; cases h), (by intro lt h; cases h; decide)⟩) .nil
  named := ⟨by decide +kernel, by decide +kernel, by decide +kernel⟩
  tvok := Or.inl rfl
  v := ⟨⟨c! "vertex", [⟨c! "x", .float32, none⟩, ⟨c! "quality", .float64, none⟩, ⟨c! "y", .float32, none⟩, ⟨c! "z", .float32, none⟩],
    [[[[1, 1, 1, 1]], [dbl 5], [[2, 2, 2, 2]], [[3, 3, 3, 3]]]]⟩, by simp [demoDoc], rfl, by unfold InOrder; decide +kernel⟩
  n := fun h => absurd h (by unfold Doc.has; decide +kernel)
  c := by
    intro r hr h
    simp only [List.mem_cons, List.not_mem_nil, or_false] at hr
    rcases hr with rfl | rfl | rfl | rfl <;> exact absurd h (by unfold Doc.has; decide +kernel)
  f := by
    intro r hr h e he hn k hk
    simp only [List.mem_cons, List.not_mem_nil, or_false] at hr
    rcases hr with rfl | rfl
    · exact absurd h (by unfold Doc.has; decide +kernel)
    · have hk' : k = c! "vertex_index" := by simpa [rF'] using hk
      subst hk'
      simp only [demoDoc, List.mem_cons, List.not_mem_nil, or_false] at he
      rcases he with rfl | rfl | rfl
      · exact absurd hn (by decide)
      · exact absurd hn (by decide)
      · refine ⟨by decide, ?_⟩
        intro row hrow
        rw [List.mem_singleton.mp hrow]
        exact ⟨.int32, _, _, _, rfl⟩
  cloud := fun _ h => absurd (by unfold Doc.has; decide +kernel) h

/-- it is read in every format -/
example (fmt : Fmt) : ∃ M, readPly demoIO (fun w i => if h : i.val < 4 then w ⟨i.val, h⟩ else 0) (demoDoc.file demoIO fmt []) = some M ∧ M.V.length = 1 ∧ M.F.length = 1 := by
  obtain ⟨M, h, hS⟩ := C101_read_says demoIO _ demoIO_ok fmt (fun w i => if h : i.val < 4 then w ⟨i.val, h⟩ else 0) [] demoDoc .float32 demoDoc_readable
  refine ⟨M, h, ?_, ?_⟩
  · obtain ⟨R, hR, e⟩ := (hS.v _ (by simp [demoDoc]; exact Or.inr (Or.inl rfl)) rfl).2 rfl
    rw [e, List.length_map, hR.1]; rfl
  · exact (hS.f rF' ⟨[], [rF], rfl, by unfold Doc.has; decide +kernel, by simp⟩ _ (by simp [demoDoc]; exact Or.inr (Or.inr rfl)) rfl _ (by simp [rF']; rfl)).1

end Gpy.Ply
