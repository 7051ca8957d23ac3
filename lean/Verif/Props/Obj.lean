import Verif.Proofs.ObjCpp

/-! C39: OBJ files. -/

set_option autoImplicit false
namespace Gpy
open Np Gpy.Spec

variable {ν : Type} {io : NumIO ν}

/-- **C39** the Python and the C++ writer produce the same file, character by character, for every mesh with at least one vertex and one face. -/
theorem C39_writers_agree (io : NumIO ν) {V : List (List ν)} {F : List (List ℤ)} {UV : Option (List (List ν))} {Ft : Option (List (List ℤ))}
    {N : Option (List (List ν))} {Fn : Option (List (List ℤ))} (h : ObjOk V F UV Ft N Fn) (hV : V ≠ []) (hF : F ≠ []) :
    (pyWriteObj io V F UV Ft N Fn).isSome ∧ cppWriteObj io V F UV Ft N Fn = pyWriteObj io V F UV Ft N Fn := by
  rw [pyWriteObj_eq io h, cppWriteObj_eq io h hV hF]
  exact ⟨rfl, rfl⟩

/-- **C39 (Python reader)** for every mesh, with any combination of texture coordinates, texture faces, normals and normal faces, and any choice of
what to return, writing succeeds and reading the file gives back what was written; index matrices that are not in the file come back as `-1`,
matrices without rows as `None`. -/
theorem C39_roundtrip_python (hio : io.Ok) {V : List (List ν)} {F : List (List ℤ)} {UV : Option (List (List ν))} {Ft : Option (List (List ℤ))}
    {N : Option (List (List ν))} {Fn : Option (List (List ℤ))} (h : ObjOk V F UV Ft N Fn) (retUV retN : Bool) :
    ∃ text, pyWriteObj io V F UV Ft N Fn = some text ∧ pyReadObj io retUV retN text = some
      { V := orNone V, F := orNone F,
        UV := if retUV then orNone (UV.getD []) else none,
        Ft := if retUV then orNone (orMinusOne F (effFaces V F UV Ft)) else none,
        N := if retN then orNone (N.getD []) else none,
        Fn := if retN then orNone (orMinusOne F (effFaces V F N Fn)) else none } :=
  ⟨_, pyWriteObj_eq io h, pyReadObj_eq hio h.hV h.hUV h.hN h.hF (eff_ok h.hF h.hFt) (eff_ok h.hF h.hFn) retUV retN⟩

/-- **C39 (C++ reader)** the same for the C++ reader, whatever its uninitialised memory contains. -/
theorem C39_roundtrip_cpp (hio : io.Ok) (nan : ν) (junk : List ν) (junkF : List ℤ) {V : List (List ν)} {F : List (List ℤ)}
    {UV : Option (List (List ν))} {Ft : Option (List (List ℤ))}
    {N : Option (List (List ν))} {Fn : Option (List (List ℤ))} (h : ObjOk V F UV Ft N Fn) (retUV retN : Bool) :
    ∃ text, pyWriteObj io V F UV Ft N Fn = some text ∧ cppReadObj io nan junk junkF retUV retN text = some
      (V, F,
        if retUV then UV.getD [] else [],
        if retUV then orMinusOne F (effFaces V F UV Ft) else [],
        if retN then N.getD [] else [],
        if retN then orMinusOne F (effFaces V F N Fn) else []) :=
  ⟨_, pyWriteObj_eq io h, cppReadObj_eq hio nan junk junkF h.hV h.hUV h.hN h.hF (eff_ok h.hF h.hFt) (eff_ok h.hF h.hFn) retUV retN⟩

/-- **C39** in particular, when texture faces and normal faces are given and everything is asked for, every reader returns exactly the six matrices
that either writer was given. -/
theorem C39_roundtrip_full (hio : io.Ok) (nan : ν) (junk : List ν) (junkF : List ℤ) {V UV N : List (List ν)} {F Ft Fn : List (List ℤ)}
    (h : ObjOk V F (some UV) (some Ft) (some N) (some Fn)) (hV : V ≠ []) (hF : F ≠ []) (hUV : UV ≠ []) (hN : N ≠ []) :
    ∃ text, pyWriteObj io V F (some UV) (some Ft) (some N) (some Fn) = some text ∧
      cppWriteObj io V F (some UV) (some Ft) (some N) (some Fn) = some text ∧
      pyReadObj io true true text = some ⟨some V, some F, some UV, some Ft, some N, some Fn⟩ ∧
      cppReadObj io nan junk junkF true true text = some (V, F, UV, Ft, N, Fn) := by
  obtain ⟨t, e1, e2⟩ := C39_roundtrip_python hio h true true
  obtain ⟨t', e1', e3⟩ := C39_roundtrip_cpp hio nan junk junkF h true true
  rw [e1] at e1'
  cases e1'
  have hc := (C39_writers_agree io h hV hF).2
  refine ⟨t, e1, hc.trans e1, ?_, e3⟩
  rw [e2]
  have on : ∀ {α : Type} (M : List α), M ≠ [] → orNone M = some M := by
    intro α M hM
    cases M with
    | nil => exact absurd rfl hM
    | cons a M => rfl
  have l1 := (h.hFt Ft rfl).2
  have l2 := (h.hFn Fn rfl).2
  have hF0 := List.length_pos_iff.mpr hF
  have hFt : Ft ≠ [] := fun e => by rw [e] at l1; simp at l1; omega
  have hFn : Fn ≠ [] := fun e => by rw [e] at l2; simp at l2; omega
  simp [effFaces, orMinusOne, on, hV, hF, hUV, hN, hFt, hFn]

/-- Without any vertex the two writers differ: the C++ writer takes `0 = 0` for "one texture coordinate per vertex". -/
theorem C39_empty_writers_differ : pyWriteObj (ν := ℤ) ⟨intStr, parseInt⟩ [] [[0, 1, 2]] none none none none = some "f 1 2 3\n".toList ∧
    cppWriteObj (ν := ℤ) ⟨intStr, parseInt⟩ [] [[0, 1, 2]] none none none none = some "f 1/1/1 2/2/2 3/3/3\n".toList := by
  constructor <;> decide +kernel

/-- integers written in decimal meet the contract of number formatting -/
theorem intIO_ok : (⟨intStr, parseInt⟩ : NumIO ℤ).Ok := by
  intro x
  refine ⟨intStr_ne x, ?_, parseInt_intStr x⟩
  intro c hc
  have h := intStr_char hc
  refine ⟨?_, ?_, ?_, ?_, ?_, ?_⟩ <;> rintro rfl <;> revert h <;> decide

/-- a non-trivial mesh: two triangles with texture coordinates per vertex, no texture faces, one normal, normal faces -/
example : ObjOk (ν := ℤ) [[0, 0, 0], [1, 0, 0], [1, 1, 0], [0, 1, -7]] [[0, 1, 2], [0, 2, 3]] (some [[0, 0], [1, 0], [1, 1], [0, 1]]) none
    (some [[0, 0, 1]]) (some [[0, 0, 0], [0, 0, 0]]) where
  hV := ⟨3, by omega, by simp [HasCols]⟩
  hF := by simp [HasCols]
  hUV := ⟨2, by omega, by simp [HasCols]⟩
  hN := ⟨3, by omega, by simp [HasCols]⟩
  hFt := by simp
  hFn := by simp [HasCols]

example : pyWriteObj (ν := ℤ) ⟨intStr, parseInt⟩ [[0, 0, 0], [1, 0, 0], [1, 1, 0], [0, 1, -7]] [[0, 1, 2], [0, 2, 3]]
    (some [[0, 0], [1, 0], [1, 1], [0, 1]]) none (some [[0, 0, 1]]) (some [[0, 0, 0], [0, 0, 0]]) =
    some "v 0 0 0\nv 1 0 0\nv 1 1 0\nv 0 1 -7\nvt 0 0\nvt 1 0\nvt 1 1\nvt 0 1\nvn 0 0 1\nf 1/1/1 2/2/1 3/3/1\nf 1/1/1 3/3/1 4/4/1\n".toList := by
  decide +kernel

/-! ## C57: the file format -/

/-- the format called `name` -/
def C57_name : MeshFormat → List Char
  | .obj => ['o', 'b', 'j']
  | .stl => ['s', 't', 'l']
  | .ply => ['p', 'l', 'y']

/-- **C57** without `fmt`, the format is the one whose name is the file extension, regardless of case; any other extension is an error. -/
theorem C57_extension (ext : List Char) (f : MeshFormat) :
    meshFormat none ('.' :: ext) = some f ↔ ext.map Char.toLower = C57_name f := by
  unfold meshFormat
  simp only [Option.getD_none, List.drop_succ_cons, List.drop_zero]
  split
  · rename_i h; rw [h]; cases f <;> simp [C57_name]
  · split
    · rename_i h; rw [h]; cases f <;> simp [C57_name]
    · split
      · rename_i h; rw [h]; cases f <;> simp [C57_name]
      · rename_i h1 h2 h3
        cases f <;> simp [C57_name, *]

/-- **C57 fails for an explicit `fmt`**: the first character of the name is dropped, so naming any supported format is an error, whatever the file. -/
theorem C57_explicit_violated (ext : List Char) : ∀ name ∈ formatNames, meshFormat (some name) ext = none := by
  intro name h
  simp only [formatNames, List.mem_cons, List.not_mem_nil, or_false] at h
  rcases h with rfl | rfl | rfl <;> rfl

/-- what `fmt` must be: the name preceded by one arbitrary character -/
theorem C57_explicit_prefixed (c : Char) (f : MeshFormat) (ext : List Char) : meshFormat (some (c :: C57_name f)) ext = some f := by
  cases f <;> rfl

end Gpy
