import Verif.Proofs.Stl3
import Verif.Proofs.Ply12

/-!
# C102: STL files
-/

set_option autoImplicit false
namespace Gpy.Stl
open Gpy.Ply

variable {K : Type} [Field K] [LinearOrder K] [IsStrictOrderedRing K] [FloorRing K]

/-- what `read_mesh` makes of the triangles that were found -/
theorem read_shows (io : FloatIO) (g : Byte) (val : W32 → K) (merge : Bool) (s : List Byte) (fs : List Facet) (h : readSoup io g s = some fs) :
    ∃ V' F', readStl io g val merge s = some (V', F') ∧ Shows val fs V' F' ∧
      (merge = true → V'.Nodup ∧ ∀ x ∈ V', ∃ f ∈ fs, ∃ k, x = (List.ofFn (f k)).map val) ∧
      (merge = false → V'.length = 3 * fs.length ∧ ∀ i : ℕ, i < fs.length → F'[i]? = some [3 * i, 3 * i + 1, 3 * i + 2]) := by
  unfold readStl
  rw [h]
  simp only [Option.bind_some]
  cases merge with
  | true =>
    obtain ⟨V', F', h1, h2, h3, h4⟩ := merged val fs
    exact ⟨V', F', by simpa using h1, h2, fun _ => ⟨h3, h4⟩, by simp⟩
  | false =>
    refine ⟨_, _, rfl, shows_soup val fs, by simp, fun _ => ⟨(soup_length val fs).trans (by ring), ?_⟩⟩
    intro i hi
    simp [soup, hi, Nat.mul_comm]

/-- C102.  A binary STL file - any 80 bytes of header, any normals and attributes, and any further bytes behind the last facet - is read: the mesh has
one face for each facet, in order, with its corners in order.  (A header may begin with `solid` if nothing follows the last facet.)  With merging no two
vertices are equal and every vertex is a corner; without, the vertices are the corners one after the other. -/
theorem C102_read_binary (io : FloatIO) (g : Byte) (val : W32 → K) (merge : Bool) (header : Fin 80 → Byte) (fs : List BinFacet) (rest : List Byte)
    (h0 : fs ≠ []) (hn : fs.length ≤ 500000000) (hh : ¬ asc (c! "solid") <+: List.ofFn header ∨ rest = []) :
    ∃ V' F', readStl io g val merge (binFile header fs rest) = some (V', F') ∧ Shows val (fs.map BinFacet.corners) V' F' ∧
      (merge = true → V'.Nodup ∧ ∀ x ∈ V', ∃ f ∈ fs.map BinFacet.corners, ∃ k, x = (List.ofFn (f k)).map val) ∧
      (merge = false → V'.length = 3 * (fs.map BinFacet.corners).length ∧
        ∀ i : ℕ, i < (fs.map BinFacet.corners).length → F'[i]? = some [3 * i, 3 * i + 1, 3 * i + 2]) :=
  read_shows io g val merge _ _ (read_binary io g header fs rest h0 hn hh)

/-- C102.  A text STL file - any indentation, any names and normals, lines that end in a carriage return, and other lines in between - is read: one face
for each facet, in order, with its corners in order.  It does not matter what the uninitialised byte `g` is. -/
theorem C102_read_text {io : FloatIO} {fin : W32 → Prop} {canon : W32 → W32} (hio : io.Ok fin canon) (g : Byte) (val : W32 → K) (merge : Bool)
    (ls : List Physical) (hok : TextOk io fin ls) (fs : List Facet) (hs : SaysFacets (ls.map Physical.line) fs) :
    ∃ V' F', readStl io g val merge (textFile io ls) = some (V', F') ∧ Shows val (fs.map (fun f k j => canon (f k j))) V' F' ∧
      (merge = true → V'.Nodup ∧ ∀ x ∈ V', ∃ f ∈ fs.map (fun f k j => canon (f k j)), ∃ k, x = (List.ofFn (f k)).map val) ∧
      (merge = false → V'.length = 3 * (fs.map (fun f k j => canon (f k j))).length ∧
        ∀ i : ℕ, i < (fs.map (fun (f : Facet) k j => canon (f k j))).length → F'[i]? = some [3 * i, 3 * i + 1, 3 * i + 2]) :=
  read_shows io g val merge _ _ (read_text hio g ls hok fs hs)

/-- C102.  What is written: in binary, a file with a header that does not begin with `solid`; in text, a file that may be read.  The corners are those of
the faces. -/
theorem C102_write {D : Type} {io : FloatIO} {fin : W32 → Prop} {canon : W32 → W32} (hio : io.Ok fin canon) (narrow : D → W32) (V : List (Fin 3 → D))
    (F : List (Fin 3 → ℕ)) (hF : ∀ f ∈ F, ∀ k, f k < V.length) :
    ∃ fs, Corners narrow V F fs ∧
      (∃ header bs, ¬ asc (c! "solid") <+: List.ofFn header ∧ bs.map BinFacet.corners = fs ∧ writeStl io narrow true V F = some (binFile header bs [])) ∧
      ((∀ v ∈ V, ∀ j, fin (narrow (v j))) → F.length ≤ 25000000 →
        ∃ ls, TextOk io fin ls ∧ SaysFacets (ls.map Physical.line) fs ∧ writeStl io narrow false V F = some (textFile io ls)) := by
  obtain ⟨fs, h1, h2⟩ := facetsOf_corners narrow V F hF
  refine ⟨fs, h2, ⟨fun i => (asc (c! "microstl") ++ List.replicate 72 0).getD i.val 0, fs.map (fun f => ⟨fun _ => 0, f, fun _ => 0⟩), by decide +kernel, ?_, ?_⟩, ?_⟩
  · rw [List.map_map]; exact List.map_id' fs
  · unfold writeStl
    rw [h1, Option.map_some, if_pos rfl, writeBinary_eq]
  · intro hfin hlen
    refine ⟨written fs, written_ok hio fs ?_ (by rw [h2.1]; exact hlen), written_says fs, ?_⟩
    · intro f hf k j
      obtain ⟨i, hi⟩ := List.mem_iff_getElem?.mp hf
      have hlt : i < F.length := by
        rw [← h2.1]
        by_contra h
        rw [List.getElem?_eq_none (by omega)] at hi
        exact absurd hi (by simp)
      obtain ⟨v, hv, hv'⟩ := h2.2 i _ f (List.getElem?_eq_getElem hlt) hi k
      rw [hv' j]
      exact hfin v (List.mem_of_getElem? hv) j
    · unfold writeStl
      rw [h1, Option.map_some, if_neg (by simp), writeAscii_eq]

theorem same_of_shows {D : Type} (narrow : D → W32) (canon : W32 → W32) (val : W32 → K) (V : List (Fin 3 → D)) (F : List (Fin 3 → ℕ)) (fs : List Facet)
    (hc : Corners narrow V F fs) (V' : List (List K)) (F' : List (List ℕ)) (hs : Shows val (fs.map (fun f k j => canon (f k j))) V' F') :
    SameTriangles (fun x => val (canon (narrow x))) V F V' F' := by
  refine ⟨by rw [hs.1, List.length_map, hc.1], ?_⟩
  intro i f hf
  have hlt : i < fs.length := by
    rw [hc.1]
    by_contra h
    rw [List.getElem?_eq_none (by omega)] at hf
    exact absurd hf (by simp)
  obtain ⟨t, h1, h2, h3⟩ := hs.2 i (fun k j => canon (fs[i] k j)) (by rw [List.getElem?_map, List.getElem?_eq_getElem hlt]; rfl)
  refine ⟨t, h1, h2, ?_⟩
  intro k
  obtain ⟨v, hv, hv'⟩ := h3 k
  obtain ⟨p, hp, hp'⟩ := hc.2 i f fs[i] hf (List.getElem?_eq_getElem hlt) k
  refine ⟨v, p, hv, hp, ?_⟩
  rw [hv']
  show some [val (canon (fs[i] k 0)), val (canon (fs[i] k 1)), val (canon (fs[i] k 2))] = _
  rw [hp' 0, hp' 1, hp' 2]

/-- C102.  A mesh with at least one face that was written in binary is read with the same faces, and the coordinates rounded to `float`. -/
theorem C102_roundtrip_binary {D : Type} {io : FloatIO} {fin : W32 → Prop} {canon : W32 → W32} (hio : io.Ok fin canon) (narrow : D → W32) (V : List (Fin 3 → D))
    (F : List (Fin 3 → ℕ)) (hF : ∀ f ∈ F, ∀ k, f k < V.length) (h0 : F ≠ []) (hn : F.length ≤ 500000000) :
    ∃ file, writeStl io narrow true V F = some file ∧ ∀ (g : Byte) (val : W32 → K) (merge : Bool),
      ∃ V' F', readStl io g val merge file = some (V', F') ∧ SameTriangles (fun x => val (narrow x)) V F V' F' ∧ (merge = true → V'.Nodup) := by
  obtain ⟨fs, h1, ⟨header, bs, h2, h3, h4⟩, _⟩ := C102_write hio narrow V F hF
  refine ⟨_, h4, ?_⟩
  intro g val merge
  have hl : bs.length = F.length := by rw [← h1.1, ← h3, List.length_map]
  obtain ⟨V', F', r1, r2, r3, _⟩ := C102_read_binary io g val merge header bs [] (fun h => h0 (List.eq_nil_of_length_eq_zero (by rw [← hl, h]; rfl))) (by omega) (Or.inl h2)
  refine ⟨V', F', r1, ?_, fun h => (r3 h).1⟩
  rw [h3] at r2
  refine same_of_shows narrow id val V F fs h1 V' F' ?_
  rwa [show (fun (f : Facet) k j => id (f k j)) = id from rfl, List.map_id]

/-- C102.  A mesh (with finite coordinates) that was written as text is read with the same faces; coordinates are those that the printed digits stand for. -/
theorem C102_roundtrip_text {D : Type} {io : FloatIO} {fin : W32 → Prop} {canon : W32 → W32} (hio : io.Ok fin canon) (narrow : D → W32) (V : List (Fin 3 → D))
    (F : List (Fin 3 → ℕ)) (hF : ∀ f ∈ F, ∀ k, f k < V.length) (hfin : ∀ v ∈ V, ∀ j, fin (narrow (v j))) (hn : F.length ≤ 25000000) :
    ∃ file, writeStl io narrow false V F = some file ∧ ∀ (g : Byte) (val : W32 → K) (merge : Bool),
      ∃ V' F', readStl io g val merge file = some (V', F') ∧ SameTriangles (fun x => val (canon (narrow x))) V F V' F' ∧ (merge = true → V'.Nodup) := by
  obtain ⟨fs, h1, _, h2⟩ := C102_write hio narrow V F hF
  obtain ⟨ls, h3, h4, h5⟩ := h2 hfin hn
  refine ⟨_, h5, ?_⟩
  intro g val merge
  obtain ⟨V', F', r1, r2, r3, _⟩ := C102_read_text hio g val merge ls h3 fs h4
  exact ⟨V', F', r1, same_of_shows narrow canon val V F fs h1 V' F' r2, fun h => (r3 h).1⟩

/-- C102.  A binary file that was cut off anywhere is refused: a writer that crashes leaves no file that reads as another mesh. -/
theorem C102_crash_binary {D : Type} {io : FloatIO} {fin : W32 → Prop} {canon : W32 → W32} (hio : io.Ok fin canon) (narrow : D → W32) (V : List (Fin 3 → D))
    (F : List (Fin 3 → ℕ)) (hF : ∀ f ∈ F, ∀ k, f k < V.length) (hn : F.length < 4294967296) :
    ∃ file, writeStl io narrow true V F = some file ∧ ∀ (g : Byte) (val : W32 → K) (merge : Bool) (p r : List Byte), p ++ r = file → r ≠ [] →
      readStl io g val merge p = none := by
  obtain ⟨fs, h1, ⟨header, bs, h2, h3, h4⟩, _⟩ := C102_write hio narrow V F hF
  refine ⟨_, h4, ?_⟩
  intro g val merge p r hp hr
  have hl : bs.length = F.length := by rw [← h1.1, ← h3, List.length_map]
  unfold readStl
  rw [cut_binary io g header bs (by omega) h2 p r hp hr]
  rfl

/-- C102.  A text file that was cut off before the `i` of the last `endsolid` is refused, whatever the uninitialised byte is. -/
theorem C102_crash_text {D : Type} {io : FloatIO} {fin : W32 → Prop} {canon : W32 → W32} (hio : io.Ok fin canon) (narrow : D → W32) (V : List (Fin 3 → D))
    (F : List (Fin 3 → ℕ)) (hF : ∀ f ∈ F, ∀ k, f k < V.length) (hfin : ∀ v ∈ V, ∀ j, fin (narrow (v j))) (hn : F.length ≤ 25000000) :
    ∃ file, writeStl io narrow false V F = some file ∧ ∀ (g : Byte) (val : W32 → K) (merge : Bool) (p r : List Byte), p ++ r = file → 3 ≤ r.length →
      readStl io g val merge p = none := by
  obtain ⟨fs, h1, h2⟩ := facetsOf_corners narrow V F hF
  refine ⟨writeAscii io fs, by unfold writeStl; rw [h1]; rfl, ?_⟩
  intro g val merge p r hp hr
  have hff : ∀ f ∈ fs, ∀ k j, fin (f k j) := by
    intro f hf k j
    obtain ⟨i, hi⟩ := List.mem_iff_getElem?.mp hf
    have hlt : i < F.length := by
      rw [← h2.1]
      by_contra h
      rw [List.getElem?_eq_none (by omega)] at hi
      exact absurd hi (by simp)
    obtain ⟨v, hv, hv'⟩ := h2.2 i _ f (List.getElem?_eq_getElem hlt) hi k
    rw [hv' j]
    exact hfin v (List.mem_of_getElem? hv) j
  unfold readStl
  rw [cut_text hio g fs hff (by rw [h2.1]; exact hn) p r hp hr]
  rfl

/-- C102: the binary file of a mesh without faces is written, but refused when it is read. -/
theorem C102_empty_violated {D : Type} (io : FloatIO) (narrow : D → W32) (V : List (Fin 3 → D)) :
    ∃ file, writeStl io narrow true V [] = some file ∧ ∀ (g : Byte) (val : W32 → K) (merge : Bool), readStl io g val merge file = none := by
  refine ⟨writeBinary [], rfl, ?_⟩
  intro g val merge
  have h : isAscii (writeBinary []) = false := by decide +kernel
  have h2 : readBinary (writeBinary []) = none := by decide +kernel
  unfold readStl readSoup
  rw [h, if_neg (by simp), h2]
  rfl

/-! ## the hypotheses are met -/

/-- eight letters for a float -/
def hexIO : FloatIO where
  print x := (List.ofFn x).flatMap hexOf
  scan s := ((unhex ((s.dropWhile isWs).take 8)).bind (fun v => if v.length = 4 then some (valAt 4 v 0) else none)).map (fun x => (x, (s.dropWhile isWs).drop 8))

theorem hexIO_ok : hexIO.Ok (fun _ => True) id where
  zero := trivial
  word x _ := by
    refine ⟨by simp [hexIO, hexOf], by simp [hexIO, hexOf], ?_⟩
    intro b hb
    obtain ⟨y, _, hb⟩ := List.mem_flatMap.mp hb
    simp only [hexOf, List.mem_cons, List.not_mem_nil, or_false] at hb
    rcases hb with rfl | rfl <;> simp <;> omega
  scan x blanks rest _ hb _ := by
    have hl : ((List.ofFn x).flatMap hexOf).length = 8 := by simp [hexOf]
    have hd : (blanks ++ (List.ofFn x).flatMap hexOf ++ rest).dropWhile isWs = (List.ofFn x).flatMap hexOf ++ rest := by
      rw [List.append_assoc, dropWhile_ws blanks _ hb]
      simp only [List.ofFn_succ, List.flatMap_cons, hexOf, List.cons_append]
      refine dropWhile_head _ _ ?_
      simp [isWs]
      omega
    simp only [hexIO, hd]
    rw [List.take_left' hl, List.drop_left' hl, unhex_hexOf]
    simp only [Option.bind_some, List.length_ofFn, if_pos, Option.map_some, Option.some.injEq, Prod.mk.injEq, and_true, id]
    funext i
    match i with
    | 0 => rfl
    | 1 => rfl
    | 2 => rfl
    | 3 => rfl

/-- a header that begins with `solid`, two facets -/
example : ∃ V' F', readStl (K := ℚ) hexIO 7 (fun x => ((leVal (List.ofFn x) : ℕ) : ℚ)) true
    (binFile (fun i => if i.val = 0 then 115 else 111) [⟨fun _ => 1, fun k _ _ => if k = 0 then 3 else 0, fun _ => 9⟩, ⟨fun _ => 1, fun k _ _ => if k = 2 then 3 else 1, fun _ => 9⟩] [5, 6]) = some (V', F') ∧ F'.length = 2 := by
  obtain ⟨V', F', h1, h2, _⟩ := C102_read_binary (K := ℚ) hexIO 7 (fun x => ((leVal (List.ofFn x) : ℕ) : ℚ)) true (fun i => if i.val = 0 then 115 else 111)
    [⟨fun _ => 1, fun k _ _ => if k = 0 then 3 else 0, fun _ => 9⟩, ⟨fun _ => 1, fun k _ _ => if k = 2 then 3 else 1, fun _ => 9⟩] [5, 6] (by simp) (by decide) (Or.inl (by decide +kernel))
  exact ⟨V', F', h1, h2.1⟩

/-- a square of two triangles is written and read in both formats -/
example : ∃ V : List (Fin 3 → Fin 2), ∃ F : List (Fin 3 → ℕ), V.length = 4 ∧ F.length = 2 ∧ (∀ f ∈ F, ∀ k, f k < V.length) ∧
    ∃ file, writeStl hexIO (fun b _ => if b = 0 then 0 else 1) false V F = some file ∧
      ∃ V' F', readStl (K := ℚ) hexIO 7 (fun x => ((leVal (List.ofFn x) : ℕ) : ℚ)) true file = some (V', F') ∧ F'.length = 2 := by
  have hF : ∀ f ∈ [fun k : Fin 3 => k.val, fun k : Fin 3 => k.val + 1], ∀ k, f k < [fun _ : Fin 3 => (0 : Fin 2), fun j => if j = 0 then 1 else 0, fun j => if j = 1 then 1 else 0, fun _ => 1].length := by
    decide
  refine ⟨[fun _ => 0, fun j => if j = 0 then 1 else 0, fun j => if j = 1 then 1 else 0, fun _ => 1], [fun k => k.val, fun k => k.val + 1], rfl, rfl, hF, ?_⟩
  obtain ⟨file, h1, h2⟩ := C102_roundtrip_text (K := ℚ) hexIO_ok (fun (b : Fin 2) _ => if b = 0 then 0 else 1) _ _ hF (fun _ _ _ => trivial) (by decide)
  obtain ⟨V', F', h3, h4, _⟩ := h2 7 (fun x => ((leVal (List.ofFn x) : ℕ) : ℚ)) true
  exact ⟨file, h1, V', F', h3, h4.1⟩

/-- a text with another line, carriage returns and a name -/
def demoLines : List Physical :=
    [⟨[], .solid (asc (c! " part 7")), [13]⟩, ⟨[9], .noise (asc (c! "color 1 2 3")), [13]⟩, ⟨[9], .facet (fun _ => zero32), [32, 13]⟩, ⟨[9, 9], .outer, [13]⟩, ⟨[], .vertex (fun _ _ => 1), [13]⟩,
      ⟨[], .vertex (fun _ _ => 2), [13]⟩, ⟨[], .vertex (fun _ _ => 3), [13]⟩, ⟨[], .endloop, []⟩, ⟨[], .noise [], []⟩, ⟨[], .endfacet, []⟩, ⟨[32], .endsolid (asc (c! " part 7")), []⟩]

example : SaysFacets (demoLines.map Physical.line) [fun k _ _ => if k = 0 then 1 else if k = 1 then 2 else 3] := ⟨_, _, [fun _ => zero32], rfl, rfl⟩

example : TextOk hexIO (fun _ => True) demoLines where
  ok := by
    intro l hl
    simp only [demoLines, List.mem_cons, List.not_mem_nil, or_false] at hl
    rcases hl with rfl | rfl | rfl | rfl | rfl | rfl | rfl | rfl | rfl | rfl | rfl <;>
      refine ⟨?_, by unfold Blank; decide +kernel, by unfold Blank; decide +kernel⟩ <;> first | exact fun _ => True.intro | exact True.intro | (unfold Line.Ok; decide +kernel) | (unfold Line.Ok; exact ⟨by decide +kernel, by unfold keywords; decide +kernel⟩)
  short := by decide +kernel
  first := ⟨_, _, _, rfl⟩
  chars := by decide +kernel
  size := by decide +kernel

end Gpy.Stl
