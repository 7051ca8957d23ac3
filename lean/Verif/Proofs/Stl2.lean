import Verif.Proofs.Stl

/-!
# STL: files
-/

set_option autoImplicit false
namespace Gpy.Stl
open Gpy.Ply

variable {io : FloatIO} {fin : W32 → Prop} {canon : W32 → W32}

/-! ## text or binary -/

theorem leVal_lower (l : List Byte) (hl : l.length = 4) (h : ∀ b ∈ l, 9 ≤ b.val) : 151587081 ≤ leVal l := by
  match l, hl with
  | [a, b, c, d], _ =>
    have h1 := h a (by simp)
    have h2 := h b (by simp)
    have h3 := h c (by simp)
    have h4 := h d (by simp)
    simp only [leVal]
    omega

/-- a text that begins with `solid` and is not too long is taken for text -/
theorem isAscii_text (s : List Byte) (h0 : kSolid <+: s) (hc : ∀ b ∈ s, 9 ≤ b.val) (hs : s.length ≤ 7500000000) : isAscii s = true := by
  unfold isAscii
  rw [List.isPrefixOf_iff_prefix.mpr h0, Bool.true_and]
  by_cases h84 : 84 ≤ s.length
  · have := leVal_lower ((s.drop 80).take 4) (by rw [List.length_take, List.length_drop]; omega)
      (fun b hb => hc b (List.mem_of_mem_drop (List.mem_of_mem_take hb)))
    have hne : ¬ s.length = 84 + leVal ((s.drop 80).take 4) * 50 := by omega
    simp [hne]
  · simp [h84]

theorem isAscii_not (s : List Byte) (h : ¬ kSolid <+: s) : isAscii s = false := by
  unfold isAscii
  have : kSolid.isPrefixOf s = false := by
    by_contra h'
    exact h (List.isPrefixOf_iff_prefix.mp (by simpa using h'))
  rw [this, Bool.false_and]

/-! ## text -/

theorem text_no_break (hio : io.Ok fin canon) (l : Physical) (hok : l.line.Ok fin ∧ Blank l.pre ∧ Blank l.post) : ∀ b ∈ l.text io, b.val ≠ 10 := by
  intro b hb
  unfold Physical.text at hb
  have h3 : ∀ p : Pt, (∀ i, fin (p i)) → ∀ b ∈ text3 io p, b.val ≠ 10 := by
    intro p hp b hb
    have key : ∀ i, ∀ b ∈ io.print (p i), b.val ≠ 10 := fun i b hb => by
      have := (hio.word (p i) (hp i)).2.2 b hb; omega
    unfold text3 at hb
    simp only [List.append_assoc, List.mem_append, List.mem_singleton] at hb
    rcases hb with hb | rfl | hb | rfl | hb
    · exact key 0 b hb
    · decide
    · exact key 1 b hb
    · decide
    · exact key 2 b hb
  rcases List.mem_append.mp hb with hb | hb
  · rcases List.mem_append.mp hb with hb | hb
    · exact blank_ne hok.2.1 b hb
    · obtain ⟨pre, line, post⟩ := l
      have hk : ∀ k ∈ [asc (c! "solid"), asc (c! "endsolid"), asc (c! "facet normal "), asc (c! "vertex "), asc (c! "outer loop"), asc (c! "endloop"), asc (c! "endfacet")],
          ∀ b ∈ k, b.val ≠ 10 := by decide +kernel
      cases line with
      | solid name =>
        rcases List.mem_append.mp hb with hb | hb
        · exact hk (asc (c! "solid")) (by simp) b hb
        · exact hok.1 b hb
      | endsolid name =>
        rcases List.mem_append.mp hb with hb | hb
        · exact hk (asc (c! "endsolid")) (by simp) b hb
        · exact hok.1 b hb
      | facet n =>
        rcases List.mem_append.mp hb with hb | hb
        · exact hk (asc (c! "facet normal ")) (by simp) b hb
        · exact h3 n hok.1 b hb
      | vertex n =>
        rcases List.mem_append.mp hb with hb | hb
        · exact hk (asc (c! "vertex ")) (by simp) b hb
        · exact h3 n hok.1 b hb
      | outer => exact hk (asc (c! "outer loop")) (by simp) b hb
      | endloop => exact hk (asc (c! "endloop")) (by simp) b hb
      | endfacet => exact hk (asc (c! "endfacet")) (by simp) b hb
      | noise s => exact hok.1.1 b hb
  · exact blank_ne hok.2.2 b hb

theorem short_no_kw (l : List Byte) (h : l.length ≤ 1) : ∀ k ∈ keywords, ¬ k <+: trim l := by
  intro k hk hp
  have h1 : ∀ k ∈ keywords, 5 ≤ k.length := by decide
  have h2' : k <+: l.dropWhile isWs := hp.trans (rtrim_prefix _)
  have h2 := h2'.length_le
  have h3 := (List.dropWhile_suffix (l := l) isWs).length_le
  have := h1 k hk
  omega

theorem lines_text (hio : io.Ok fin canon) (g : Byte) (ls : List Physical) (h : ∀ l ∈ ls, l.line.Ok fin ∧ Blank l.pre ∧ Blank l.post)
    (hs : ∀ l ∈ ls, (l.text io).length ≤ 256) : lines g (textFile io ls) [] = some (ls.map (Physical.text io) ++ [lastLine g]) := by
  have := lines_file g (ls.map (Physical.text io)) (by
    intro t ht
    obtain ⟨l, hl, rfl⟩ := List.mem_map.mp ht
    exact ⟨text_no_break hio l (h l hl), by have := hs l hl; omega⟩)
  rw [List.flatMap_map] at this
  exact this

theorem foldl_text (io : FloatIO) (ls : List Physical) (t : List Byte) (st st' : St) (h : run io ls st = some st') (ht : ∀ k ∈ keywords, ¬ k <+: trim t) :
    (ls.map (Physical.text io) ++ [t]).foldlM (fun st l => step io st (trim l)) st = some st' := by
  rw [List.foldlM_append, List.foldlM_map]
  unfold run at h
  rw [h]
  refine Option.bind_eq_some_iff.mpr ⟨st', rfl, ?_⟩
  rw [List.foldlM_cons]
  exact Option.bind_eq_some_iff.mpr ⟨st', no_kw io st' _ ht, rfl⟩

/-- reading a text file -/
theorem read_text (hio : io.Ok fin canon) (g : Byte) (ls : List Physical) (hok : TextOk io fin ls) (fs : List Facet) (hs : SaysFacets (ls.map Physical.line) fs) :
    readSoup io g (textFile io ls) = some (fs.map (fun f k j => canon (f k j))) := by
  have hasc : isAscii (textFile io ls) = true := by
    refine isAscii_text _ ?_ ?_ hok.size
    · obtain ⟨name, post, rest, e⟩ := hok.first
      rw [e]
      refine ⟨name ++ (post ++ ([10] ++ textFile io rest)), ?_⟩
      simp [textFile, Physical.text, Line.text, kSolid]
    · intro b hb
      obtain ⟨l, hl, hb⟩ := List.mem_flatMap.mp hb
      rcases List.mem_append.mp hb with hb | hb
      · exact hok.chars l hl b hb
      · rw [List.mem_singleton.mp hb]; decide
  obtain ⟨v, hv⟩ := run_text hio ls hok.ok fs hs
  unfold readSoup readAscii
  rw [hasc, if_pos rfl, lines_text hio g ls hok.ok hok.short]
  simp only [Option.bind_some]
  rw [foldl_text io ls (lastLine g) _ _ hv (short_no_kw _ (by unfold lastLine; split <;> simp))]
  simp

/-! ## binary -/

theorem facet_bytes (f : BinFacet) (k c : Fin 3) : valAt 4 (List.ofFn f.normal ++ (List.ofFn f.corners).flatMap (fun p => (List.ofFn p).flatMap (fun x => List.ofFn x)) ++ List.ofFn f.attr)
    (12 + 12 * k.val + 4 * c.val) = f.corners k c := by
  funext i
  match k, c, i with
  | 0, 0, 0 | 0, 0, 1 | 0, 0, 2 | 0, 0, 3 | 0, 1, 0 | 0, 1, 1 | 0, 1, 2 | 0, 1, 3 | 0, 2, 0 | 0, 2, 1 | 0, 2, 2 | 0, 2, 3 => rfl
  | 1, 0, 0 | 1, 0, 1 | 1, 0, 2 | 1, 0, 3 | 1, 1, 0 | 1, 1, 1 | 1, 1, 2 | 1, 1, 3 | 1, 2, 0 | 1, 2, 1 | 1, 2, 2 | 1, 2, 3 => rfl
  | 2, 0, 0 | 2, 0, 1 | 2, 0, 2 | 2, 0, 3 | 2, 1, 0 | 2, 1, 1 | 2, 1, 2 | 2, 1, 3 | 2, 2, 0 | 2, 2, 1 | 2, 2, 2 | 2, 2, 3 => rfl

/-- the bytes of a facet -/
def BinFacet.bytes (f : BinFacet) : List Byte :=
  List.ofFn f.normal ++ (List.ofFn f.corners).flatMap (fun p => (List.ofFn p).flatMap (fun x => List.ofFn x)) ++ List.ofFn f.attr

theorem bytes_length (f : BinFacet) : f.bytes.length = 50 := by
  unfold BinFacet.bytes
  simp [List.ofFn_succ]

theorem binFacets_spec (fs : List BinFacet) (rest : List Byte) : binFacets fs.length (fs.flatMap BinFacet.bytes ++ rest) = some (fs.map BinFacet.corners) := by
  induction fs with
  | nil => rfl
  | cons f fs ih =>
    rw [List.length_cons, List.flatMap_cons, List.append_assoc]
    unfold binFacets
    have := takeBytes_append f.bytes (fs.flatMap BinFacet.bytes ++ rest)
    rw [bytes_length] at this
    rw [this]
    simp only [Option.bind_some, ih, Option.map_some, List.map_cons, Option.some.injEq, List.cons.injEq, and_true]
    funext k c
    exact facet_bytes f k c

theorem binFile_eq (header : Fin 80 → Byte) (fs : List BinFacet) (rest : List Byte) :
    binFile header fs rest = List.ofFn header ++ (leBytes 4 fs.length ++ (fs.flatMap BinFacet.bytes ++ rest)) := by
  unfold binFile BinFacet.bytes
  simp only [List.append_assoc]

theorem read_binary_file (header : Fin 80 → Byte) (fs : List BinFacet) (rest : List Byte) (h0 : fs ≠ []) (hn : fs.length ≤ 500000000) :
    readBinary (binFile header fs rest) = some (fs.map BinFacet.corners) := by
  have hl := leVal_leBytes 4 fs.length (by norm_num; omega)
  have hpos : fs.length ≠ 0 := fun h => h0 (List.eq_nil_of_length_eq_zero h)
  unfold readBinary
  rw [binFile_eq]
  have t1 := takeBytes_append (List.ofFn header) (leBytes 4 fs.length ++ (fs.flatMap BinFacet.bytes ++ rest))
  rw [List.length_ofFn] at t1
  have t2 := takeBytes_append (leBytes 4 fs.length) (fs.flatMap BinFacet.bytes ++ rest)
  rw [leBytes_length] at t2
  rw [t1]
  simp only [Option.bind_some]
  rw [t2]
  simp only [Option.bind_some, hl]
  rw [if_neg hpos, if_neg (by omega)]
  exact binFacets_spec fs rest

theorem flat_length (fs : List BinFacet) : (fs.flatMap BinFacet.bytes).length = fs.length * 50 := by
  induction fs with
  | nil => rfl
  | cons f fs ih => rw [List.flatMap_cons, List.length_append, bytes_length, ih, List.length_cons]; ring

/-- reading a binary file -/
theorem read_binary (io : FloatIO) (g : Byte) (header : Fin 80 → Byte) (fs : List BinFacet) (rest : List Byte) (h0 : fs ≠ []) (hn : fs.length ≤ 500000000)
    (hh : ¬ kSolid <+: List.ofFn header ∨ rest = []) : readSoup io g (binFile header fs rest) = some (fs.map BinFacet.corners) := by
  have hl := leVal_leBytes 4 fs.length (by norm_num; omega)
  have hasc : isAscii (binFile header fs rest) = false := by
    rcases hh with h | h
    · refine isAscii_not _ ?_
      rw [binFile_eq]
      intro hp
      exact h (List.prefix_of_prefix_length_le hp (List.prefix_append _ _) (by rw [List.length_ofFn]; decide))
    · unfold isAscii
      have hlen : (binFile header fs rest).length = 84 + fs.length * 50 := by
        rw [binFile_eq, h]
        simp only [List.length_append, List.length_ofFn, leBytes_length, flat_length, List.length_nil]
        omega
      have hd : ((binFile header fs rest).drop 80).take 4 = leBytes 4 fs.length := by
        rw [binFile_eq, List.drop_append, List.length_ofFn, Nat.sub_self, List.drop_zero]
        have : (List.ofFn header).drop 80 = [] := List.drop_eq_nil_of_le (by rw [List.length_ofFn])
        rw [this, List.nil_append]
        exact List.take_left' (leBytes_length 4 _)
      rw [hd, hl, hlen]
      simp
  unfold readSoup
  rw [hasc]
  exact read_binary_file header fs rest h0 hn

/-- what is written in binary -/
theorem writeBinary_eq (fs : List Facet) : writeBinary fs
    = binFile (fun i => (asc (c! "microstl") ++ List.replicate 72 0).getD i.val 0) (fs.map (fun f => ⟨fun _ => 0, f, fun _ => 0⟩)) [] := by
  rw [binFile_eq, List.append_nil, List.length_map, List.flatMap_map]
  unfold writeBinary
  have h : asc (c! "microstl") ++ List.replicate 72 0 = List.ofFn (fun i : Fin 80 => (asc (c! "microstl") ++ List.replicate 72 0).getD i.val 0) := by decide +kernel
  rw [h, List.append_assoc]
  rfl

end Gpy.Stl
