import Verif.Proofs.Stl2
import Verif.Props.RemoveDuplicate

/-!
# STL: what is written, and what is read of it
-/

set_option autoImplicit false
namespace Gpy.Stl
open Gpy.Ply

variable {io : FloatIO} {fin : W32 → Prop} {canon : W32 → W32}

/-! ## the text that is written -/

def facetPhys (f : Facet) : List Physical :=
  [⟨asc (c! "  "), .facet (fun _ => zero32), []⟩, ⟨asc (c! "    "), .outer, []⟩, ⟨asc (c! "      "), .vertex (f 0), []⟩, ⟨asc (c! "      "), .vertex (f 1), []⟩,
    ⟨asc (c! "      "), .vertex (f 2), []⟩, ⟨asc (c! "    "), .endloop, []⟩, ⟨asc (c! "  "), .endfacet, []⟩]

def written (fs : List Facet) : List Physical :=
  ⟨[], .solid (asc (c! " microstl")), []⟩ :: (fs.flatMap facetPhys ++ [⟨[], .endsolid [], []⟩])

theorem textFile_append (io : FloatIO) (a b : List Physical) : textFile io (a ++ b) = textFile io a ++ textFile io b := by simp [textFile]

theorem asciiFacet_eq (io : FloatIO) (f : Facet) : asciiFacet io f = textFile io (facetPhys f) := by
  have e1 : asc (c! "  facet normal ") = asc (c! "  ") ++ asc (c! "facet normal ") := rfl
  have e2 : asc (c! "    outer loop\n") = asc (c! "    ") ++ asc (c! "outer loop") ++ [10] := rfl
  have e3 : asc (c! "      vertex ") = asc (c! "      ") ++ asc (c! "vertex ") := rfl
  have e4 : asc (c! "    endloop\n") = asc (c! "    ") ++ asc (c! "endloop") ++ [10] := rfl
  have e5 : asc (c! "  endfacet\n") = asc (c! "  ") ++ asc (c! "endfacet") ++ [10] := rfl
  unfold asciiFacet
  rw [e1, e2, e3, e4, e5]
  simp only [print3, textFile, facetPhys, List.flatMap_cons, List.flatMap_nil, Physical.text, Line.text, text3, List.append_assoc, List.append_nil, List.nil_append]

theorem facets_eq (io : FloatIO) (fs : List Facet) : fs.flatMap (asciiFacet io) = textFile io (fs.flatMap facetPhys) := by
  induction fs with
  | nil => rfl
  | cons f fs ih => rw [List.flatMap_cons, List.flatMap_cons, textFile_append, ih, asciiFacet_eq]

theorem writeAscii_eq (io : FloatIO) (fs : List Facet) : writeAscii io fs = textFile io (written fs) := by
  unfold writeAscii written
  have h : ∀ (a : Physical) (b c : List Physical), textFile io (a :: (b ++ c)) = a.text io ++ [10] ++ (textFile io b ++ textFile io c) := by
    intro a b c
    simp [textFile]
  rw [h, facets_eq, List.append_assoc]
  rfl

theorem written_says (fs : List Facet) : SaysFacets ((written fs).map Physical.line) fs := by
  refine ⟨asc (c! " microstl"), [], List.replicate fs.length (fun _ => zero32), List.length_replicate, ?_⟩
  have h : ∀ fs : List Facet, ((fs.flatMap facetPhys).map Physical.line).filter (fun l => !l.isNoise)
      = ((List.replicate fs.length (fun _ => zero32 : Pt)).zip fs).flatMap (fun q => facetLines q.1 q.2) := by
    intro fs
    induction fs with
    | nil => rfl
    | cons f fs ih =>
      rw [List.flatMap_cons, List.map_append, List.filter_append, ih, List.length_cons, List.replicate_succ, List.zip_cons_cons, List.flatMap_cons]
      rfl
  unfold written
  rw [List.map_cons, List.map_append, List.filter_cons_of_pos (by rfl), List.filter_append, h]
  rfl

theorem blank_spaces (s : List Byte) (h : ∀ b ∈ s, b.val = 32) : Blank s := fun b hb => Or.inr (Or.inl (h b hb))

/-- every line that is written: indentation, a line, and nothing behind -/
theorem written_mem (fs : List Facet) (l : Physical) (hl : l ∈ written fs) : (∃ n, l.pre = List.replicate n 32 ∧ n ≤ 6) ∧ l.post = [] ∧
    (l.line = .solid (asc (c! " microstl")) ∨ l.line = .endsolid [] ∨ l.line = .outer ∨ l.line = .endloop ∨ l.line = .endfacet ∨ l.line = .facet (fun _ => zero32) ∨
      ∃ f ∈ fs, ∃ k, l.line = .vertex (f k)) := by
  unfold written at hl
  rcases List.mem_cons.mp hl with rfl | hl
  · exact ⟨⟨0, rfl, by omega⟩, rfl, Or.inl rfl⟩
  rcases List.mem_append.mp hl with hl | hl
  · obtain ⟨f, hf, hl⟩ := List.mem_flatMap.mp hl
    simp only [facetPhys, List.mem_cons, List.not_mem_nil, or_false] at hl
    rcases hl with rfl | rfl | rfl | rfl | rfl | rfl | rfl
    · exact ⟨⟨2, rfl, by omega⟩, rfl, by simp⟩
    · exact ⟨⟨4, rfl, by omega⟩, rfl, by simp⟩
    · exact ⟨⟨6, rfl, by omega⟩, rfl, by right; right; right; right; right; right; exact ⟨f, hf, 0, rfl⟩⟩
    · exact ⟨⟨6, rfl, by omega⟩, rfl, by right; right; right; right; right; right; exact ⟨f, hf, 1, rfl⟩⟩
    · exact ⟨⟨6, rfl, by omega⟩, rfl, by right; right; right; right; right; right; exact ⟨f, hf, 2, rfl⟩⟩
    · exact ⟨⟨4, rfl, by omega⟩, rfl, by simp⟩
    · exact ⟨⟨2, rfl, by omega⟩, rfl, by simp⟩
  · rw [List.mem_singleton.mp hl]
    exact ⟨⟨0, rfl, by omega⟩, rfl, by simp⟩

theorem text3_bytes (hio : io.Ok fin canon) (p : Pt) (hp : ∀ i, fin (p i)) : (text3 io p).length ≤ 50 ∧ ∀ b ∈ text3 io p, 9 ≤ b.val := by
  have h0 := hio.word (p 0) (hp 0)
  have h1 := hio.word (p 1) (hp 1)
  have h2 := hio.word (p 2) (hp 2)
  constructor
  · simp only [text3, List.length_append, List.length_singleton]
    omega
  · intro b hb
    simp only [text3, List.append_assoc, List.mem_append, List.mem_singleton] at hb
    rcases hb with hb | rfl | hb | rfl | hb
    · have := h0.2.2 b hb; omega
    · decide
    · have := h1.2.2 b hb; omega
    · decide
    · have := h2.2.2 b hb; omega

theorem line_bytes (hio : io.Ok fin canon) (fs : List Facet) (hf : ∀ f ∈ fs, ∀ k j, fin (f k j)) (l : Physical) (hl : l ∈ written fs) :
    (l.line.text io).length ≤ 63 ∧ ∀ b ∈ l.line.text io, 9 ≤ b.val := by
  obtain ⟨_, _, h⟩ := written_mem fs l hl
  rcases h with h | h | h | h | h | h | ⟨f, hff, k, h⟩
  · rw [h]
    show (asc (c! "solid") ++ asc (c! " microstl")).length ≤ 63 ∧ ∀ b ∈ asc (c! "solid") ++ asc (c! " microstl"), 9 ≤ b.val
    decide +kernel
  · rw [h]
    show (asc (c! "endsolid") ++ []).length ≤ 63 ∧ ∀ b ∈ asc (c! "endsolid") ++ [], 9 ≤ b.val
    decide +kernel
  · rw [h]
    show (asc (c! "outer loop")).length ≤ 63 ∧ ∀ b ∈ asc (c! "outer loop"), 9 ≤ b.val
    decide +kernel
  · rw [h]
    show (asc (c! "endloop")).length ≤ 63 ∧ ∀ b ∈ asc (c! "endloop"), 9 ≤ b.val
    decide +kernel
  · rw [h]
    show (asc (c! "endfacet")).length ≤ 63 ∧ ∀ b ∈ asc (c! "endfacet"), 9 ≤ b.val
    decide +kernel
  · rw [h]
    obtain ⟨h1, h2⟩ := text3_bytes hio (fun _ => zero32) (fun _ => hio.zero)
    refine ⟨?_, fun b hb => ?_⟩
    · have : (asc (c! "facet normal ")).length = 13 := rfl
      simp only [Line.text, List.length_append, this]; omega
    · rcases List.mem_append.mp hb with hb | hb
      · have : ∀ b ∈ asc (c! "facet normal "), 9 ≤ b.val := by decide +kernel
        exact this b hb
      · exact h2 b hb
  · rw [h]
    obtain ⟨h1, h2⟩ := text3_bytes hio (f k) (hf f hff k)
    refine ⟨?_, fun b hb => ?_⟩
    · have : (asc (c! "vertex ")).length = 7 := rfl
      simp only [Line.text, List.length_append, this]; omega
    · rcases List.mem_append.mp hb with hb | hb
      · have : ∀ b ∈ asc (c! "vertex "), 9 ≤ b.val := by decide +kernel
        exact this b hb
      · exact h2 b hb

theorem asciiFacet_length (hio : io.Ok fin canon) (f : Facet) (hf : ∀ k j, fin (f k j)) : (asciiFacet io f).length ≤ 296 := by
  have h : ∀ p : Pt, (∀ i, fin (p i)) → (print3 io p).length ≤ 51 := by
    intro p hp
    have h0 := (hio.word (p 0) (hp 0)).2.1
    have h1 := (hio.word (p 1) (hp 1)).2.1
    have h2 := (hio.word (p 2) (hp 2)).2.1
    simp only [print3, List.length_append, List.length_singleton]
    omega
  have z := h (fun _ => zero32) (fun _ => hio.zero)
  have a := h (f 0) (hf 0)
  have b := h (f 1) (hf 1)
  have c := h (f 2) (hf 2)
  have e1 : (asc (c! "  facet normal ")).length = 15 := rfl
  have e2 : (asc (c! "    outer loop\n")).length = 15 := rfl
  have e3 : (asc (c! "      vertex ")).length = 13 := rfl
  have e4 : (asc (c! "    endloop\n")).length = 12 := rfl
  have e5 : (asc (c! "  endfacet\n")).length = 11 := rfl
  simp only [asciiFacet, List.length_append, e1, e2, e3, e4, e5]
  omega

theorem facets_length (hio : io.Ok fin canon) (fs : List Facet) (hf : ∀ f ∈ fs, ∀ k j, fin (f k j)) : (fs.flatMap (asciiFacet io)).length ≤ 296 * fs.length := by
  induction fs with
  | nil => simp
  | cons f fs ih =>
    have h1 := asciiFacet_length hio f (hf f (by simp))
    have h2 := ih (fun f h => hf f (by simp [h]))
    rw [List.flatMap_cons, List.length_append, List.length_cons]
    omega

theorem writeAscii_length (hio : io.Ok fin canon) (fs : List Facet) (hf : ∀ f ∈ fs, ∀ k j, fin (f k j)) (hn : fs.length ≤ 25000000) :
    (writeAscii io fs).length ≤ 7500000000 := by
  have h := facets_length hio fs hf
  have e1 : (asc (c! "solid microstl\n")).length = 15 := rfl
  have e2 : (asc (c! "endsolid\n")).length = 9 := rfl
  simp only [writeAscii, List.length_append, e1, e2]
  omega

theorem written_ok (hio : io.Ok fin canon) (fs : List Facet) (hf : ∀ f ∈ fs, ∀ k j, fin (f k j)) (hn : fs.length ≤ 25000000) : TextOk io fin (written fs) where
  ok := by
    intro l hl
    obtain ⟨⟨n, hpre, _⟩, hpost, h⟩ := written_mem fs l hl
    refine ⟨?_, ?_, ?_⟩
    · rcases h with h | h | h | h | h | h | ⟨f, hff, k, h⟩ <;> rw [h]
      · show ∀ b ∈ asc (c! " microstl"), b.val ≠ 10
        decide +kernel
      · show ∀ b ∈ [], _
        simp
      · trivial
      · trivial
      · trivial
      · exact fun _ => hio.zero
      · exact hf f hff k
    · rw [hpre]; exact blank_spaces _ (fun b hb => by rw [List.eq_of_mem_replicate hb]; rfl)
    · rw [hpost]; intro b hb; simp at hb
  short := by
    intro l hl
    obtain ⟨⟨n, hpre, hn⟩, hpost, _⟩ := written_mem fs l hl
    have := (line_bytes hio fs hf l hl).1
    simp only [Physical.text, hpre, hpost, List.length_append, List.length_replicate, List.length_nil]
    omega
  first := ⟨asc (c! " microstl"), [], _, rfl⟩
  chars := by
    intro l hl b hb
    obtain ⟨⟨n, hpre, _⟩, hpost, _⟩ := written_mem fs l hl
    simp only [Physical.text, hpre, hpost, List.append_nil] at hb
    rcases List.mem_append.mp hb with hb | hb
    · rw [List.eq_of_mem_replicate hb]; decide
    · exact (line_bytes hio fs hf l hl).2 b hb
  size := by
    have := writeAscii_length hio fs hf hn
    rw [writeAscii_eq] at this
    exact this

/-! ## the corners of the faces -/

theorem facetsOf_corners {D : Type} (narrow : D → W32) (V : List (Fin 3 → D)) (F : List (Fin 3 → ℕ)) (hF : ∀ f ∈ F, ∀ k, f k < V.length) :
    ∃ fs, facetsOf narrow V F = some fs ∧ Corners narrow V F fs := by
  induction F with
  | nil => exact ⟨[], rfl, rfl, by intro i f fc h; simp at h⟩
  | cons f F ih =>
    obtain ⟨fs, h1, h2, h3⟩ := ih (fun f h => hF f (by simp [h]))
    have g : ∀ k, V[f k]? = some (V[f k]'(hF f (by simp) k)) := fun k => List.getElem?_eq_getElem _
    refine ⟨(fun k j => narrow ((if k = 0 then V[f 0]'(hF f (by simp) 0) else if k = 1 then V[f 1]'(hF f (by simp) 1) else V[f 2]'(hF f (by simp) 2)) j)) :: fs, ?_, ?_, ?_⟩
    · unfold facetsOf at h1 ⊢
      rw [List.mapM_cons, h1, g 0, g 1, g 2]
      rfl
    · simp [h2]
    · intro i f' fc hf' hfc k
      cases i with
      | zero =>
        simp only [List.getElem?_cons_zero, Option.some.injEq] at hf' hfc
        subst hf' hfc
        match k with
        | 0 => exact ⟨_, g 0, fun j => rfl⟩
        | 1 => exact ⟨_, g 1, fun j => rfl⟩
        | 2 => exact ⟨_, g 2, fun j => rfl⟩
      | succ i => exact h3 i f' fc (by simpa using hf') (by simpa using hfc) k

/-! ## the soup -/

theorem flat3 {α β : Type} (g : α → List β) (hg : ∀ a, (g a).length = 3) (l : List α) (i k : ℕ) (hk : k < 3) :
    (l.flatMap g)[i * 3 + k]? = (l[i]?).bind (fun a => (g a)[k]?) := by
  induction l generalizing i with
  | nil => simp
  | cons a l ih =>
    rw [List.flatMap_cons]
    cases i with
    | zero => rw [List.getElem?_append_left (by rw [hg]; omega)]; simp
    | succ i =>
      rw [List.getElem?_append_right (by rw [hg]; omega), hg, show (i + 1) * 3 + k - 3 = i * 3 + k by omega, ih i]
      simp

theorem flat3_length {α β : Type} (g : α → List β) (hg : ∀ a, (g a).length = 3) (l : List α) : (l.flatMap g).length = l.length * 3 := by
  induction l with
  | nil => rfl
  | cons a l ih => rw [List.flatMap_cons, List.length_append, hg, ih, List.length_cons]; ring

variable {K : Type}

theorem soup_get (val : W32 → K) (fs : List Facet) (i : ℕ) (f : Facet) (hi : fs[i]? = some f) (k : Fin 3) :
    (soup val fs).1[i * 3 + k.val]? = some ((List.ofFn (f k)).map val) := by
  unfold soup
  simp only
  rw [flat3 _ (by intro a; simp) fs i k.val k.isLt, hi]
  simp only [Option.bind_some, List.getElem?_map]
  rw [List.getElem?_ofFn, dif_pos k.isLt]
  rfl

theorem soup_length (val : W32 → K) (fs : List Facet) : (soup val fs).1.length = fs.length * 3 := flat3_length _ (by intro a; simp) fs

theorem shows_soup (val : W32 → K) (fs : List Facet) : Shows val fs (soup val fs).1 (soup val fs).2 := by
  refine ⟨by simp [soup], ?_⟩
  intro i f hi
  have hlt : i < fs.length := by
    by_contra h
    rw [List.getElem?_eq_none (by omega)] at hi
    exact absurd hi (by simp)
  refine ⟨[i * 3, i * 3 + 1, i * 3 + 2], by simp [soup, hlt], rfl, ?_⟩
  intro k
  refine ⟨i * 3 + k.val, ?_, soup_get val fs i f hi k⟩
  match k with
  | 0 => rfl
  | 1 => rfl
  | 2 => rfl

theorem soup_flatten (val : W32 → K) (fs : List Facet) : (soup val fs).2.flatten = List.range (fs.length * 3) := by
  unfold soup
  simp only
  generalize fs.length = n
  induction n with
  | zero => rfl
  | succ n ih =>
    rw [List.range_succ, List.map_append, List.flatten_append, ih, show (n + 1) * 3 = n * 3 + 1 + 1 + 1 by ring, List.range_succ, List.range_succ, List.range_succ]
    simp

/-! ## merging -/

theorem rows3_get (l : List ℕ) (i a b c : ℕ) (ha : l[i * 3]? = some a) (hb : l[i * 3 + 1]? = some b) (hc : l[i * 3 + 2]? = some c) : (rows3 l)[i]? = some [a, b, c] := by
  induction i generalizing l with
  | zero =>
    match l, ha, hb, hc with
    | x :: y :: z :: r, ha, hb, hc => simp_all [rows3]
  | succ i ih =>
    match l, ha, hb, hc with
    | [], ha, _, _ => simp at ha
    | [_], ha, _, _ => simp at ha
    | [_, _], ha, _, _ => rw [List.getElem?_eq_none (by simp; omega)] at ha; exact absurd ha (by simp)
    | x :: y :: z :: r, ha, hb, hc =>
      rw [rows3, List.getElem?_cons_succ]
      rw [show (i + 1) * 3 = i * 3 + 1 + 1 + 1 by ring] at ha hb hc
      exact ih r ha hb hc

theorem rows3_length (l : List ℕ) (n : ℕ) (h : l.length = n * 3) : (rows3 l).length = n := by
  induction n generalizing l with
  | zero =>
    obtain rfl : l = [] := List.eq_nil_of_length_eq_zero (by simpa using h)
    rfl
  | succ n ih =>
    match l, h with
    | [], h => simp at h
    | [_], h => simp only [List.length_singleton] at h; omega
    | [_, _], h => simp only [List.length_cons, List.length_nil] at h; omega
    | x :: y :: z :: r, h =>
      simp only [List.length_cons] at h
      rw [rows3, List.length_cons, ih r (by omega)]

variable [Field K] [LinearOrder K] [IsStrictOrderedRing K] [FloorRing K]

theorem merged (val : W32 → K) (fs : List Facet) :
    ∃ V' F', ((removeDuplicateVerticesFaces (soup val fs).1 0 ((soup val fs).2.flatten.map (fun k : ℕ => (k : Int)))).map (fun r => (r.1, rows3 r.2.2.2))) = some (V', F') ∧
      Shows val fs V' F' ∧ V'.Nodup ∧ ∀ x ∈ V', ∃ f ∈ fs, ∃ k, x = (List.ofFn (f k)).map val := by
  obtain ⟨SV, SVI, SVJ, SF, h1, h2, h3, h4, h5⟩ := C17_faces (soup val fs).1 0 (soup val fs).2.flatten (by
    intro v hv
    rw [soup_flatten] at hv
    rw [soup_length]
    exact List.mem_range.mp hv)
  obtain ⟨SV', SVI', SVJ', e1, e2, e3, e4, e5, e6, _, _⟩ := C17_exact (soup val fs).1
  rw [h1] at e1
  simp only [Option.some.injEq, Prod.mk.injEq] at e1
  obtain ⟨rfl, rfl, rfl⟩ := e1
  rw [h2]
  refine ⟨SV, rows3 SF, rfl, ⟨rows3_length SF _ (by rw [h3, soup_flatten, List.length_range]), ?_⟩, e2, ?_⟩
  · intro i f hi
    have hlt : i < fs.length := by
      by_contra h
      rw [List.getElem?_eq_none (by omega)] at hi
      exact absurd hi (by simp)
    have key : ∀ k : Fin 3, ∃ v, SF[i * 3 + k.val]? = some v ∧ SV[v]? = some ((List.ofFn (f k)).map val) := by
      intro k
      obtain ⟨v, x, a1, a2, a3⟩ := h5 rfl (i * 3 + k.val) (i * 3 + k.val) (by
        rw [soup_flatten, List.getElem?_range (by have := k.isLt; omega)])
      rw [soup_get val fs i f hi k] at a3
      exact ⟨v, a1, by rw [a2, a3]⟩
    obtain ⟨a, ha, ha'⟩ := key 0
    obtain ⟨b, hb, hb'⟩ := key 1
    obtain ⟨c, hc, hc'⟩ := key 2
    refine ⟨[a, b, c], rows3_get SF i a b c ha hb hc, rfl, ?_⟩
    intro k
    match k with
    | 0 => exact ⟨a, rfl, ha'⟩
    | 1 => exact ⟨b, rfl, hb'⟩
    | 2 => exact ⟨c, rfl, hc'⟩
  · intro x hx
    obtain ⟨k, hk⟩ := List.mem_iff_getElem?.mp hx
    have hkl : k < SVI.length := by
      rw [e3]
      by_contra h
      rw [List.getElem?_eq_none (by omega)] at hk
      exact absurd hk (by simp)
    obtain ⟨y, hy1, hy2⟩ := e5 k _ (List.getElem?_eq_getElem hkl)
    rw [hk] at hy1
    have hm := List.mem_of_getElem? hy2
    rw [← Option.some.inj hy1] at hm
    unfold soup at hm
    obtain ⟨f, hf, hm⟩ := List.mem_flatMap.mp hm
    obtain ⟨p, hp, rfl⟩ := List.mem_map.mp hm
    obtain ⟨k, rfl⟩ := (List.mem_ofFn).mp hp
    exact ⟨f, hf, k, rfl⟩

/-! ## crash points -/

theorem takeBytes_some {k : ℕ} {s v r : List Byte} (h : takeBytes k s = some (v, r)) : s = v ++ r ∧ v.length = k := by
  have h0 := takeBytes_len h
  unfold takeBytes at h
  split at h
  · simp at h
  · simp only [Option.some.injEq, Prod.mk.injEq] at h
    exact ⟨by rw [← h.1, ← h.2, List.take_append_drop], h0⟩

theorem binFacets_len (n : ℕ) (s : List Byte) (fs : List Facet) (h : binFacets n s = some fs) : 50 * n ≤ s.length := by
  induction n generalizing s fs with
  | zero => omega
  | succ n ih =>
    unfold binFacets at h
    obtain ⟨q, hq, h⟩ := Option.bind_eq_some_iff.mp h
    obtain ⟨r, hr, _⟩ := Option.map_eq_some_iff.mp h
    obtain ⟨e, hl⟩ := takeBytes_some (v := q.1) (r := q.2) hq
    have := ih q.2 r hr
    rw [e, List.length_append, hl]
    omega

/-- a binary file that was cut off is refused -/
theorem cut_binary (io : FloatIO) (g : Byte) (header : Fin 80 → Byte) (fs : List BinFacet) (hn : fs.length < 4294967296) (hh : ¬ kSolid <+: List.ofFn header)
    (p r : List Byte) (hp : p ++ r = binFile header fs []) (hr : r ≠ []) : readSoup io g p = none := by
  have hrl : 0 < r.length := List.length_pos_iff.mpr hr
  have hlen : p.length + r.length = 84 + fs.length * 50 := by
    rw [← List.length_append, hp, binFile_eq]
    simp only [List.length_append, List.length_ofFn, leBytes_length, flat_length, List.length_nil]
    omega
  have hna : isAscii p = false := by
    refine isAscii_not _ fun h => hh ?_
    have h1 : kSolid <+: binFile header fs [] := by rw [← hp]; exact h.trans (List.prefix_append _ _)
    rw [binFile_eq] at h1
    exact List.prefix_of_prefix_length_le h1 (List.prefix_append _ _) (by rw [List.length_ofFn]; decide)
  unfold readSoup
  rw [hna, if_neg (by simp)]
  by_contra hne
  obtain ⟨out, ho⟩ := Option.ne_none_iff_exists'.mp hne
  unfold readBinary at ho
  obtain ⟨h, hh1, ho⟩ := Option.bind_eq_some_iff.mp ho
  obtain ⟨q, hq1, ho⟩ := Option.bind_eq_some_iff.mp ho
  obtain ⟨e1, l1⟩ := takeBytes_some (v := h.1) (r := h.2) hh1
  obtain ⟨e2, l2⟩ := takeBytes_some (v := q.1) (r := q.2) hq1
  rw [binFile_eq, e1, e2] at hp
  simp only [List.append_assoc] at hp
  obtain ⟨a1, a2⟩ := List.append_inj hp (by rw [l1, List.length_ofFn])
  obtain ⟨b1, b2⟩ := List.append_inj a2 (by rw [l2, leBytes_length])
  rw [b1, leVal_leBytes 4 fs.length (by norm_num; exact hn)] at ho
  split at ho
  · simp at ho
  split at ho
  · simp at ho
  have := binFacets_len _ _ _ ho
  have hpl : p.length = 84 + q.2.length := by rw [e1, e2, List.length_append, List.length_append, l1, l2]; omega
  omega

/-- the lines of a file that was cut off -/
theorem lines_cut (g : Byte) (ts : List (List Byte)) (ht : ∀ t ∈ ts, ∀ b ∈ t, b.val ≠ 10) (hl : ∀ t ∈ ts, t.length ≤ 256) (p : List Byte) (hp : p <+: ts.flatMap (fun t => t ++ [10])) (L : List (List Byte))
    (hL : lines g p [] = some L) : ∀ l ∈ L, ∃ u, (u = [] ∨ ∃ t ∈ ts, u <+: t) ∧ (l = u ∨ l = u ++ [g]) := by
  have base : ∀ (p out : List Byte) (L : List (List Byte)), (∀ b ∈ p, b.val ≠ 10) → lines g p out = some L → ∀ l ∈ L, l = out ++ p ∨ l = out ++ p ++ [g] := by
    intro p
    induction p with
    | nil =>
      intro out L _ hL l hl
      unfold lines at hL
      split at hL
      · rw [← Option.some.inj hL] at hl; simp at hl; left; simpa using hl
      · split at hL
        · rw [← Option.some.inj hL] at hl; simp at hl
        · rw [← Option.some.inj hL] at hl; simp at hl; right; simpa using hl
    | cons b p ih =>
      intro out L hb hL l hl
      unfold lines at hL
      rw [if_neg (hb b (by simp))] at hL
      split at hL
      · simp at hL
      · have := ih (out ++ [b]) L (fun x hx => hb x (by simp [hx])) hL l hl
        simpa using this
  induction ts generalizing p L with
  | nil =>
    rw [List.flatMap_nil, List.prefix_nil] at hp
    subst hp
    intro l hl
    rcases base [] [] L (by simp) hL l hl with h | h
    · exact ⟨[], Or.inl rfl, Or.inl h⟩
    · exact ⟨[], Or.inl rfl, Or.inr h⟩
  | cons t ts ih =>
    rw [List.flatMap_cons] at hp
    rcases Nat.lt_or_ge t.length p.length with hlt | hge
    · obtain ⟨r, hr⟩ := hp
      have h1 : t ++ [10] <+: p := List.prefix_of_prefix_length_le (List.prefix_append _ _) ⟨r, hr⟩ (by simp; omega)
      obtain ⟨p', rfl⟩ := h1
      rw [List.append_assoc, List.append_assoc, List.append_assoc] at hr
      have hr' := (List.append_cancel_left hr)
      have hr2 : p' ++ r = ts.flatMap (fun t => t ++ [10]) := by simpa using hr'
      rw [List.append_assoc, List.singleton_append, lines_line g t p' [] (ht t (by simp)) (by have := hl t (by simp); simp; omega)] at hL
      obtain ⟨L', hL', rfl⟩ := Option.map_eq_some_iff.mp hL
      intro l hlm
      rcases List.mem_cons.mp hlm with hlm | hlm
      · exact ⟨t, Or.inr ⟨t, by simp, List.prefix_refl _⟩, Or.inl (by simpa using hlm)⟩
      · obtain ⟨u, hu, hu'⟩ := ih (fun t h => ht t (by simp [h])) (fun t h => hl t (by simp [h])) p' ⟨r, hr2⟩ L' hL' l hlm
        refine ⟨u, ?_, hu'⟩
        rcases hu with rfl | ⟨t', ht', hp'⟩
        · exact Or.inl rfl
        · exact Or.inr ⟨t', by simp [ht'], hp'⟩
    · have hpt : p <+: t := by
        rw [List.append_assoc] at hp
        exact List.prefix_of_prefix_length_le hp (List.prefix_append _ _) hge
      intro l hlm
      rcases base p [] L (fun b hb => ht t (by simp) b (hpt.mem hb)) hL l hlm with h | h
      · exact ⟨p, Or.inr ⟨t, by simp, hpt⟩, Or.inl (by simpa using h)⟩
      · exact ⟨p, Or.inr ⟨t, by simp, hpt⟩, Or.inr (by simpa using h)⟩

theorem dropWhile_prefix {u t : List Byte} (h : u <+: t) (hne : u.dropWhile isWs ≠ []) : u.dropWhile isWs <+: t.dropWhile isWs := by
  obtain ⟨w, rfl⟩ := h
  rw [List.dropWhile_append, if_neg (by simpa using hne)]
  exact List.prefix_append _ _

def kEndsoli : List Byte := asc (c! "endsoli")

theorem no_endsolid (g : Byte) (u t l : List Byte) (hu : u <+: t) (hl : l = u ∨ l = u ++ [g]) (ht : ¬ kEndsoli <+: t.dropWhile isWs) : ¬ kEndsolid <+: trim l := by
  intro h
  have h1 : kEndsolid <+: l.dropWhile isWs := h.trans (rtrim_prefix _)
  have h7 : kEndsolid = kEndsoli ++ [100] := rfl
  have hlen := h1.length_le
  have e8 : kEndsolid.length = 8 := rfl
  have e7 : kEndsoli.length = 7 := rfl
  refine ht ?_
  have h2 : kEndsoli <+: u.dropWhile isWs := by
    rcases hl with rfl | rfl
    · exact (by rw [h7]; exact List.prefix_append _ _ : kEndsoli <+: kEndsolid).trans h1
    · rw [List.dropWhile_append] at h1 hlen
      split at hlen
      · have := (List.dropWhile_suffix (l := [g]) isWs).length_le
        rw [List.length_singleton] at this
        omega
      · rename_i hne
        rw [if_neg hne] at h1
        rw [List.length_append, List.length_singleton] at hlen
        exact List.prefix_of_prefix_length_le ((by rw [h7]; exact List.prefix_append _ _ : kEndsoli <+: kEndsolid).trans h1) (List.prefix_append _ _) (by omega)
  refine h2.trans (dropWhile_prefix hu ?_)
  intro h0
  rw [h0] at h2
  have := h2.length_le
  rw [e7] at this
  simp at this

theorem fold_solids (io : FloatIO) (L : List (List Byte)) (hL : ∀ l ∈ L, ¬ kEndsolid <+: trim l) (st st' : St) (h : L.foldlM (fun st l => step io st (trim l)) st = some st') :
    st'.solids = st.solids := by
  induction L generalizing st with
  | nil => rw [List.foldlM_nil] at h; rw [Option.some.inj h]
  | cons l L ih =>
    rw [List.foldlM_cons] at h
    obtain ⟨s1, h1, h2⟩ := Option.bind_eq_some_iff.mp h
    rw [ih (fun l hl => hL l (by simp [hl])) s1 h2]
    have hf : kEndsolid.isPrefixOf (trim l) = false := by
      by_contra h'
      exact hL l (by simp) (List.isPrefixOf_iff_prefix.mp (by simpa using h'))
    unfold step at h1
    rw [hf] at h1
    split at h1
    · split at h1
      · simp at h1
      · rw [← Option.some.inj h1]
    split at h1
    · rename_i h; simp at h
    split at h1
    · split at h1
      · simp at h1
      · obtain ⟨_, _, e⟩ := Option.map_eq_some_iff.mp h1; rw [← e]
    split at h1
    · split at h1
      · simp at h1
      · rw [← Option.some.inj h1]
    split at h1
    · split at h1
      · simp at h1
      · rw [← Option.some.inj h1]
    split at h1
    · split at h1
      · simp at h1
      · rw [← Option.some.inj h1]
    split at h1
    · split at h1
      · simp at h1
      · obtain ⟨_, _, e⟩ := Option.map_eq_some_iff.mp h1; rw [← e]
    rw [Option.some.inj h1]

/-- a text file that was cut off is refused, whatever the uninitialised byte is -/
theorem cut_text (hio : io.Ok fin canon) (g : Byte) (fs : List Facet) (hf : ∀ f ∈ fs, ∀ k j, fin (f k j)) (hn : fs.length ≤ 25000000)
    (p r : List Byte) (hp : p ++ r = writeAscii io fs) (hr : 3 ≤ r.length) : readSoup io g p = none := by
  have hok := written_ok hio fs hf hn
  have hwl := writeAscii_length hio fs hf hn
  by_cases hs : kSolid <+: p
  · have hasc : isAscii p = true := by
      refine isAscii_text p hs ?_ ?_
      · intro b hb
        have hb' : b ∈ textFile io (written fs) := by rw [← writeAscii_eq, ← hp]; exact List.mem_append_left _ hb
        obtain ⟨l, hl, hb'⟩ := List.mem_flatMap.mp hb'
        rcases List.mem_append.mp hb' with h | h
        · exact hok.chars l hl b h
        · rw [List.mem_singleton.mp h]; decide
      · rw [← hp, List.length_append] at hwl; omega
    unfold readSoup
    rw [hasc, if_pos rfl]
    by_contra hne
    obtain ⟨out, ho⟩ := Option.ne_none_iff_exists'.mp hne
    unfold readAscii at ho
    obtain ⟨L, hL, ho⟩ := Option.bind_eq_some_iff.mp ho
    obtain ⟨st, hst, ho⟩ := Option.bind_eq_some_iff.mp ho
    have hsol : st.solids = 0 := by
      refine fold_solids io L ?_ _ _ hst
      have hcut := lines_cut g ((asc (c! "solid microstl")) :: ((fs.flatMap facetPhys).map (Physical.text io) ++ [asc (c! "endsol")])) ?_ ?_ p ?_ L hL
      · intro l hl
        obtain ⟨u, hu, hul⟩ := hcut l hl
        have hno : ∀ t ∈ (asc (c! "solid microstl")) :: ((fs.flatMap facetPhys).map (Physical.text io) ++ [asc (c! "endsol")]), ¬ kEndsoli <+: t.dropWhile isWs := by
          intro t ht
          rcases List.mem_cons.mp ht with rfl | ht
          · decide +kernel
          rcases List.mem_append.mp ht with ht | ht
          · obtain ⟨l, hl, rfl⟩ := List.mem_map.mp ht
            obtain ⟨f, hff, hl⟩ := List.mem_flatMap.mp hl
            have hfalse : ∀ s : List Byte, kEndsoli.isPrefixOf s = false → ¬ kEndsoli <+: s := fun s h h' => by
              rw [List.isPrefixOf_iff_prefix.mpr h'] at h; exact absurd h (by simp)
            simp only [facetPhys, List.mem_cons, List.not_mem_nil, or_false] at hl
            rcases hl with rfl | rfl | rfl | rfl | rfl | rfl | rfl <;> exact hfalse _ rfl
          · rw [List.mem_singleton.mp ht]; decide +kernel
        rcases hu with rfl | ⟨t, ht, hut⟩
        · exact no_endsolid g [] [] l (List.prefix_refl _) hul (by decide)
        · exact no_endsolid g u t l hut hul (hno t ht)
      · intro t ht
        rcases List.mem_cons.mp ht with rfl | ht
        · decide +kernel
        rcases List.mem_append.mp ht with ht | ht
        · obtain ⟨l, hl, rfl⟩ := List.mem_map.mp ht
          exact text_no_break hio l (hok.ok l (List.mem_cons_of_mem _ (List.mem_append_left _ hl)))
        · rw [List.mem_singleton.mp ht]; decide +kernel
      · intro t ht
        rcases List.mem_cons.mp ht with rfl | ht
        · decide +kernel
        rcases List.mem_append.mp ht with ht | ht
        · obtain ⟨l, hl, rfl⟩ := List.mem_map.mp ht
          exact hok.short l (List.mem_cons_of_mem _ (List.mem_append_left _ hl))
        · rw [List.mem_singleton.mp ht]; decide +kernel
      · have h1 : writeAscii io fs = (asc (c! "solid microstl\n") ++ fs.flatMap (asciiFacet io) ++ asc (c! "endsol")) ++ asc (c! "id\n") := by
          unfold writeAscii
          rw [show asc (c! "endsolid\n") = asc (c! "endsol") ++ asc (c! "id\n") from rfl]
          simp only [List.append_assoc]
        have hpre : p <+: asc (c! "solid microstl\n") ++ fs.flatMap (asciiFacet io) ++ asc (c! "endsol") := by
          refine List.prefix_of_prefix_length_le (⟨r, hp⟩ : p <+: writeAscii io fs) (by rw [h1]; exact List.prefix_append _ _) ?_
          have := congrArg List.length (hp.trans h1)
          rw [List.length_append, List.length_append (bs := asc (c! "id\n")), show (asc (c! "id\n")).length = 3 from rfl] at this
          omega
        refine hpre.trans ?_
        rw [List.flatMap_cons, List.flatMap_append, facets_eq, List.flatMap_map]
        refine ⟨[10], ?_⟩
        simp only [List.flatMap_cons, List.flatMap_nil, List.append_nil, List.append_assoc]
        rfl
    simp [hsol] at ho
  · unfold readSoup
    rw [isAscii_not p hs, if_neg (by simp)]
    have hlt : p.length < 5 := by
      by_contra hge
      refine hs (List.prefix_of_prefix_length_le (?_ : kSolid <+: writeAscii io fs) ⟨r, hp⟩ (by rw [show kSolid.length = 5 from rfl]; omega))
      refine ⟨asc (c! " microstl\n") ++ fs.flatMap (asciiFacet io) ++ asc (c! "endsolid\n"), ?_⟩
      unfold writeAscii
      rw [show asc (c! "solid microstl\n") = kSolid ++ asc (c! " microstl\n") from rfl]
      simp only [List.append_assoc]
    have : takeBytes 80 p = none := by unfold takeBytes; rw [if_pos (by omega)]
    unfold readBinary
    rw [this]; rfl

end Gpy.Stl
