import Verif.Spec.Ply
import Mathlib.Tactic.Ring

/-!
# PLY: codecs, header, payload
-/

set_option autoImplicit false
namespace Gpy.Ply

theorem leVal_leBytes (k n : ℕ) (h : n < 256 ^ k) : leVal (leBytes k n) = n := by
  induction k generalizing n with
  | zero => simp at h; simp [leBytes, leVal, h]
  | succ k ih =>
    have h2 : n / 256 < 256 ^ k := by rw [pow_succ] at h; omega
    simp only [leBytes, leVal, ih _ h2]
    omega

theorem leBytes_length (k n : ℕ) : (leBytes k n).length = k := by
  induction k generalizing n with
  | zero => rfl
  | succ k ih => simp [leBytes, ih]

/-- reading inverts writing, up to blanks -/
structure Lawful (pt : Put) (cd : Codec) (canon : Ty → List Byte → List Byte) (Pad : List Byte → Prop) : Prop where
  nil : Pad []
  eol : ∀ p, Pad p → Pad (p ++ pt.eol)
  get : ∀ p t b, Pad p → t ≠ .invalid → b.length = t.stride → ∃ p', Pad p' ∧ ∀ rest, cd.get t (p ++ (pt.val t b ++ rest)) = some (canon t b, p' ++ rest)
  skip : ∀ p t b, Pad p → t ≠ .invalid → b.length = t.stride → ∃ p', Pad p' ∧ ∀ rest, cd.skip t (p ++ (pt.val t b ++ rest)) = some (p' ++ rest)
  count : ∀ p lt n, Pad p → lt.isInt = true → 2 * n < 256 ^ lt.stride → ∃ p', Pad p' ∧ ∀ rest, getCount cd lt (p ++ (pt.count lt n ++ rest)) = some (n, p' ++ rest)
  len : ∀ t b, t ≠ .invalid → b.length = t.stride → (canon t b).length = t.stride
  getLen : ∀ t s v r, cd.get t s = some (v, r) → v.length = t.stride

theorem takeBytes_append (a r : List Byte) : takeBytes a.length (a ++ r) = some (a, r) := by simp [takeBytes]

theorem takeBytes_len {k : ℕ} {s v r : List Byte} (h : takeBytes k s = some (v, r)) : v.length = k := by
  unfold takeBytes at h
  split at h
  · exact absurd h (by simp)
  · simp only [Option.some.injEq, Prod.mk.injEq] at h
    rw [← h.1, List.length_take]; omega

theorem int_stride {t : Ty} (h : t.isInt = true) : ¬ t.stride > 4 := by cases t <;> simp_all [Ty.isInt, Ty.stride]

theorem little_lawful (io : TextIO) (canon : Ty → List Byte → List Byte) :
    Lawful (putOf io .little) littleCodec (canonOf canon .little) (fun p => p = []) := by
  refine ⟨rfl, ?_, ?_, ?_, ?_, ?_, ?_⟩
  · rintro p rfl; rfl
  · rintro p t b rfl _ hb
    exact ⟨[], rfl, fun rest => by simp [littleCodec, putOf, canonOf, ← hb, takeBytes_append]⟩
  · rintro p t b rfl _ hb
    exact ⟨[], rfl, fun rest => by simp [littleCodec, putOf, ← hb, takeBytes_append]⟩
  · rintro p lt n rfl hi hn
    refine ⟨[], rfl, fun rest => ?_⟩
    have := takeBytes_append (leBytes lt.stride n) rest
    rw [leBytes_length] at this
    simp only [getCount, int_stride hi, if_false, littleCodec, putOf, List.nil_append, this, Option.map_some]
    rw [leVal_leBytes _ _ (by omega)]
  · intro t b _ hb; exact hb
  · intro t s v r h; exact takeBytes_len h

theorem big_lawful (io : TextIO) (canon : Ty → List Byte → List Byte) :
    Lawful (putOf io .big) bigCodec (canonOf canon .big) (fun p => p = []) := by
  refine ⟨rfl, ?_, ?_, ?_, ?_, ?_, ?_⟩
  · rintro p rfl; rfl
  · rintro p t b rfl _ hb
    refine ⟨[], rfl, fun rest => ?_⟩
    have := takeBytes_append b.reverse rest
    rw [List.length_reverse, hb] at this
    simp [bigCodec, putOf, canonOf, this]
  · rintro p t b rfl _ hb
    refine ⟨[], rfl, fun rest => ?_⟩
    have := takeBytes_append b.reverse rest
    rw [List.length_reverse, hb] at this
    simp [bigCodec, putOf, this]
  · rintro p lt n rfl hi hn
    refine ⟨[], rfl, fun rest => ?_⟩
    have := takeBytes_append (leBytes lt.stride n).reverse rest
    rw [List.length_reverse, leBytes_length] at this
    simp only [getCount, int_stride hi, if_false, bigCodec, putOf, List.nil_append, this, Option.map_some, List.reverse_reverse]
    rw [leVal_leBytes _ _ (by omega)]
  · intro t b _ hb; exact hb
  · intro t s v r h
    obtain ⟨q, hq, he⟩ := Option.map_eq_some_iff.mp h
    have : v = q.1.reverse := by have := congrArg Prod.fst he; exact this.symm
    rw [this, List.length_reverse]
    exact takeBytes_len (r := q.2) hq

theorem dropWhile_all {p : List Byte} (hp : ∀ c ∈ p, isSp c = true) (r : List Byte) : (p ++ r).dropWhile isSp = r.dropWhile isSp := by
  induction p with
  | nil => rfl
  | cons a p ih =>
    simp only [List.cons_append, List.dropWhile_cons, hp a (by simp), if_true]
    exact ih (fun c hc => hp c (by simp [hc]))

theorem token_word (p t rest : List Byte) (hp : ∀ c ∈ p, isSp c = true) (ht : t ≠ []) (hw : ∀ c ∈ t, isSp c = false) :
    token (p ++ (t ++ [32] ++ rest)) = some (t, [32] ++ rest) := by
  have h32 : isSp 32 = true := by decide
  have h1 : (p ++ (t ++ [32] ++ rest)).dropWhile isSp = t ++ [32] ++ rest := by
    rw [dropWhile_all hp]
    cases t with
    | nil => exact absurd rfl ht
    | cons a t => simp [List.dropWhile_cons, hw a (by simp)]
  have h2 : (t ++ [32] ++ rest).takeWhile (fun b => !isSp b) = t := by
    rw [List.append_assoc, List.takeWhile_append_of_pos (by intro a ha; simp [hw a ha])]
    simp [List.takeWhile_cons, h32]
  have h3 : (t ++ [32] ++ rest).dropWhile (fun b => !isSp b) = [32] ++ rest := by
    rw [List.append_assoc, List.dropWhile_append_of_pos (by intro a ha; simp [hw a ha])]
    simp [List.dropWhile_cons, h32]
  unfold token
  simp only [h1, h2, h3, ht, if_false]

theorem ascii_lawful (io : TextIO) (canon : Ty → List Byte → List Byte) (hio : io.Ok canon) :
    Lawful (putOf io .ascii) (asciiCodec io) (canonOf canon .ascii) (fun p => ∀ c ∈ p, isSp c = true) := by
  have h32 : ∀ c ∈ ([32] : List Byte), isSp c = true := by
    intro c hc
    rw [List.mem_singleton.mp hc]; decide
  refine ⟨by simp, ?_, ?_, ?_, ?_, ?_, ?_⟩
  · intro p hp c hc
    rcases List.mem_append.mp hc with h | h
    · exact hp c h
    · have : c = 10 := by simpa [putOf] using h
      subst this; decide
  · intro p t b hp ht hb
    refine ⟨[32], h32, fun rest => ?_⟩
    have := token_word p (io.print t b) rest hp (hio.print_word t b).1 (hio.print_word t b).2
    simp only [asciiCodec, putOf, canonOf] at *
    rw [this]
    simp [hio.parse_print t b ht hb]
  · intro p t b hp ht hb
    refine ⟨[32], h32, fun rest => ?_⟩
    have := token_word p (io.print t b) rest hp (hio.print_word t b).1 (hio.print_word t b).2
    simp only [asciiCodec, putOf] at *
    rw [this]
    simp
  · intro p lt n hp hi hn
    refine ⟨[32], h32, fun rest => ?_⟩
    have := token_word p (io.printNat n) rest hp (hio.printNat_word n).1 (hio.printNat_word n).2
    simp only [getCount, int_stride hi, if_false, asciiCodec, putOf] at *
    rw [this]
    simp only [Option.bind_some, hio.parse_nat lt n hi hn, Option.map_some]
    rw [leVal_leBytes _ _ (by omega)]
  · intro t b ht hb
    exact hio.parse_len t _ _ (hio.parse_print t b ht hb)
  · intro t s v r h
    obtain ⟨q, hq, he⟩ := Option.bind_eq_some_iff.mp h
    obtain ⟨v', hv, he'⟩ := Option.map_eq_some_iff.mp he
    have : v' = v := congrArg Prod.fst he'
    subst this
    exact hio.parse_len t _ _ hv

/-- blanks allowed between values -/
def padOf : Fmt → List Byte → Prop
  | .ascii => fun p => ∀ c ∈ p, isSp c = true
  | _ => fun p => p = []

theorem lawfulOf (io : TextIO) (canon : Ty → List Byte → List Byte) (hio : io.Ok canon) (fmt : Fmt) :
    Lawful (putOf io fmt) (codecOf io fmt) (canonOf canon fmt) (padOf fmt) := by
  cases fmt
  · exact ascii_lawful io canon hio
  · exact little_lawful io canon
  · exact big_lawful io canon

/-! ## header -/

theorem ofStr_str (t : Ty) : Ty.ofStr t.str = t := by cases t <;> decide

theorem str_ne_list (t : Ty) : t.str ≠ c! "list" := by cases t <;> decide

/-- a property of a document in the header -/
def DProp.prp (p : DProp) : Prp := ⟨p.name, p.ty, p.list, 0⟩

/-- an element of a document in the header -/
def DElem.elem (e : DElem) : Elem := ⟨e.name, e.rows.length, e.props.map DProp.prp⟩

theorem addProp_last (p : Prp) (es : List Elem) (e : Elem) : addProp p (es ++ [e]) = some (es ++ [{ e with props := e.props ++ [p] }]) := by
  induction es with
  | nil => rfl
  | cons a es ih =>
    cases es with
    | nil => simp [addProp]
    | cons b es => simp only [List.cons_append, addProp] at *; rw [ih]; rfl

theorem parse_propLine (p : DProp) (ls : List HLine) (f : Fmt) (es : List Elem) (e : Elem) :
    parseHeader (dpropLine p :: ls) f (es ++ [e]) = parseHeader ls f (es ++ [{ e with props := e.props ++ [p.prp] }]) := by
  have a1 : (c! "property" : Name) ≠ c! "format" := by decide
  have a2 : (c! "property" : Name) ≠ c! "element" := by decide
  rcases p with ⟨nm, t, l⟩
  cases l with
  | none =>
    simp only [dpropLine, parseHeader, if_neg a1, if_neg a2, if_true, parseProp, if_neg (str_ne_list t), ofStr_str, addProp_last, Option.bind_some,
      DProp.prp]
  | some lt =>
    simp only [dpropLine, parseHeader, if_neg a1, if_neg a2, if_true, parseProp, ofStr_str, addProp_last, Option.bind_some, DProp.prp]

theorem parse_propLines (ps : List DProp) (ls : List HLine) (f : Fmt) (es : List Elem) (e : Elem) :
    parseHeader (ps.map dpropLine ++ ls) f (es ++ [e]) = parseHeader ls f (es ++ [{ e with props := e.props ++ ps.map DProp.prp }]) := by
  induction ps generalizing e with
  | nil => simp
  | cons p ps ih => simp only [List.map_cons, List.cons_append]; rw [parse_propLine, ih]; simp

theorem parse_elems (d : Doc) (ls : List HLine) (f : Fmt) (es : List Elem) :
    parseHeader (d.flatMap delemLines ++ ls) f es = parseHeader ls f (es ++ d.map DElem.elem) := by
  have a1 : (c! "element" : Name) ≠ c! "format" := by decide
  induction d generalizing es with
  | nil => simp
  | cons e d ih =>
    simp only [List.flatMap_cons, delemLines, List.cons_append, List.append_assoc, parseHeader, if_neg a1, if_true, parseElem]
    rw [parse_propLines, ih]
    simp [DElem.elem]

theorem parse_comments (cs : List (List HTok)) (ls : List HLine) (f : Fmt) (es : List Elem) :
    parseHeader (cs.map (fun c => .word (c! "comment") :: c) ++ ls) f es = parseHeader ls f es := by
  have a1 : (c! "comment" : Name) ≠ c! "format" := by decide
  have a2 : (c! "comment" : Name) ≠ c! "element" := by decide
  have a3 : (c! "comment" : Name) ≠ c! "property" := by decide
  have a4 : (c! "comment" : Name) ≠ c! "end_header" := by decide
  induction cs with
  | nil => rfl
  | cons c cs ih => simp only [List.map_cons, List.cons_append, parseHeader, if_neg a1, if_neg a2, if_neg a3, if_neg a4, ih]

theorem parse_header (fmt : Fmt) (cs : List (List HTok)) (d : Doc) :
    parseHeader (d.header fmt cs) .ascii [] = some (fmt, d.map DElem.elem) := by
  have b1 : (c! "ply" : Name) ≠ c! "format" := by decide
  have b2 : (c! "ply" : Name) ≠ c! "element" := by decide
  have b3 : (c! "ply" : Name) ≠ c! "property" := by decide
  have b4 : (c! "ply" : Name) ≠ c! "end_header" := by decide
  have e1 : (c! "end_header" : Name) ≠ c! "format" := by decide
  have e2 : (c! "end_header" : Name) ≠ c! "element" := by decide
  have e3 : (c! "end_header" : Name) ≠ c! "property" := by decide
  have hf : parseFormat .ascii [.word fmt.str, .word (c! "1.0")] = fmt := by cases fmt <;> decide
  simp only [Doc.header, parseHeader, if_neg b1, if_neg b2, if_neg b3, if_neg b4, if_true, hf]
  rw [parse_comments, parse_elems]
  simp only [parseHeader, if_neg e1, if_neg e2, if_neg e3, if_true, List.nil_append]

end Gpy.Ply
