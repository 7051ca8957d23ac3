import Verif.Model.Obj
import Verif.Proofs.Text
import Verif.Spec.Obj

set_option autoImplicit false
namespace Gpy
open Np Gpy.Spec

variable {ν : Type} {io : NumIO ν}

/-- a token of an OBJ file -/
def Tok (t : List Char) : Prop := t ≠ [] ∧ ' ' ∉ t ∧ '\t' ∉ t ∧ '\n' ∉ t

/-- a line -/
def rowLine (ident : List Char) (x : List (List Char)) : List Char := ident ++ ' ' :: joinWith ' ' x

theorem rowLine_nl {ident : List Char} {x : List (List Char)} (hi : '\n' ∉ ident) (hx : ∀ t ∈ x, Tok t) : '\n' ∉ rowLine ident x := by
  unfold rowLine
  rw [List.mem_append, List.mem_cons]
  rintro (h | h | h)
  · exact hi h
  · revert h; decide
  · rcases mem_joinWith h with h | ⟨t, ht, h⟩
    · revert h; decide
    · exact (hx t ht).2.2.2 h

theorem rowLine_split {ident : List Char} {x : List (List Char)} (hi : ' ' ∉ ident) (hi' : ident ≠ []) (h0 : x ≠ []) (hx : ∀ t ∈ x, Tok t) :
    (splitOn ' ' (rowLine ident x)).filter (fun t => !t.isEmpty) = ident :: x := by
  unfold rowLine
  rw [splitOn_append _ _ _ hi, splitOn_join _ _ h0 (fun t ht => (hx t ht).2.1)]
  rw [List.filter_eq_self]
  intro t ht
  rw [List.mem_cons] at ht
  rcases ht with rfl | ht
  · simpa using hi'
  · simpa using (hx t ht).1

theorem fmt_tok (hio : io.Ok) (r : List ν) : ∀ t ∈ r.map io.fmt, Tok t := by
  intro t ht
  obtain ⟨x, _, rfl⟩ := List.mem_map.mp ht
  obtain ⟨h1, h2, _⟩ := hio x
  exact ⟨h1, fun h => (h2 _ h).1 rfl, fun h => (h2 _ h).2.1 rfl, fun h => (h2 _ h).2.2.1 rfl⟩

theorem parse_fmt (hio : io.Ok) (r : List ν) : (r.map io.fmt).mapM io.parse = some r := by
  induction r with
  | nil => rfl
  | cons a r ih =>
    rw [List.map_cons, List.mapM_cons, ih, (hio a).2.2]; rfl

/-! ## face tokens -/

def tok (f : ℤ) (t n : Option ℤ) : List Char :=
  match t, n with
  | some t, some n => intStr (f + 1) ++ '/' :: (intStr (t + 1) ++ '/' :: intStr (n + 1))
  | some t, none => intStr (f + 1) ++ '/' :: intStr (t + 1)
  | none, some n => intStr (f + 1) ++ '/' :: '/' :: intStr (n + 1)
  | none, none => intStr (f + 1)

theorem tok_tok (f : ℤ) (t n : Option ℤ) : Tok (tok f t n) := by
  have h := fun z => intStr_notin z
  have hn := intStr_ne (f + 1)
  refine ⟨?_, ?_, ?_, ?_⟩ <;> cases t <;> cases n <;> simp [tok, hn, h]

theorem tok_split (f : ℤ) (t n : Option ℤ) :
    splitOn '/' (tok f t n) = match t, n with
      | some t, some n => [intStr (f + 1), intStr (t + 1), intStr (n + 1)]
      | some t, none => [intStr (f + 1), intStr (t + 1)]
      | none, some n => [intStr (f + 1), [], intStr (n + 1)]
      | none, none => [intStr (f + 1)] := by
  have h := fun z => (intStr_notin z).2.1
  cases t <;> cases n <;> simp only [tok]
  · exact splitOn_single _ _ (h _)
  · rw [splitOn_append _ _ _ (h _), show ('/' :: intStr _ : List Char) = [] ++ '/' :: intStr _ from rfl, splitOn_append _ _ _ (by simp),
      splitOn_single _ _ (h _)]
  · rw [splitOn_append _ _ _ (h _), splitOn_single _ _ (h _)]
  · rw [splitOn_append _ _ _ (h _), splitOn_append _ _ _ (h _), splitOn_single _ _ (h _)]

theorem py_entry0 (f : ℤ) (t n : Option ℤ) : parseInt ((splitOn '/' (tok f t n))[0]?.getD []) = some (f + 1) := by
  rw [tok_split]
  cases t <;> cases n <;> simp [parseInt_intStr]

theorem py_entry1 (f : ℤ) (t n : Option ℤ) : pyFaceEntry 1 (splitOn '/' (tok f t n)) = some (t.getD (-1) + 1) := by
  rw [tok_split]
  cases t <;> cases n <;> simp [pyFaceEntry, parseInt_intStr, intStr_ne]

theorem py_entry2 (f : ℤ) (t n : Option ℤ) : pyFaceEntry 2 (splitOn '/' (tok f t n)) = some (n.getD (-1) + 1) := by
  rw [tok_split]
  cases t <;> cases n <;> simp [pyFaceEntry, parseInt_intStr, intStr_ne]

theorem takeWhile_slash (s r : List Char) (h : '/' ∉ s) : (s ++ '/' :: r).takeWhile (· != '/') = s ∧ (s ++ '/' :: r).dropWhile (· != '/') = '/' :: r := by
  induction s with
  | nil => simp
  | cons a s ih =>
    have ha : a ≠ '/' := fun h' => h (by simp [h'])
    obtain ⟨i1, i2⟩ := ih (fun h' => h (by simp [h']))
    simp [ha, i1, i2]

theorem takeWhile_noslash (s : List Char) (h : '/' ∉ s) : s.takeWhile (· != '/') = s ∧ s.dropWhile (· != '/') = [] := by
  induction s with
  | nil => simp
  | cons a s ih =>
    have ha : a ≠ '/' := fun h' => h (by simp [h'])
    obtain ⟨i1, i2⟩ := ih (fun h' => h (by simp [h']))
    simp [ha, i1, i2]

theorem itToInt_str (z : ℤ) : itToInt (intStr (z + 1)) = z := by
  unfold itToInt; rw [parseInt_intStr]; simp

theorem cppFace_tok (f : ℤ) (t n : Option ℤ) : cppFace (tok f t n) = (f, t, n) := by
  have h := fun z => (intStr_notin z).2.1
  have hn : ∀ z, (intStr z).isEmpty = false := fun z => by simpa using intStr_ne z
  cases t with
  | none =>
    cases n with
    | none =>
      simp only [tok]
      unfold cppFace
      rw [(takeWhile_noslash _ (h _)).1, (takeWhile_noslash _ (h _)).2]
      simp [itToInt_str]
    | some n =>
      simp only [tok]
      unfold cppFace
      rw [(takeWhile_slash _ _ (h _)).1, (takeWhile_slash _ _ (h _)).2]
      simp [itToInt_str, hn]
  | some t =>
    cases n with
    | none =>
      simp only [tok]
      unfold cppFace
      rw [(takeWhile_slash _ _ (h _)).1, (takeWhile_slash _ _ (h _)).2]
      simp only [List.drop_succ_cons, List.drop_zero]
      rw [(takeWhile_noslash _ (h _)).1, (takeWhile_noslash _ (h _)).2]
      simp [itToInt_str, hn]
    | some n =>
      simp only [tok]
      unfold cppFace
      rw [(takeWhile_slash _ _ (h _)).1, (takeWhile_slash _ _ (h _)).2]
      simp only [List.drop_succ_cons, List.drop_zero]
      rw [(takeWhile_slash _ _ (h _)).1, (takeWhile_slash _ _ (h _)).2]
      simp [itToInt_str, hn]

/-! ## tokens of the C++ reader -/

theorem tok_blank {t : List Char} (ht : Tok t) : ∀ c ∈ t, isBlank c = false := by
  intro c hc
  unfold isBlank
  simp only [Bool.or_eq_false_iff, beq_eq_false_iff_ne]
  exact ⟨fun h => ht.2.1 (h ▸ hc), fun h => ht.2.2.1 (h ▸ hc)⟩

theorem takeWhile_tok {t r : List Char} (ht : ∀ c ∈ t, isBlank c = false) (hr : r = [] ∨ ∃ r', r = ' ' :: r') :
    (t ++ r).takeWhile (fun c => !isBlank c) = t ∧ (t ++ r).dropWhile (fun c => !isBlank c) = r := by
  induction t with
  | nil =>
    rcases hr with rfl | ⟨r', rfl⟩
    · simp
    · simp [isBlank]
  | cons a t ih =>
    obtain ⟨i1, i2⟩ := ih (fun c hc => ht c (by simp [hc]))
    have ha := ht a (by simp)
    simp [ha, i1, i2]

theorem nonSpace_tok {t r : List Char} (ht : Tok t) (hr : r = [] ∨ ∃ r', r = ' ' :: r') :
    nonSpace (t ++ r) = (t, r) ∧ nonSpace (' ' :: (t ++ r)) = (t, r) := by
  have hb := tok_blank ht
  have hd : (t ++ r).dropWhile isBlank = t ++ r := by
    obtain ⟨h0, _⟩ := ht
    cases t with
    | nil => exact absurd rfl h0
    | cons a t => rw [List.cons_append, List.dropWhile_cons, hb a (by simp)]; simp
  have hd' : (' ' :: (t ++ r)).dropWhile isBlank = t ++ r := by
    rw [List.dropWhile_cons, if_pos (by decide), hd]
  unfold nonSpace
  simp only [hd, hd', (takeWhile_tok hb hr).1, (takeWhile_tok hb hr).2, and_self]

theorem join_cons (t : List Char) (ts : List (List Char)) :
    joinWith ' ' (t :: ts) = t ++ (match ts with | [] => [] | q :: qs => ' ' :: joinWith ' ' (q :: qs)) := by
  cases ts with
  | nil => simp [joinWith]
  | cons q qs => simp [joinWith]

theorem join_rest (ts : List (List Char)) :
    (match ts with | [] => [] | q :: qs => ' ' :: joinWith ' ' (q :: qs) : List Char) = [] ∨
      ∃ r', (match ts with | [] => [] | q :: qs => ' ' :: joinWith ' ' (q :: qs) : List Char) = ' ' :: r' := by
  cases ts with
  | nil => exact Or.inl rfl
  | cons q qs => exact Or.inr ⟨_, rfl⟩

theorem cppTokens_join : ∀ x : List (List Char), (∀ t ∈ x, Tok t) → cppTokens x.length (joinWith ' ' x) = x
  | [], _ => rfl
  | t :: ts, h => by
    rw [List.length_cons, cppTokens, join_cons]
    rw [(nonSpace_tok (h t (by simp)) (join_rest ts)).1]
    simp only
    congr 1
    cases ts with
    | nil => rfl
    | cons q qs =>
      simp only [List.isEmpty_cons, Bool.false_eq_true, if_false, List.drop_succ_cons, List.drop_zero]
      exact cppTokens_join (q :: qs) (fun t ht => h t (by simp [ht]))

theorem cppTokens_line (x : List (List Char)) (h : ∀ t ∈ x, Tok t) : cppTokens x.length (' ' :: joinWith ' ' x) = x := by
  cases x with
  | nil => rfl
  | cons t ts =>
    have hj := cppTokens_join (t :: ts) h
    rw [List.length_cons, cppTokens] at hj ⊢
    rw [join_cons] at hj ⊢
    rw [(nonSpace_tok (h t (by simp)) (join_rest ts)).1] at hj
    rw [(nonSpace_tok (h t (by simp)) (join_rest ts)).2]
    simp only at hj ⊢
    cases ts with
    | nil => rfl
    | cons q qs => exact hj

theorem count_line : ∀ (x : List (List Char)) (k : ℕ), (∀ t ∈ x, Tok t) → x ≠ [] → x.length ≤ k → countNonSpaces k (' ' :: joinWith ' ' x) = x.length
  | [], _, _, h, _ => absurd rfl h
  | t :: ts, 0, _, _, hk => by simp at hk
  | t :: ts, k + 1, h, _, hk => by
    rw [countNonSpaces, join_cons]
    simp only [List.isEmpty_cons, Bool.false_eq_true, if_false]
    rw [(nonSpace_tok (h t (by simp)) (join_rest ts)).2]
    have h0 : t.isEmpty = false := by simpa using (h t (by simp)).1
    simp only [h0, Bool.false_eq_true, if_false]
    cases ts with
    | nil => cases k <;> simp [countNonSpaces]
    | cons q qs =>
      simp only
      rw [count_line (q :: qs) k (fun t ht => h t (by simp [ht])) (by simp) (by simpa using hk)]
      simp only [List.length_cons]; omega

theorem join_length (x : List (List Char)) (h : ∀ t ∈ x, Tok t) : x.length ≤ (' ' :: joinWith ' ' x).length := by
  match x with
  | [] => simp
  | [t] => simp
  | t :: q :: qs =>
    have := join_length (q :: qs) (fun t ht => h t (by simp [ht]))
    rw [joinWith]
    simp only [List.length_cons, List.length_append] at this ⊢
    have := List.length_pos_iff.mpr (h t (by simp)).1
    omega

/-! ## the text -/

def ent (M : List (List ℤ)) (r j : ℕ) : ℤ := (M[r]?.getD [])[j]?.getD 0

def faceToks (F : List (List ℤ)) (Ft Fn : Option (List (List ℤ))) (r : ℕ) : List (List Char) :=
  (List.range 3).map (fun j => tok (ent F r j) (Ft.map (fun m => ent m r j)) (Fn.map (fun m => ent m r j)))

def objLines (io : NumIO ν) (V : List (List ν)) (F : List (List ℤ)) (UV : List (List ν)) (Ft : Option (List (List ℤ)))
    (N : List (List ν)) (Fn : Option (List (List ℤ))) : List (List Char) :=
  V.map (fun r => rowLine ['v'] (r.map io.fmt)) ++ (UV.map (fun r => rowLine ['v', 't'] (r.map io.fmt)) ++
    (N.map (fun r => rowLine ['v', 'n'] (r.map io.fmt)) ++ (List.range F.length).map (fun r => rowLine ['f'] (faceToks F Ft Fn r))))

def objText (io : NumIO ν) (V : List (List ν)) (F : List (List ℤ)) (UV : List (List ν)) (Ft : Option (List (List ℤ)))
    (N : List (List ν)) (Fn : Option (List (List ℤ))) : List Char :=
  (objLines io V F UV Ft N Fn).flatMap (fun l => l ++ ['\n'])

theorem writeRow_eq (ident : List Char) (x : List (List Char)) : writeRow ident x = rowLine ident x ++ ['\n'] := by
  unfold writeRow rowLine; simp

theorem cppRow_eq (ident : List Char) (x : List (List Char)) : cppRow ident x = rowLine ident x ++ ['\n'] := by
  unfold cppRow rowLine; simp

theorem three {α : Type} {l : List α} (h : l.length = 3) : ∃ a b c, l = [a, b, c] := by
  match l, h with
  | [a, b, c], _ => exact ⟨a, b, c, rfl⟩

theorem row_three {M : List (List ℤ)} (h : HasCols 3 M) {r : ℕ} (hr : r < M.length) : ∃ a b c, M[r]?.getD [] = [a, b, c] := by
  rw [List.getElem?_eq_getElem hr, Option.getD_some]
  exact three (h _ (List.getElem_mem hr))

theorem faceTokens_eq {F : List (List ℤ)} {Ft Fn : Option (List (List ℤ))} (hF : HasCols 3 F) (hFt : ∀ m ∈ Ft, HasCols 3 m ∧ m.length = F.length)
    (hFn : ∀ m ∈ Fn, HasCols 3 m ∧ m.length = F.length) {r : ℕ} (hr : r < F.length) :
    faceTokens (F[r]?.getD []) (Ft.map (fun m => m[r]?.getD [])) (Fn.map (fun m => m[r]?.getD [])) = faceToks F Ft Fn r := by
  obtain ⟨a, b, c, hf⟩ := row_three hF hr
  unfold faceToks ent
  cases Ft with
  | none =>
    cases Fn with
    | none => simp [faceTokens, hf, tok, List.range_succ]
    | some n =>
      obtain ⟨h1, h2⟩ := hFn n rfl
      obtain ⟨a', b', c', hn⟩ := row_three h1 (h2 ▸ hr)
      simp [faceTokens, hf, hn, tok, List.range_succ]
  | some t =>
    obtain ⟨h1, h2⟩ := hFt t rfl
    obtain ⟨a', b', c', ht⟩ := row_three h1 (h2 ▸ hr)
    cases Fn with
    | none => simp [faceTokens, hf, ht, tok, List.range_succ]
    | some n =>
      obtain ⟨h1, h2⟩ := hFn n rfl
      obtain ⟨a'', b'', c'', hn⟩ := row_three h1 (h2 ▸ hr)
      simp [faceTokens, hf, ht, hn, tok, List.range_succ]

theorem eff_ok {V : List (List ν)} {F : List (List ℤ)} {UV : Option (List (List ν))} {Ft : Option (List (List ℤ))} (hF : HasCols 3 F)
    (h : ∀ m ∈ Ft, HasCols 3 m ∧ m.length = F.length) : ∀ m ∈ effFaces V F UV Ft, HasCols 3 m ∧ m.length = F.length := by
  unfold effFaces
  cases Ft with
  | some t => exact h
  | none =>
    cases UV with
    | none => intro m hm; cases hm
    | some uv =>
      simp only
      split
      · intro m hm; cases hm; exact ⟨hF, rfl⟩
      · intro m hm; cases hm

theorem pyWriteObj_eq (io : NumIO ν) {V : List (List ν)} {F : List (List ℤ)} {UV : Option (List (List ν))} {Ft : Option (List (List ℤ))}
    {N : Option (List (List ν))} {Fn : Option (List (List ℤ))} (h : ObjOk V F UV Ft N Fn) :
    pyWriteObj io V F UV Ft N Fn = some (objText io V F (UV.getD []) (effFaces V F UV Ft) (N.getD []) (effFaces V F N Fn)) := by
  have e1 : ∀ (UV : Option (List (List ν))) (Ft : Option (List (List ℤ))), pyDefaultFaces V F UV Ft = effFaces V F UV Ft := by
    intro UV Ft
    unfold effFaces pyDefaultFaces
    cases UV <;> cases Ft <;> simp [eq_comm]
  have t1 := eff_ok (V := V) (UV := UV) h.hF h.hFt
  have t2 := eff_ok (V := V) (UV := N) h.hF h.hFn
  unfold pyWriteObj
  simp only
  rw [e1, e1, if_pos ⟨fun m hm => (t1 m hm).2, fun m hm => (t2 m hm).2⟩]
  unfold objText objLines
  congr 1
  simp only [List.flatMap_append, List.flatMap_map, writeRow_eq, List.append_assoc]
  congr 3
  apply List.flatMap_congr
  intro r hr
  rw [faceTokens_eq h.hF t1 t2 (List.mem_range.mp hr)]

theorem cppFaceElement_eq (f : ℤ) (t n : Option ℤ) (dt dn : Bool) (ht : dt = true → t = some f) (hn : dn = true → n = some f) :
    cppFaceElement t.isSome dt n.isSome dn f (t.getD 0) (n.getD 0) = tok f t n := by
  unfold cppFaceElement
  cases t with
  | none =>
    cases n with
    | none => simp [tok]
    | some n =>
      cases dn with
      | false => simp [tok]
      | true => have := hn rfl; cases this; simp [tok]
  | some t =>
    cases dt with
    | false =>
      cases n with
      | none => simp [tok]
      | some n =>
        cases dn with
        | false => simp [tok]
        | true => have := hn rfl; cases this; simp [tok]
    | true =>
      have := ht rfl; cases this
      cases n with
      | none => simp [tok]
      | some n =>
        cases dn with
        | false => simp [tok]
        | true => have := hn rfl; cases this; simp [tok]

theorem cpp_default {V : List (List ν)} {F : List (List ℤ)} {UV : Option (List (List ν))} {Ft : Option (List (List ℤ))} (hV : V ≠ [])
    (hF : F ≠ []) (h : ∀ m ∈ Ft, HasCols 3 m ∧ m.length = F.length) :
    (decide (0 < (Ft.getD []).length) || decide ((Ft.getD []).length = 0 ∧ (UV.getD []).length = V.length)) = (effFaces V F UV Ft).isSome ∧
      ((decide ((Ft.getD []).length = 0 ∧ (UV.getD []).length = V.length)) = true → effFaces V F UV Ft = some F ∧ Ft = none) ∧
      ((decide ((Ft.getD []).length = 0 ∧ (UV.getD []).length = V.length)) = false → effFaces V F UV Ft = Ft) := by
  have hV' := List.length_pos_iff.mpr hV
  have hF' := List.length_pos_iff.mpr hF
  unfold effFaces
  cases Ft with
  | some t =>
    have := (h t rfl).2
    have h0 : t ≠ [] := fun e => by rw [e] at this; simp at this; omega
    have h1 : t.length ≠ 0 := by omega
    simp only [Option.getD_some]
    simp [h0]; omega
  | none =>
    cases UV with
    | none => simp; omega
    | some uv =>
      by_cases hc : uv.length = V.length <;> simp [hc]

theorem cppWriteObj_eq (io : NumIO ν) {V : List (List ν)} {F : List (List ℤ)} {UV : Option (List (List ν))} {Ft : Option (List (List ℤ))}
    {N : Option (List (List ν))} {Fn : Option (List (List ℤ))} (h : ObjOk V F UV Ft N Fn) (hV : V ≠ []) (hF : F ≠ []) :
    cppWriteObj io V F UV Ft N Fn = some (objText io V F (UV.getD []) (effFaces V F UV Ft) (N.getD []) (effFaces V F N Fn)) := by
  obtain ⟨a1, a2, a3⟩ := cpp_default (UV := UV) hV hF h.hFt
  obtain ⟨b1, b2, b3⟩ := cpp_default (UV := N) hV hF h.hFn
  have t1 := eff_ok (V := V) (UV := UV) h.hF h.hFt
  have t2 := eff_ok (V := V) (UV := N) h.hF h.hFn
  unfold cppWriteObj
  simp only
  set dt := decide ((Ft.getD []).length = 0 ∧ (UV.getD []).length = V.length) with hdt
  set dn := decide ((Fn.getD []).length = 0 ∧ (N.getD []).length = V.length) with hdn
  rw [a1, b1]
  have shape : ∀ M : List (List ℤ), HasCols 3 M → M.length = F.length → M.map List.length = F.map List.length := by
    intro M h1 h2
    apply List.ext_getElem
    · simp [h2]
    · intro i i1 i2
      rw [List.getElem_map, List.getElem_map, h1 _ (List.getElem_mem _), h.hF _ (List.getElem_mem _)]
  have hshape : ∀ M : Option (List (List ℤ)), (∀ m ∈ M, HasCols 3 m ∧ m.length = F.length) → M.isSome = true →
      (M.getD []).map List.length = F.map List.length := by
    intro M hM hs
    cases M with
    | none => cases hs
    | some m => exact shape m (hM m rfl).1 (hM m rfl).2
  rw [if_neg, if_neg]
  · congr 1
    unfold objText objLines
    simp only [List.flatMap_append, List.flatMap_map, cppRow_eq, List.append_assoc]
    congr 3
    apply List.flatMap_congr
    intro r hr
    congr 2
    have hr' := List.mem_range.mp hr
    obtain ⟨a, b, c, hf⟩ := row_three h.hF hr'
    unfold faceToks
    rw [hf]
    simp only [List.length_cons, List.length_nil]
    apply List.map_congr_left
    intro j hj
    rw [← hf]
    have key : ∀ (M E : Option (List (List ℤ))) (d : Bool), (d = true → E = some F ∧ M = none) → (d = false → E = M) →
        d = false → ((M.getD [])[r]?.getD [])[j]?.getD 0 = (E.map (fun m => ent m r j)).getD 0 := by
      intro M E d _ h2 hd
      rw [h2 hd]
      cases M with
      | none => simp
      | some m => simp [ent]
    have q := cppFaceElement_eq (ent F r j) ((effFaces V F UV Ft).map (fun m => ent m r j)) ((effFaces V F N Fn).map (fun m => ent m r j)) dt dn
      (fun hd => by rw [(a2 hd).1]; rfl) (fun hd => by rw [(b2 hd).1]; rfl)
    rw [Option.isSome_map, Option.isSome_map] at q
    rw [← q]
    unfold cppFaceElement
    rw [show ((F[r]?.getD [])[j]?.getD 0) = ent F r j from rfl]
    congr 1
    · congr 1
      cases hd : dt with
      | true => rfl
      | false => rw [key Ft _ dt a2 a3 hd]
    · cases hd : dn with
      | true => rfl
      | false => rw [key Fn _ dn b2 b3 hd]
  · rintro ⟨h1, h2, h3⟩
    rw [Bool.not_eq_true] at h2
    rw [b3 h2] at h1
    exact h3 (hshape Fn h.hFn h1)
  · rintro ⟨h1, h2, h3⟩
    rw [Bool.not_eq_true] at h2
    rw [a3 h2] at h1
    exact h3 (hshape Ft h.hFt h1)

/-! ## reading -/

theorem fold_rel {σ ρ : Type} (step : σ → List Char → Option σ) (line : ρ → List Char) (R : σ → List ρ → Prop) (P : ρ → Prop)
    (hs : ∀ s L r, R s L → P r → ∃ s', step s (line r) = some s' ∧ R s' (L ++ [r])) :
    ∀ (rows : List ρ) (s : σ) (L : List ρ), R s L → (∀ r ∈ rows, P r) → ∃ s', (rows.map line).foldlM step s = some s' ∧ R s' (L ++ rows) := by
  intro rows
  induction rows with
  | nil => intro s L h _; exact ⟨s, rfl, by simpa using h⟩
  | cons r rows ih =>
    intro s L h hP
    obtain ⟨s1, e1, h1⟩ := hs s L r h (hP r (by simp))
    obtain ⟨s2, e2, h2⟩ := ih s1 (L ++ [r]) h1 (fun r hr => hP r (by simp [hr]))
    refine ⟨s2, ?_, by simpa using h2⟩
    rw [List.map_cons, List.foldlM_cons, e1]; exact e2

theorem objLines_nl (hio : io.Ok) (V : List (List ν)) (F : List (List ℤ)) (UV : List (List ν)) (Ft : Option (List (List ℤ)))
    (N : List (List ν)) (Fn : Option (List (List ℤ))) : ∀ l ∈ objLines io V F UV Ft N Fn, '\n' ∉ l := by
  intro l hl
  unfold objLines at hl
  simp only [List.mem_append, List.mem_map] at hl
  have ft : ∀ r, ∀ t ∈ faceToks F Ft Fn r, Tok t := by
    intro r t ht
    obtain ⟨j, _, rfl⟩ := List.mem_map.mp ht
    exact tok_tok _ _ _
  rcases hl with ⟨r, _, rfl⟩ | ⟨r, _, rfl⟩ | ⟨r, _, rfl⟩ | ⟨r, _, rfl⟩
  · exact rowLine_nl (by decide) (fmt_tok hio r)
  · exact rowLine_nl (by decide) (fmt_tok hio r)
  · exact rowLine_nl (by decide) (fmt_tok hio r)
  · exact rowLine_nl (by decide) (ft r)

end Gpy
