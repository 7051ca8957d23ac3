import Verif.Spec.Stl
import Verif.Proofs.Ply

/-!
# STL: reading text files
-/

set_option autoImplicit false
namespace Gpy.Stl
open Gpy.Ply

/-! ## lines -/

theorem lines_line (g : Byte) (t s out : List Byte) (ht : ∀ b ∈ t, b.val ≠ 10) (hl : out.length + t.length ≤ 257) :
    lines g (t ++ 10 :: s) out = (lines g s []).map (fun r => (out ++ t) :: r) := by
  induction t generalizing out with
  | nil =>
    rw [List.nil_append, List.append_nil]
    conv_lhs => unfold lines
    rw [if_pos (by decide)]
  | cons b t ih =>
    rw [List.cons_append]
    conv_lhs => unfold lines
    rw [List.length_cons] at hl
    rw [if_neg (ht b (by simp)), if_neg (by omega), ih (out ++ [b]) (fun x hx => ht x (by simp [hx])) (by simp; omega)]
    simp

/-- the last line: nothing, or the uninitialised byte -/
def lastLine (g : Byte) : List Byte := if g.val = 10 then [] else [g]

theorem lines_file (g : Byte) (ts : List (List Byte)) (ht : ∀ t ∈ ts, (∀ b ∈ t, b.val ≠ 10) ∧ t.length ≤ 257) :
    lines g (ts.flatMap (fun t => t ++ [10])) [] = some (ts ++ [lastLine g]) := by
  induction ts with
  | nil => unfold lastLine; simp only [List.flatMap_nil, lines]; split <;> simp
  | cons t ts ih =>
    rw [List.flatMap_cons, List.append_assoc]
    have := lines_line g t (ts.flatMap (fun t => t ++ [10])) [] (ht t (by simp)).1 (by have := (ht t (by simp)).2; simpa using this)
    rw [List.singleton_append, this, ih (fun t h => ht t (by simp [h]))]
    simp

/-! ## trimming -/

def rtrim (s : List Byte) : List Byte := (s.reverse.dropWhile isWs).reverse

theorem trim_eq (s : List Byte) : trim s = rtrim (s.dropWhile isWs) := rfl

theorem dropWhile_ws (p t : List Byte) (hp : ∀ b ∈ p, isWs b = true) : (p ++ t).dropWhile isWs = t.dropWhile isWs := by
  induction p with
  | nil => rfl
  | cons b p ih => rw [List.cons_append, List.dropWhile_cons, if_pos (hp b (by simp))]; exact ih (fun b h => hp b (by simp [h]))

theorem dropWhile_head (a : Byte) (t : List Byte) (ha : isWs a = false) : (a :: t).dropWhile isWs = a :: t := by
  rw [List.dropWhile_cons, if_neg (by simp [ha])]

theorem rtrim_append (s x : List Byte) (a : Byte) (ha : isWs a = false) : rtrim (s ++ a :: x) = s ++ a :: rtrim x := by
  unfold rtrim
  rw [List.reverse_append, List.reverse_cons, List.append_assoc, List.dropWhile_append]
  split
  · rename_i h
    rw [List.singleton_append, dropWhile_head a _ ha]
    have : x.reverse.dropWhile isWs = [] := by simpa using h
    rw [this]
    simp
  · simp

theorem rtrim_ws (x : List Byte) (hx : ∀ b ∈ x, isWs b = true) : rtrim x = [] := by
  unfold rtrim
  have : x.reverse.dropWhile isWs = [] := by
    have := dropWhile_ws x.reverse [] (fun b hb => hx b (by simpa using hb))
    simpa using this
  rw [this]; rfl

theorem rtrim_prefix (x : List Byte) : rtrim x <+: x := by
  unfold rtrim
  have h := (List.dropWhile_suffix (l := x.reverse) isWs)
  rw [← List.reverse_prefix] at h
  simpa using h

/-- `a … b` with `a`, `b` visible is left alone; everything blank around it is dropped -/
theorem trim_mid (pre t post : List Byte) (hpre : ∀ b ∈ pre, isWs b = true) (hpost : ∀ b ∈ post, isWs b = true)
    (a : Byte) (u : List Byte) (h1 : t = a :: u) (ha : isWs a = false) (v : List Byte) (z : Byte) (h2 : t = v ++ [z]) (hz : isWs z = false) :
    trim (pre ++ t ++ post) = t := by
  rw [trim_eq, List.append_assoc, dropWhile_ws pre _ hpre]
  have : (t ++ post).dropWhile isWs = t ++ post := by rw [h1]; exact dropWhile_head a _ ha
  rw [this, h2, List.append_assoc, List.singleton_append, rtrim_append v post z hz, rtrim_ws post hpost]

/-- text that begins with a visible word -/
theorem trim_kw (pre k x post : List Byte) (hpre : ∀ b ∈ pre, isWs b = true) 
    (a : Byte) (u : List Byte) (h1 : k = a :: u) (ha : isWs a = false) (v : List Byte) (z : Byte) (h2 : k = v ++ [z]) (hz : isWs z = false) :
    ∃ y, trim (pre ++ (k ++ x) ++ post) = k ++ y := by
  refine ⟨rtrim (x ++ post), ?_⟩
  rw [trim_eq, List.append_assoc, dropWhile_ws pre _ hpre]
  have : (k ++ x ++ post).dropWhile isWs = k ++ x ++ post := by rw [h1]; exact dropWhile_head a _ ha
  rw [this, List.append_assoc, h2, List.append_assoc, List.singleton_append, rtrim_append v _ z hz]
  simp

theorem blank_ws {s : List Byte} (h : Blank s) : ∀ b ∈ s, isWs b = true := by
  intro b hb
  rcases h b hb with h | h | h <;> simp [isWs, h]

theorem blank_ne {s : List Byte} (h : Blank s) : ∀ b ∈ s, b.val ≠ 10 := by
  intro b hb
  rcases h b hb with h | h | h <;> omega

/-! ## numbers -/

variable {io : FloatIO} {fin : W32 → Prop} {canon : W32 → W32}

theorem print_cons (hio : io.Ok fin canon) (x : W32) (hx : fin x) : ∃ a u, io.print x = a :: u ∧ isWs a = false := by
  obtain ⟨h1, _, h3⟩ := hio.word x hx
  cases hp : io.print x with
  | nil => exact absurd hp h1
  | cons a u =>
    refine ⟨a, u, rfl, ?_⟩
    have := h3 a (by rw [hp]; simp)
    simp [isWs]; omega

theorem print_snoc (hio : io.Ok fin canon) (x : W32) (hx : fin x) : ∃ v z, io.print x = v ++ [z] ∧ isWs z = false := by
  obtain ⟨h1, _, h3⟩ := hio.word x hx
  refine ⟨(io.print x).dropLast, (io.print x).getLast h1, (List.dropLast_append_getLast h1).symm, ?_⟩
  have := h3 _ (List.getLast_mem h1)
  simp [isWs]; omega

theorem trim_text3 (hio : io.Ok fin canon) (p : Pt) (hp : ∀ i, fin (p i)) (pre : List Byte) (hpre : ∀ b ∈ pre, isWs b = true) : trim (pre ++ text3 io p) = text3 io p := by
  obtain ⟨a, u, h1, ha⟩ := print_cons hio (p 0) (hp 0)
  obtain ⟨v, z, h2, hz⟩ := print_snoc hio (p 2) (hp 2)
  have := trim_mid pre (text3 io p) [] hpre (by simp) a (u ++ [32] ++ io.print (p 1) ++ [32] ++ io.print (p 2)) (by unfold text3; rw [h1]; simp) ha
    (io.print (p 0) ++ [32] ++ io.print (p 1) ++ [32] ++ v) z (by unfold text3; rw [h2]; simp) hz
  rw [List.append_nil] at this
  exact this

theorem scan3_text3 (hio : io.Ok fin canon) (p : Pt) (hp : ∀ i, fin (p i)) : scan3 io (text3 io p) = some (fun i => canon (p i)) := by
  have e0 := hio.scan (p 0) [] ([32] ++ io.print (p 1) ++ [32] ++ io.print (p 2)) (hp 0) (by simp) (by intro b hb; simp at hb; rw [← hb]; rfl)
  have e1 := hio.scan (p 1) [32] ([32] ++ io.print (p 2)) (hp 1) (by intro b hb; rw [List.mem_singleton.mp hb]; rfl) (by intro b hb; simp at hb; rw [← hb]; rfl)
  have e2 := hio.scan (p 2) [32] [] (hp 2) (by intro b hb; rw [List.mem_singleton.mp hb]; rfl) (by simp)
  have h : text3 io p = [] ++ io.print (p 0) ++ ([32] ++ io.print (p 1) ++ [32] ++ io.print (p 2)) := by simp [text3]
  unfold scan3
  rw [h, e0]
  simp only [Option.bind_some]
  have h1 : ([32] ++ io.print (p 1) ++ [32] ++ io.print (p 2)) = [32] ++ io.print (p 1) ++ ([32] ++ io.print (p 2)) := by simp
  rw [h1, e1]
  simp only [Option.bind_some]
  have h2 : [32] ++ io.print (p 2) = [32] ++ io.print (p 2) ++ [] := by simp
  rw [h2, e2]
  simp only [Option.map_some, Option.some.injEq]
  funext i
  match i with
  | 0 => rfl
  | 1 => rfl
  | 2 => rfl

/-! ## one line -/

theorem visible_mid : ∀ k ∈ keywords, ∃ a u v z, k = a :: u ∧ isWs a = false ∧ k = v ++ [z] ∧ isWs z = false := by
  intro k hk
  have h : ∀ k ∈ keywords, k ≠ [] ∧ (∀ a, k.head? = some a → isWs a = false) ∧ (∀ a, k.getLast? = some a → isWs a = false) := by
    unfold keywords kSolid kEndsolid kFacet kEndfacet kOuter kEndloop kVertex
    intro k hk
    simp only [List.mem_cons, List.not_mem_nil, or_false] at hk
    rcases hk with rfl | rfl | rfl | rfl | rfl | rfl | rfl <;>
      exact ⟨by decide, fun a ha => by have := (Option.some.inj ha).symm; subst this; decide, fun a ha => by have := (Option.some.inj ha).symm; subst this; decide⟩
  obtain ⟨h1, h2, h3⟩ := h k hk
  cases k with
  | nil => exact absurd rfl h1
  | cons a u =>
    exact ⟨a, u, (a :: u).dropLast, (a :: u).getLast h1, rfl, h2 a rfl, (List.dropLast_append_getLast h1).symm, h3 _ (List.getLast?_eq_some_getLast h1)⟩

theorem no_kw (io : FloatIO) (st : St) (l : List Byte) (h : ∀ k ∈ keywords, ¬ k <+: l) : step io st l = some st := by
  have hk : ∀ k ∈ keywords, k.isPrefixOf l = false := by
    intro k hk
    by_contra h'
    exact h k hk (List.isPrefixOf_iff_prefix.mp (by simpa using h'))
  unfold step
  rw [hk kSolid (by simp [keywords]), hk kEndsolid (by simp [keywords]), hk kFacet (by simp [keywords]), hk kEndfacet (by simp [keywords]),
    hk kOuter (by simp [keywords]), hk kEndloop (by simp [keywords]), hk kVertex (by simp [keywords])]
  simp

theorem step_noise (io : FloatIO) (st : St) (pre s post : List Byte) (hpre : Blank pre) (hpost : Blank post) (h : ∀ k ∈ keywords, ¬ k <+: s.dropWhile isWs) :
    step io st (trim (pre ++ s ++ post)) = some st := by
  apply no_kw
  intro k hk hp
  obtain ⟨a, u, v, z, hk1, _, hk2, hz⟩ := visible_mid k hk
  rw [trim_eq, List.append_assoc, dropWhile_ws pre _ (blank_ws hpre)] at hp
  have hp2 := hp.trans (rtrim_prefix _)
  rw [List.dropWhile_append] at hp2
  split at hp2
  · have : post.dropWhile isWs = [] := by
      have := dropWhile_ws post [] (blank_ws hpost)
      simpa using this
    rw [this, List.prefix_nil, hk1] at hp2
    exact absurd hp2 (by simp)
  · refine h k hk ?_
    rcases Nat.lt_or_ge (s.dropWhile isWs).length k.length with hlt | hge
    · exfalso
      obtain ⟨w, hw⟩ := hp2
      have hzm : k.getLast? = some z := by rw [hk2]; simp
      have hlast : k[k.length - 1]? = some z := by rw [← List.getLast?_eq_getElem?]; exact hzm
      have h2 : (s.dropWhile isWs ++ post)[k.length - 1]? = some z := by
        rw [← hw, List.getElem?_append_left (by omega)]; exact hlast
      rw [List.getElem?_append_right (by omega)] at h2
      have := blank_ws hpost z (List.mem_of_getElem? h2)
      rw [hz] at this
      exact absurd this (by simp)
    · exact List.prefix_of_prefix_length_le hp2 (List.prefix_append _ _) hge

/-- the effect of a line, as the machine takes it -/
theorem step_solid (io : FloatIO) (st : St) (y : List Byte) (h : st.solid = false) (h' : st.solids = 0) : step io st (kSolid ++ y) = some { st with solid := true } := by
  have : kSolid.isPrefixOf (kSolid ++ y) = true := rfl
  unfold step
  rw [this]; simp [h, h']

theorem step_endsolid (io : FloatIO) (st : St) (y : List Byte) (h : st.solid = true) (h' : st.facet = false) (h'' : st.loop = false) :
    step io st (kEndsolid ++ y) = some { st with solid := false, solids := st.solids + 1 } := by
  have h1 : kSolid.isPrefixOf (kEndsolid ++ y) = false := rfl
  have h2 : kEndsolid.isPrefixOf (kEndsolid ++ y) = true := rfl
  unfold step
  rw [h1, h2]; simp [h, h', h'']

theorem step_facet (hio : io.Ok fin canon) (st : St) (n : Pt) (hn : ∀ i, fin (n i)) (h : st.solid = true) (h' : st.facet = false) (h'' : st.loop = false) :
    step io st (asc (c! "facet normal ") ++ text3 io n) = some { st with facet := true } := by
  have h1 : kSolid.isPrefixOf (asc (c! "facet normal ") ++ text3 io n) = false := rfl
  have h2 : kEndsolid.isPrefixOf (asc (c! "facet normal ") ++ text3 io n) = false := rfl
  have h3 : kFacet.isPrefixOf (asc (c! "facet normal ") ++ text3 io n) = true := rfl
  have h4 : (asc (c! "facet normal ") ++ text3 io n).drop 12 = [32] ++ text3 io n := rfl
  unfold step
  rw [h1, h2, h3, h4, trim_text3 hio n hn _ (by intro b hb; rw [List.mem_singleton.mp hb]; rfl), scan3_text3 hio n hn]
  simp [h, h', h'']

theorem step_outer (io : FloatIO) (st : St) (h : st.solid = true) (h' : st.facet = true) (h'' : st.loop = false) :
    step io st kOuter = some { st with loop := true } := by
  have h1 : kSolid.isPrefixOf kOuter = false := rfl
  have h2 : kEndsolid.isPrefixOf kOuter = false := rfl
  have h3 : kFacet.isPrefixOf kOuter = false := rfl
  have h4 : kEndfacet.isPrefixOf kOuter = false := rfl
  have h5 : kOuter.isPrefixOf kOuter = true := rfl
  unfold step
  rw [h1, h2, h3, h4, h5]; simp [h, h', h'']

theorem step_endloop (io : FloatIO) (st : St) (h : st.solid = true) (h' : st.facet = true) (h'' : st.loop = true) (h3' : st.verts = 3) :
    step io st kEndloop = some { st with loop := false, loops := st.loops + 1, verts := 0 } := by
  have h1 : kSolid.isPrefixOf kEndloop = false := rfl
  have h2 : kEndsolid.isPrefixOf kEndloop = false := rfl
  have h3 : kFacet.isPrefixOf kEndloop = false := rfl
  have h4 : kEndfacet.isPrefixOf kEndloop = false := rfl
  have h5 : kOuter.isPrefixOf kEndloop = false := rfl
  have h6 : kEndloop.isPrefixOf kEndloop = true := rfl
  unfold step
  rw [h1, h2, h3, h4, h5, h6]; simp [h, h', h'', h3']

theorem step_endfacet (io : FloatIO) (st : St) (h : st.solid = true) (h' : st.facet = true) (h'' : st.loop = false) (hl : st.loops = 1) :
    step io st kEndfacet = some { st with facet := false, loops := 0, out := st.out ++ [st.v] } := by
  have h1 : kSolid.isPrefixOf kEndfacet = false := rfl
  have h2 : kEndsolid.isPrefixOf kEndfacet = false := rfl
  have h3 : kFacet.isPrefixOf kEndfacet = false := rfl
  have h4 : kEndfacet.isPrefixOf kEndfacet = true := rfl
  unfold step
  rw [h1, h2, h3, h4]; simp [h, h', h'', hl]

theorem step_vertex (hio : io.Ok fin canon) (st : St) (p : Pt) (hp : ∀ i, fin (p i)) (h : st.solid = true) (h' : st.facet = true) (h'' : st.loop = true) (hv : st.verts < 3) :
    step io st (asc (c! "vertex ") ++ text3 io p)
      = some { st with v := fun i => if i.val = st.verts then (fun j => canon (p j)) else st.v i, verts := st.verts + 1 } := by
  have h1 : kSolid.isPrefixOf (asc (c! "vertex ") ++ text3 io p) = false := rfl
  have h2 : kEndsolid.isPrefixOf (asc (c! "vertex ") ++ text3 io p) = false := rfl
  have h3 : kFacet.isPrefixOf (asc (c! "vertex ") ++ text3 io p) = false := rfl
  have h4 : kEndfacet.isPrefixOf (asc (c! "vertex ") ++ text3 io p) = false := rfl
  have h5 : kOuter.isPrefixOf (asc (c! "vertex ") ++ text3 io p) = false := rfl
  have h6 : kEndloop.isPrefixOf (asc (c! "vertex ") ++ text3 io p) = false := rfl
  have h7 : kVertex.isPrefixOf (asc (c! "vertex ") ++ text3 io p) = true := rfl
  have h8 : (asc (c! "vertex ") ++ text3 io p).drop 6 = [32] ++ text3 io p := rfl
  unfold step
  rw [h1, h2, h3, h4, h5, h6, h7, h8, trim_text3 hio p hp _ (by intro b hb; rw [List.mem_singleton.mp hb]; rfl), scan3_text3 hio p hp]
  simp [h, h', h'', hv]

/-! ## the whole file -/

/-- the text of a line as the machine sees it -/
theorem trim_line (hio : io.Ok fin canon) (l : Physical) (hok : l.line.Ok fin ∧ Blank l.pre ∧ Blank l.post) :
    match l.line with
    | .solid _ => ∃ y, trim (l.text io) = kSolid ++ y
    | .endsolid _ => ∃ y, trim (l.text io) = kEndsolid ++ y
    | .facet n => trim (l.text io) = asc (c! "facet normal ") ++ text3 io n
    | .vertex p => trim (l.text io) = asc (c! "vertex ") ++ text3 io p
    | .outer => trim (l.text io) = kOuter
    | .endloop => trim (l.text io) = kEndloop
    | .endfacet => trim (l.text io) = kEndfacet
    | .noise _ => True := by
  obtain ⟨pre, line, post⟩ := l
  obtain ⟨h0, hpre, hpost⟩ := hok
  simp only at h0 hpre hpost
  have kw : ∀ k ∈ keywords, trim (pre ++ k ++ post) = k := by
    intro k hk
    obtain ⟨a, u, v, z, e1, ha, e2, hz⟩ := visible_mid k hk
    exact trim_mid pre k post (blank_ws hpre) (blank_ws hpost) a u e1 ha v z e2 hz
  have num : ∀ (k : List Byte) (a : Byte) (u : List Byte) (p : Pt), k = a :: u → isWs a = false → (∀ i, fin (p i)) → trim (pre ++ (k ++ text3 io p) ++ post) = k ++ text3 io p := by
    intro k a u p e1 ha hp
    obtain ⟨v, z, h2, hz⟩ := print_snoc hio (p 2) (hp 2)
    exact trim_mid pre _ post (blank_ws hpre) (blank_ws hpost) a (u ++ text3 io p) (by rw [e1]; rfl) ha
      (k ++ (io.print (p 0) ++ [32] ++ io.print (p 1) ++ [32] ++ v)) z (by unfold text3; rw [h2]; simp) hz
  cases line with
  | solid name =>
    obtain ⟨a, u, v, z, e1, ha, e2, hz⟩ := visible_mid kSolid (by simp [keywords])
    exact trim_kw pre kSolid name post (blank_ws hpre) a u e1 ha v z e2 hz
  | endsolid name =>
    obtain ⟨a, u, v, z, e1, ha, e2, hz⟩ := visible_mid kEndsolid (by simp [keywords])
    exact trim_kw pre kEndsolid name post (blank_ws hpre) a u e1 ha v z e2 hz
  | facet n => exact num (asc (c! "facet normal ")) _ _ n rfl (by decide) h0
  | vertex p => exact num (asc (c! "vertex ")) _ _ p rfl (by decide) h0
  | outer => exact kw kOuter (by simp [keywords])
  | endloop => exact kw kEndloop (by simp [keywords])
  | endfacet => exact kw kEndfacet (by simp [keywords])
  | noise s => trivial

/-- the run of the machine over physical lines -/
def run (io : FloatIO) (ls : List Physical) (st : St) : Option St := ls.foldlM (fun st l => step io st (trim (l.text io))) st

theorem run_cons (io : FloatIO) (l : Physical) (ls : List Physical) (st st' : St) (h : step io st (trim (l.text io)) = some st') : run io (l :: ls) st = run io ls st' := by
  unfold run
  rw [List.foldlM_cons, h]
  rfl

theorem run_noise (io : FloatIO) (fin : W32 → Prop) (ls : List Physical) (h : ∀ l ∈ ls, l.line.Ok fin ∧ Blank l.pre ∧ Blank l.post) (st : St) :
    run io ls st = run io (ls.filter (fun l => !l.line.isNoise)) st := by
  induction ls generalizing st with
  | nil => rfl
  | cons l ls ih =>
    have hl := h l (by simp)
    have ih' := ih (fun l hl => h l (by simp [hl]))
    by_cases hn : l.line.isNoise = true
    · rw [List.filter_cons_of_neg (by simp [hn]), run_cons io l ls st st, ih']
      obtain ⟨pre, line, post⟩ := l
      cases line with
      | noise s => exact step_noise io st pre s post hl.2.1 hl.2.2 hl.1.2
      | _ => simp [Line.isNoise] at hn
    · rw [List.filter_cons_of_pos (by simpa using hn)]
      unfold run at ih' ⊢
      rw [List.foldlM_cons, List.foldlM_cons]
      cases step io st (trim (l.text io)) with
      | none => rfl
      | some st' => exact ih' st'

/-- between facets -/
def between (v : Facet) (out : List Facet) : St := ⟨true, false, false, 0, 0, 0, v, out⟩

theorem run_facet (hio : io.Ok fin canon) (ls : List Physical) (h : ∀ l ∈ ls, l.line.Ok fin ∧ Blank l.pre ∧ Blank l.post) (n : Pt) (f : Facet)
    (rest : List Line) (hm : ls.map Physical.line = facetLines n f ++ rest) (v : Facet) (out : List Facet) :
    ∃ rs, rs.map Physical.line = rest ∧ rs <:+ ls ∧
      run io ls (between v out) = run io rs (between (fun k j => canon (f k j)) (out ++ [fun k j => canon (f k j)])) := by
  match ls, hm with
  | l0 :: l1 :: l2 :: l3 :: l4 :: l5 :: l6 :: rs, hm =>
    simp only [facetLines, List.map_cons, List.cons_append, List.nil_append, List.cons.injEq] at hm
    obtain ⟨e0, e1, e2, e3, e4, e5, e6, er⟩ := hm
    have t0 := trim_line hio l0 (h l0 (by simp))
    have t1 := trim_line hio l1 (h l1 (by simp))
    have t2 := trim_line hio l2 (h l2 (by simp))
    have t3 := trim_line hio l3 (h l3 (by simp))
    have t4 := trim_line hio l4 (h l4 (by simp))
    have t5 := trim_line hio l5 (h l5 (by simp))
    have t6 := trim_line hio l6 (h l6 (by simp))
    have o0 := (h l0 (by simp)).1
    have o2 := (h l2 (by simp)).1
    have o3 := (h l3 (by simp)).1
    have o4 := (h l4 (by simp)).1
    rw [e0] at t0 o0; rw [e1] at t1; rw [e2] at t2 o2; rw [e3] at t3 o3; rw [e4] at t4 o4; rw [e5] at t5; rw [e6] at t6
    simp only at t0 t1 t2 t3 t4 t5 t6
    refine ⟨rs, er, ⟨[l0, l1, l2, l3, l4, l5, l6], rfl⟩, ?_⟩
    rw [run_cons io l0 _ _ _ (by rw [t0]; exact step_facet hio _ n o0 rfl rfl rfl)]
    rw [run_cons io l1 _ _ _ (by rw [t1]; exact step_outer io _ rfl rfl rfl)]
    rw [run_cons io l2 _ _ _ (by rw [t2]; exact step_vertex hio _ (f 0) o2 rfl rfl rfl (by simp [between]))]
    rw [run_cons io l3 _ _ _ (by rw [t3]; exact step_vertex hio _ (f 1) o3 rfl rfl rfl (by simp [between]))]
    rw [run_cons io l4 _ _ _ (by rw [t4]; exact step_vertex hio _ (f 2) o4 rfl rfl rfl (by simp [between]))]
    rw [run_cons io l5 _ _ _ (by rw [t5]; exact step_endloop io _ rfl rfl rfl (by simp [between]))]
    rw [run_cons io l6 _ _ _ (by rw [t6]; exact step_endfacet io _ rfl rfl rfl (by simp [between]))]
    have hv : ∀ g : Facet, (fun i : Fin 3 => if i.val = 2 then (fun j => canon (f 2 j)) else if i.val = 1 then (fun j => canon (f 1 j)) else
        if i.val = 0 then (fun j => canon (f 0 j)) else g i) = fun k j => canon (f k j) := by
      intro g
      funext i
      match i with
      | 0 => rfl
      | 1 => rfl
      | 2 => rfl
    have key : ∀ g : Facet, g = (fun k j => canon (f k j)) → run io rs ⟨true, false, false, 0, 0, 0, g, out ++ [g]⟩
        = run io rs (between (fun k j => canon (f k j)) (out ++ [fun k j => canon (f k j)])) := by rintro _ rfl; rfl
    exact key _ (hv v)
  | [], hm => simp [facetLines] at hm
  | [_], hm => simp [facetLines] at hm
  | [_, _], hm => simp [facetLines] at hm
  | [_, _, _], hm => simp [facetLines] at hm
  | [_, _, _, _], hm => simp [facetLines] at hm
  | [_, _, _, _, _], hm => simp [facetLines] at hm
  | [_, _, _, _, _, _], hm => simp [facetLines] at hm

theorem run_facets (hio : io.Ok fin canon) (qs : List (Pt × Facet)) (ls : List Physical) (h : ∀ l ∈ ls, l.line.Ok fin ∧ Blank l.pre ∧ Blank l.post)
    (rest : List Line) (hm : ls.map Physical.line = qs.flatMap (fun q => facetLines q.1 q.2) ++ rest) (v : Facet) (out : List Facet) :
    ∃ rs v', rs.map Physical.line = rest ∧ rs <:+ ls ∧
      run io ls (between v out) = run io rs (between v' (out ++ qs.map (fun q => fun k j => canon (q.2 k j)))) := by
  induction qs generalizing ls v out with
  | nil => exact ⟨ls, v, by simpa using hm, List.suffix_refl _, by simp⟩
  | cons q qs ih =>
    rw [List.flatMap_cons, List.append_assoc] at hm
    obtain ⟨r1, e1, s1, h1⟩ := run_facet hio ls h q.1 q.2 _ hm v out
    obtain ⟨r2, v', e2, s2, h2⟩ := ih r1 (fun l hl => h l (s1.mem hl)) e1 _ _
    exact ⟨r2, v', e2, s2.trans s1, by rw [h1, h2]; simp⟩

theorem filter_lines (ls : List Physical) : (ls.filter (fun l => !l.line.isNoise)).map Physical.line = (ls.map Physical.line).filter (fun l => !l.isNoise) := by
  rw [List.filter_map]; rfl

/-- reading the lines of a text file -/
theorem run_text (hio : io.Ok fin canon) (ls : List Physical) (h : ∀ l ∈ ls, l.line.Ok fin ∧ Blank l.pre ∧ Blank l.post) (fs : List Facet)
    (hs : SaysFacets (ls.map Physical.line) fs) :
    ∃ v, run io ls ⟨false, false, false, 0, 0, 0, fun _ _ _ => 0, []⟩ = some ⟨false, false, false, 1, 0, 0, v, fs.map (fun f k j => canon (f k j))⟩ := by
  obtain ⟨name, name', ns, hlen, hf⟩ := hs
  rw [run_noise io fin ls h]
  rw [← filter_lines] at hf
  have h' : ∀ l ∈ ls.filter (fun l => !l.line.isNoise), l.line.Ok fin ∧ Blank l.pre ∧ Blank l.post := fun l hl => h l (List.mem_of_mem_filter hl)
  generalize ls.filter (fun l => !l.line.isNoise) = rs at hf h'
  cases rs with
  | nil => simp at hf
  | cons l rs =>
    rw [List.map_cons, List.cons.injEq] at hf
    have t0 := trim_line hio l (h' l (by simp))
    rw [hf.1] at t0
    obtain ⟨y, hy⟩ := t0
    rw [run_cons io l rs _ _ (by rw [hy]; exact step_solid io _ y rfl rfl)]
    obtain ⟨r2, v', e2, s2, h2⟩ := run_facets hio (ns.zip fs) rs (fun l hl => h' l (by simp [hl])) _ hf.2 (fun _ _ _ => 0) []
    refine ⟨v', ?_⟩
    have hgoal : run io rs (between (fun _ _ _ => 0) []) = some ⟨false, false, false, 1, 0, 0, v', fs.map (fun f k j => canon (f k j))⟩ := by
      rw [h2]
      match r2, e2 with
      | [l'], e2 =>
        have hl' : l' ∈ l :: rs := by simp [s2.mem (by simp : l' ∈ [l'])]
        have t1 := trim_line hio l' (h' l' hl')
        have : l'.line = .endsolid name' := by simpa using e2
        rw [this] at t1
        obtain ⟨y, hy⟩ := t1
        rw [run_cons io l' [] _ _ (by rw [hy]; exact step_endsolid io _ y rfl rfl rfl)]
        have hz : (ns.zip fs).map (fun q : Pt × Facet => fun k j => canon (q.2 k j)) = fs.map (fun f k j => canon (f k j)) := by
          rw [show (fun q : Pt × Facet => fun k j => canon (q.2 k j)) = (fun f : Facet => fun k j => canon (f k j)) ∘ Prod.snd from rfl, ← List.map_map, List.map_snd_zip (by omega)]
        rw [hz]
        simp [run, between]
      | [], e2 => simp at e2
      | _ :: _ :: _, e2 => simp at e2
    exact hgoal

end Gpy.Stl
