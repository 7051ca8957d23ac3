import Verif.Proofs.ObjPy

set_option autoImplicit false
namespace Gpy
open Np Gpy.Spec

variable {ν : Type} {io : NumIO ν}

/-- the state of a growing matrix holding the rows `L` -/
def GInv {α : Type} (d : ℕ) (L : List (List α)) (M : GMat α) : Prop :=
  (L = [] ∧ M = {}) ∨ (L ≠ [] ∧ M.cols = d ∧ M.n = L.length ∧ M.n ≤ M.mem.length ∧ M.mem.take M.n = L)

theorem take_set_snoc {α : Type} {mem L : List α} {x : α} (h : L.length < mem.length) (ht : mem.take L.length = L) :
    (mem.set L.length x).take (L.length + 1) = L ++ [x] := by
  rw [List.take_add_one, List.take_set_of_le (le_refl _), ht]
  rw [List.getElem?_set_self h]
  rfl

theorem take_append_le {α : Type} (mem L ex : List α) (h : L.length ≤ mem.length) (ht : mem.take L.length = L) :
    (mem ++ ex).take L.length = L := by
  rw [List.take_append_of_le_length h, ht]

theorem GMat.addRow_inv {α : Type} (junk : List α) {d : ℕ} (hd : 0 < d) {L : List (List α)} {M : GMat α} (h : GInv d L M) (row : ℕ → List α) :
    GInv d (L ++ [row d]) (M.addRow junk d row) := by
  right
  refine ⟨by simp, ?_⟩
  unfold GMat.addRow
  rcases h with ⟨rfl, rfl⟩ | ⟨h0, h1, h2, h3, h4⟩
  · simp
  · have hL := List.length_pos_iff.mpr h0
    rw [if_neg (by rw [h1]; exact Nat.ne_of_gt (Nat.mul_pos (by omega) hd))]
    rw [h2] at h4 h3
    simp only [h1, h2, Nat.add_sub_cancel, List.length_append, List.length_singleton, List.length_set, true_and]
    split
    · rename_i hlt
      refine ⟨?_, ?_⟩
      · rw [List.length_append, List.length_replicate]; omega
      · exact take_set_snoc (by rw [List.length_append, List.length_replicate]; omega) (take_append_le _ _ _ h3 h4)
    · rename_i hlt
      refine ⟨by omega, ?_⟩
      exact take_set_snoc (by omega) h4

theorem GInv_rows {α : Type} {d : ℕ} {L : List (List α)} {M : GMat α} (h : GInv d L M) : M.rows = L := by
  unfold GMat.rows
  rcases h with ⟨rfl, rfl⟩ | ⟨_, _, h2, h3, h4⟩
  · rfl
  · split
    · exact h4
    · rw [List.take_of_length_le (by omega)] at h4; exact h4

theorem cppNumRow_inv (hio : io.Ok) (nan : ν) (junk : List ν) {d : ℕ} (hd : 0 < d) {L : List (List ν)} {M : GMat ν} (h : GInv d L M) {r : List ν}
    (hr : r.length = d) : GInv d (L ++ [r]) (cppNumRow io nan junk M (' ' :: joinWith ' ' (r.map io.fmt))) := by
  have h0 : r.map io.fmt ≠ [] := by
    intro h; rw [List.map_eq_nil_iff] at h; subst h; simp at hr; omega
  have ht := fmt_tok hio r
  unfold cppNumRow
  have hl := join_length _ ht
  rw [count_line _ _ ht h0 (Nat.le_succ_of_le hl), List.length_map, hr]
  have := GMat.addRow_inv junk hd h (fun cols => (cppTokens cols (' ' :: joinWith ' ' (r.map io.fmt))).map (itToDouble io nan))
  have e : (cppTokens d (' ' :: joinWith ' ' (r.map io.fmt))).map (itToDouble io nan) = r := by
    have := cppTokens_line _ ht
    rw [List.length_map, hr] at this
    rw [this, List.map_map]
    have : (itToDouble io nan ∘ io.fmt) = id := by
      funext x
      simp [itToDouble, (hio x).2.2]
    rw [this, List.map_id]
  simp only [e] at this
  exact this

/-! ## faces -/

/-- the state of an index matrix with allocated rows `mem`, of which the first are `L` and the others `-1` -/
def FtInv (len : ℕ) (L mem : List (List ℤ)) : Prop :=
  mem.length = len ∧ L.length ≤ len ∧ mem.take L.length = L ∧ ∀ r ∈ mem.drop L.length, r = [-1, -1, -1]

theorem FtInv_grow {len : ℕ} {L mem : List (List ℤ)} (h : FtInv len L mem) (k : ℕ) :
    FtInv (len + k) L (mem ++ List.replicate k [-1, -1, -1]) := by
  obtain ⟨h1, h2, h3, h4⟩ := h
  refine ⟨by simp [h1], by omega, take_append_le _ _ _ (by omega) h3, ?_⟩
  intro r hr
  rw [List.drop_append_of_le_length (by omega), List.mem_append] at hr
  rcases hr with hr | hr
  · exact h4 r hr
  · exact List.eq_of_mem_replicate hr

theorem FtInv_step {len : ℕ} {L mem : List (List ℤ)} (h : FtInv len L mem) (hlt : L.length < len) (g : List ℤ → List ℤ) :
    FtInv len (L ++ [g [-1, -1, -1]]) (mem.modify L.length g) := by
  obtain ⟨h1, h2, h3, h4⟩ := h
  have hi : L.length < mem.length := by omega
  have hget : mem[L.length] = [-1, -1, -1] := by
    apply h4
    rw [List.mem_iff_getElem]
    exact ⟨0, by simp; omega, by simp⟩
  have e : mem.modify L.length g = mem.set L.length (g [-1, -1, -1]) := by
    apply List.ext_getElem
    · simp
    · intro i i1 i2
      rw [List.getElem_modify, List.getElem_set]
      by_cases hc : L.length = i
      · subst hc; simp [hget]
      · simp [hc]
  rw [e]
  refine ⟨by simp [h1], by simp; omega, ?_, ?_⟩
  · rw [List.length_append, List.length_singleton]; exact take_set_snoc hi h3
  · intro r hr
    rw [List.length_append, List.length_singleton, List.drop_set_of_lt (by omega)] at hr
    apply h4
    have : mem.drop (L.length + 1) = (mem.drop L.length).drop 1 := by rw [List.drop_drop]
    rw [this] at hr
    exact List.mem_of_mem_drop hr

/-- the state of the three index matrices after the faces `L` -/
def FInv (a b : Bool) (F : List (List ℤ)) (Ft Fn : Option (List (List ℤ))) (L : List ℕ) (s : CppObj ν) : Prop :=
  s.m = L.length ∧ L.length ≤ s.F.length ∧ s.F.take L.length = L.map (row3 F) ∧ (L = [] → s.F = []) ∧
  (if a then FtInv s.F.length (L.map (row3o Ft)) s.Ft else s.Ft = []) ∧
  (if b then FtInv s.F.length (L.map (row3o Fn)) s.Fn else s.Fn = [])

theorem es_eq (F : List (List ℤ)) (Ft Fn : Option (List (List ℤ))) (r : ℕ) :
    (cppTokens 3 (' ' :: joinWith ' ' (faceToks F Ft Fn r))).map cppFace =
      (List.range 3).map (fun j => (ent F r j, Ft.map (fun m => ent m r j), Fn.map (fun m => ent m r j))) := by
  have ht : ∀ t ∈ faceToks F Ft Fn r, Tok t := by
    intro t ht
    obtain ⟨j, _, rfl⟩ := List.mem_map.mp ht
    exact tok_tok _ _ _
  have hl : (faceToks F Ft Fn r).length = 3 := by unfold faceToks; simp
  have := cppTokens_line _ ht
  rw [hl] at this
  rw [this]
  unfold faceToks
  rw [List.map_map]
  apply List.map_congr_left
  intro j _
  exact cppFace_tok _ _ _

theorem cppFaceLine_inv (junk : List ℤ) (a b : Bool) (F : List (List ℤ)) (Ft Fn : Option (List (List ℤ))) (L : List ℕ) (s : CppObj ν)
    (h : FInv a b F Ft Fn L s) (r : ℕ) :
    ∃ s', cppFaceLine junk a b (' ' :: joinWith ' ' (faceToks F Ft Fn r)) s = some s' ∧ FInv a b F Ft Fn (L ++ [r]) s' ∧
      s'.V = s.V ∧ s'.UV = s.UV ∧ s'.N = s.N := by
  have ht : ∀ t ∈ faceToks F Ft Fn r, Tok t := by
    intro t ht
    obtain ⟨j, _, rfl⟩ := List.mem_map.mp ht
    exact tok_tok _ _ _
  have hl : (faceToks F Ft Fn r).length = 3 := by unfold faceToks; simp
  have h0 : faceToks F Ft Fn r ≠ [] := by intro h; rw [h] at hl; simp at hl
  have hc : countNonSpaces ((' ' :: joinWith ' ' (faceToks F Ft Fn r)).length + 1) (' ' :: joinWith ' ' (faceToks F Ft Fn r)) = 3 := by
    rw [count_line _ _ ht h0 (Nat.le_succ_of_le (join_length _ ht)), hl]
  obtain ⟨h1, h2, h3, h4, h5, h6⟩ := h
  unfold cppFaceLine
  rw [if_neg (by rw [hc]; simp)]
  refine ⟨_, rfl, ?_, rfl, rfl, rfl⟩
  simp only [es_eq, h1, Nat.add_sub_cancel]
  set k := if s.F.length = 0 then 1 else s.F.length with hk
  have hk1 : 1 ≤ k := by rw [hk]; split <;> omega
  set F' := if decide (s.F.length < L.length + 1) = true then s.F ++ List.replicate k junk else s.F with hF'
  have hlen : L.length < F'.length := by
    rw [hF']
    split
    · rw [List.length_append, List.length_replicate]; omega
    · rename_i hh; simp at hh; omega
  have htake : F'.take L.length = L.map (row3 F) := by
    rw [hF']
    split
    · rw [List.take_append_of_le_length h2, h3]
    · exact h3
  have opt : ∀ (ret : Bool) (M : Option (List (List ℤ))) (mem : List (List ℤ)) (sel : ℤ × Option ℤ × Option ℤ → Option ℤ),
      (∀ j, sel (ent F r j, Ft.map (fun m => ent m r j), Fn.map (fun m => ent m r j)) = M.map (fun m => ent m r j)) →
      (if ret then FtInv s.F.length (L.map (row3o M)) mem else mem = []) →
      (if ret then FtInv F'.length ((L ++ [r]).map (row3o M))
        (if ret then (if (decide (s.F.length < L.length + 1) && ret) = true then mem ++ List.replicate k [-1, -1, -1] else mem).modify L.length
          (fun old => List.zipWith (fun (e : ℤ × Option ℤ × Option ℤ) o => (sel e).getD o)
            ((List.range 3).map (fun j => (ent F r j, Ft.map (fun m => ent m r j), Fn.map (fun m => ent m r j)))) old)
          else (if (decide (s.F.length < L.length + 1) && ret) = true then mem ++ List.replicate k [-1, -1, -1] else mem))
        else (if ret then (if (decide (s.F.length < L.length + 1) && ret) = true then mem ++ List.replicate k [-1, -1, -1] else mem).modify L.length
          (fun old => List.zipWith (fun (e : ℤ × Option ℤ × Option ℤ) o => (sel e).getD o)
            ((List.range 3).map (fun j => (ent F r j, Ft.map (fun m => ent m r j), Fn.map (fun m => ent m r j)))) old)
          else (if (decide (s.F.length < L.length + 1) && ret) = true then mem ++ List.replicate k [-1, -1, -1] else mem)) = []) := by
    intro ret M mem sel hsel hM
    cases ret with
    | false => simpa using hM
    | true =>
      simp only [if_true, Bool.and_true] at hM ⊢
      have g : FtInv F'.length (L.map (row3o M)) (if decide (s.F.length < L.length + 1) = true then mem ++ List.replicate k [-1, -1, -1] else mem) := by
        by_cases hh : s.F.length < L.length + 1
        · have hh' : decide (s.F.length < L.length + 1) = true := by simpa using hh
          rw [hF', if_pos hh', if_pos hh', List.length_append, List.length_replicate]
          exact FtInv_grow hM k
        · have hh' : ¬ decide (s.F.length < L.length + 1) = true := by simpa using hh
          rw [hF', if_neg hh', if_neg hh']
          exact hM
      have g2 := FtInv_step g (by rw [List.length_map]; exact hlen) (fun old => List.zipWith (fun (e : ℤ × Option ℤ × Option ℤ) o => (sel e).getD o)
            ((List.range 3).map (fun j => (ent F r j, Ft.map (fun m => ent m r j), Fn.map (fun m => ent m r j)))) old)
      rw [List.length_map] at g2
      rw [List.map_append, List.map_singleton]
      have e : row3o M r = List.zipWith (fun (e : ℤ × Option ℤ × Option ℤ) o => (sel e).getD o)
            ((List.range 3).map (fun j => (ent F r j, Ft.map (fun m => ent m r j), Fn.map (fun m => ent m r j)))) [-1, -1, -1] := by
        simp [row3o, List.range_succ, hsel]
      rw [e]
      exact g2
  refine ⟨by simp, by simp [hlen], ?_, by simp, ?_, ?_⟩
  · simp only [List.length_append, List.length_singleton, List.map_append, List.map_singleton]
    have := take_set_snoc (mem := F') (L := L.map (row3 F)) (x := row3 F r) (by simpa using hlen) (by simpa using htake)
    rw [List.length_map] at this
    rw [← this, List.map_map]
    rfl
  · simp only [List.length_set]
    exact opt a Ft s.Ft (fun e => e.2.1) (fun j => rfl) h5
  · simp only [List.length_set]
    exact opt b Fn s.Fn (fun e => e.2.2) (fun j => rfl) h6

theorem getLast_lines (L : List (List Char)) : getLines (L.flatMap (fun l => l ++ ['\n'])) = L ∨ ∃ l ∈ L, '\n' ∈ l := by
  by_cases h : ∀ l ∈ L, '\n' ∉ l
  · left
    unfold getLines
    rw [splitOn_lines _ h]
    simp
  · right
    push Not at h
    exact h

theorem cppReadObj_eq (hio : io.Ok) (nan : ν) (junk : List ν) (junkF : List ℤ) {V : List (List ν)} {F : List (List ℤ)} {UV : List (List ν)}
    {Ft : Option (List (List ℤ))} {N : List (List ν)} {Fn : Option (List (List ℤ))} (hV : ∃ d, 0 < d ∧ HasCols d V)
    (hUV : ∃ d, 0 < d ∧ HasCols d UV)
    (hN : ∃ d, 0 < d ∧ HasCols d N) (hF : HasCols 3 F) (hFt : ∀ m ∈ Ft, HasCols 3 m ∧ m.length = F.length)
    (hFn : ∀ m ∈ Fn, HasCols 3 m ∧ m.length = F.length) (a b : Bool) :
    cppReadObj io nan junk junkF a b (objText io V F UV Ft N Fn) = some
      (V, F, if a then UV else [], if a then orMinusOne F Ft else [], if b then N else [], if b then orMinusOne F Fn else []) := by
  unfold cppReadObj objText
  rcases getLast_lines (objLines io V F UV Ft N Fn) with hg | ⟨l, hl, hn⟩
  swap
  · exact absurd hn (objLines_nl hio V F UV Ft N Fn l hl)
  rw [hg]
  unfold objLines
  obtain ⟨d, hd, hV⟩ := hV
  obtain ⟨d', hd', hUV⟩ := hUV
  obtain ⟨d'', hd'', hN⟩ := hN
  obtain ⟨s1, e1, g1, h1⟩ := fold_rel (fun s line => cppLine io nan junk junkF a b line s) (fun r => rowLine ['v'] (r.map io.fmt))
    (fun s L => GInv d L s.V ∧ s = { V := s.V }) (fun r => r.length = d)
    (fun s L r hs hr => ⟨{ s with V := cppNumRow io nan junk s.V (' ' :: joinWith ' ' (r.map io.fmt)) }, rfl, cppNumRow_inv hio nan junk hd hs.1 hr,
      by rw [hs.2]⟩)
    V {} [] ⟨Or.inl ⟨rfl, rfl⟩, rfl⟩ hV
  obtain ⟨s2, e2, g2, h2⟩ := fold_rel (fun s line => cppLine io nan junk junkF a b line s) (fun r => rowLine ['v', 't'] (r.map io.fmt))
    (fun s L => GInv d' (if a then L else []) s.UV ∧ s = { V := s1.V, UV := s.UV }) (fun r => r.length = d')
    (fun s L r hs hr => ⟨{ s with UV := if a then cppNumRow io nan junk s.UV (' ' :: joinWith ' ' (r.map io.fmt)) else s.UV }, by
        cases a <;> rfl, by
        cases a with
        | true => exact cppNumRow_inv hio nan junk hd' hs.1 hr
        | false => exact hs.1,
      by rw [hs.2]⟩)
    UV s1 [] ⟨Or.inl ⟨by simp, by rw [h1]⟩, by rw [h1]⟩ hUV
  obtain ⟨s3, e3, g3, h3⟩ := fold_rel (fun s line => cppLine io nan junk junkF a b line s) (fun r => rowLine ['v', 'n'] (r.map io.fmt))
    (fun s L => GInv d'' (if b then L else []) s.N ∧ s = { V := s1.V, UV := s2.UV, N := s.N }) (fun r => r.length = d'')
    (fun s L r hs hr => ⟨{ s with N := if b then cppNumRow io nan junk s.N (' ' :: joinWith ' ' (r.map io.fmt)) else s.N }, by
        cases b <;> rfl, by
        cases b with
        | true => exact cppNumRow_inv hio nan junk hd'' hs.1 hr
        | false => exact hs.1,
      by rw [hs.2]⟩)
    N s2 [] ⟨Or.inl ⟨by simp, by rw [h2]⟩, by rw [h2]⟩ hN
  obtain ⟨s4, e4, g4, hv4, hu4, hn4⟩ := fold_rel (fun s line => cppLine io nan junk junkF a b line s) (fun r => rowLine ['f'] (faceToks F Ft Fn r))
    (fun s L => FInv a b F Ft Fn L s ∧ s.V = s1.V ∧ s.UV = s2.UV ∧ s.N = s3.N) (fun _ => True)
    (fun s L r hs _ => by
      obtain ⟨s', i1, i2, i3, i4, i5⟩ := cppFaceLine_inv junkF a b F Ft Fn L s hs.1 r
      exact ⟨s', i1, i2, by rw [i3, hs.2.1], by rw [i4, hs.2.2.1], by rw [i5, hs.2.2.2]⟩)
    (List.range F.length) s3 [] (by
      rw [h3]
      refine ⟨⟨rfl, by simp, by simp, by simp, ?_, ?_⟩, rfl, rfl, rfl⟩
      · cases a <;> simp [FtInv]
      · cases b <;> simp [FtInv]) (fun _ _ => trivial)
  rw [foldlM_append_some _ e1 (foldlM_append_some _ e2 (foldlM_append_some _ e3 e4))]
  simp only [Option.bind_eq_bind, Option.bind_some]
  obtain ⟨m1, m2, m3, _, m5, m6⟩ := g4
  rw [List.nil_append] at m1 m2 m3 m5 m6 g1 g2 g3
  have o : ∀ (ret : Bool) (M : Option (List (List ℤ))) (mem : List (List ℤ)), (∀ m ∈ M, HasCols 3 m ∧ m.length = F.length) →
      (if ret then FtInv s4.F.length ((List.range F.length).map (row3o M)) mem else mem = []) →
      mem.take s4.m = if ret then orMinusOne F M else [] := by
    intro ret M mem hM h
    cases ret with
    | false => simp only [Bool.false_eq_true, if_false] at h ⊢; rw [h]; simp
    | true =>
      simp only [if_true] at h ⊢
      obtain ⟨_, _, h, _⟩ := h
      rw [range_row3o hM] at h
      rw [m1, ← h]
      congr 1
      rw [List.length_range, ← range_row3o hM]; simp
  rw [hv4, hu4, hn4, GInv_rows g1, GInv_rows g2, GInv_rows g3, o a Ft _ hFt m5, o b Fn _ hFn m6, m1, m3, range_row3 hF]

end Gpy
