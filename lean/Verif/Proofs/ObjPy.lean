import Verif.Proofs.Obj

set_option autoImplicit false
namespace Gpy
open Np Gpy.Spec

variable {ν : Type} {io : NumIO ν}

theorem orNone_snoc {α : Type} (L : List α) (r : α) : orNone (L ++ [r]) = some (L ++ [r]) := by
  unfold orNone
  rw [if_neg (by simp)]

theorem orNone_getD {α : Type} (L : List α) : (orNone L).getD [] = L := by
  unfold orNone
  cases L <;> simp

theorem pyAddRow_eq (hio : io.Ok) {d : ℕ} {L : List (List ν)} {r : List ν} (hL : HasCols d L) (hr : r.length = d) :
    pyAddRow io (orNone L) (r.map io.fmt) = some (orNone (L ++ [r])) := by
  unfold pyAddRow
  rw [parse_fmt hio, orNone_snoc]
  simp only [Option.bind_eq_bind, Option.bind_some]
  cases L with
  | nil => rfl
  | cons a L =>
    have : orNone (a :: L) = some (a :: L) := rfl
    rw [this]
    simp only
    rw [if_pos]
    intro q hq
    rw [hL q hq, hr]

theorem py_v (hio : io.Ok) (a b : Bool) {d : ℕ} (hd : 0 < d) {L : List (List ν)} {r : List ν} (hL : HasCols d L) (hr : r.length = d)
    (s : ObjData ν) : pyLine io a b (rowLine ['v'] (r.map io.fmt)) { s with V := orNone L } = some { s with V := orNone (L ++ [r]) } := by
  have h0 : r.map io.fmt ≠ [] := by
    intro h; rw [List.map_eq_nil_iff] at h; subst h; simp at hr; omega
  unfold pyLine
  rw [rowLine_split (by decide) (by decide) h0 (fmt_tok hio r)]
  simp only [if_true]
  rw [pyAddRow_eq hio hL hr]
  rfl

theorem py_vt (hio : io.Ok) (a b : Bool) {d : ℕ} (hd : 0 < d) {L : List (List ν)} {r : List ν} (hL : HasCols d L) (hr : r.length = d)
    (s : ObjData ν) : pyLine io a b (rowLine ['v', 't'] (r.map io.fmt)) { s with UV := if a then orNone L else none } =
      some { s with UV := if a then orNone (L ++ [r]) else none } := by
  have h0 : r.map io.fmt ≠ [] := by
    intro h; rw [List.map_eq_nil_iff] at h; subst h; simp at hr; omega
  unfold pyLine
  rw [rowLine_split (by decide) (by decide) h0 (fmt_tok hio r)]
  simp only [if_true]
  rw [if_neg (by decide)]
  cases a with
  | true => simp only [if_true]; rw [pyAddRow_eq hio hL hr]; rfl
  | false => rfl

theorem py_vn (hio : io.Ok) (a b : Bool) {d : ℕ} (hd : 0 < d) {L : List (List ν)} {r : List ν} (hL : HasCols d L) (hr : r.length = d)
    (s : ObjData ν) : pyLine io a b (rowLine ['v', 'n'] (r.map io.fmt)) { s with N := if b then orNone L else none } =
      some { s with N := if b then orNone (L ++ [r]) else none } := by
  have h0 : r.map io.fmt ≠ [] := by
    intro h; rw [List.map_eq_nil_iff] at h; subst h; simp at hr; omega
  unfold pyLine
  rw [rowLine_split (by decide) (by decide) h0 (fmt_tok hio r)]
  simp only [if_true]
  rw [if_neg (by decide), if_neg (by decide)]
  cases b with
  | true => simp only [if_true]; rw [pyAddRow_eq hio hL hr]; rfl
  | false => rfl

/-- the three entries of a row -/
def row3 (M : List (List ℤ)) (r : ℕ) : List ℤ := (List.range 3).map (ent M r)

/-- the three entries of a row of an optional matrix, `-1` if there is none -/
def row3o (M : Option (List (List ℤ))) (r : ℕ) : List ℤ := (List.range 3).map (fun j => (M.map (fun m => ent m r j)).getD (-1))

theorem mapM_tok {α β : Type} (g : α → Option β) (w : ℕ → α) (v : ℕ → β) (h : ∀ j, g (w j) = some (v j)) (l : List ℕ) :
    (l.map w).mapM g = some (l.map v) := by
  induction l with
  | nil => rfl
  | cons a l ih => rw [List.map_cons, List.mapM_cons, ih, h]; rfl

theorem py_f (a b : Bool) (F : List (List ℤ)) (Ft Fn : Option (List (List ℤ))) (L : List ℕ) (r : ℕ) (s : ObjData ν) :
    pyLine io a b (rowLine ['f'] (faceToks F Ft Fn r)) { s with
        F := orNone (L.map (row3 F)), Ft := if a then orNone (L.map (row3o Ft)) else none, Fn := if b then orNone (L.map (row3o Fn)) else none } =
      some { s with F := orNone ((L ++ [r]).map (row3 F)), Ft := if a then orNone ((L ++ [r]).map (row3o Ft)) else none,
                    Fn := if b then orNone ((L ++ [r]).map (row3o Fn)) else none } := by
  have ht : ∀ t ∈ faceToks F Ft Fn r, Tok t := by
    intro t ht
    obtain ⟨j, _, rfl⟩ := List.mem_map.mp ht
    exact tok_tok _ _ _
  have h0 : faceToks F Ft Fn r ≠ [] := by unfold faceToks; simp
  have hl : (faceToks F Ft Fn r).length = 3 := by unfold faceToks; simp
  unfold pyLine
  rw [rowLine_split (by decide) (by decide) h0 ht]
  simp only [if_true]
  rw [if_neg (by decide), if_neg (by decide), if_neg (by decide), if_pos hl]
  have e0 : ((faceToks F Ft Fn r).map (splitOn '/')).mapM (fun x => (x[0]?.getD []) |> parseInt) = some ((List.range 3).map (fun j => ent F r j + 1)) := by
    unfold faceToks
    rw [List.map_map]
    exact mapM_tok (fun x => parseInt (x[0]?.getD [])) _ (fun j => ent F r j + 1) (fun j => py_entry0 (ent F r j) _ _) (List.range 3)
  have e1 : ((faceToks F Ft Fn r).map (splitOn '/')).mapM (pyFaceEntry 1) =
      some ((List.range 3).map (fun j => (Ft.map (fun m => ent m r j)).getD (-1) + 1)) := by
    unfold faceToks
    rw [List.map_map]
    exact mapM_tok (pyFaceEntry 1) _ (fun j => (Ft.map (fun m => ent m r j)).getD (-1) + 1) (fun j => py_entry1 (ent F r j) (Ft.map (fun m => ent m r j)) _) (List.range 3)
  have e2 : ((faceToks F Ft Fn r).map (splitOn '/')).mapM (pyFaceEntry 2) =
      some ((List.range 3).map (fun j => (Fn.map (fun m => ent m r j)).getD (-1) + 1)) := by
    unfold faceToks
    rw [List.map_map]
    exact mapM_tok (pyFaceEntry 2) _ (fun j => (Fn.map (fun m => ent m r j)).getD (-1) + 1) (fun j => py_entry2 (ent F r j) _ (Fn.map (fun m => ent m r j))) (List.range 3)
  rw [e0, e1, e2]
  simp only [List.map_append, List.map_cons, List.map_nil, orNone_snoc]
  cases a <;> cases b <;>
    simp only [Option.bind_eq_bind, Option.bind_some, if_true, Bool.false_eq_true, if_false, orNone_getD, List.map_map] <;>
    simp [row3, row3o, Function.comp_def]

theorem range_row3 {F : List (List ℤ)} (hF : HasCols 3 F) : (List.range F.length).map (row3 F) = F := by
  apply List.ext_getElem
  · simp
  · intro i h1 h2
    rw [List.getElem_map, List.getElem_range]
    obtain ⟨a, b, c, h⟩ := row_three hF h2
    have : F[i] = [a, b, c] := by rw [← h]; simp [List.getElem?_eq_getElem h2]
    rw [this]
    simp [row3, ent, h, List.range_succ]

theorem range_row3o {F : List (List ℤ)} {Ft : Option (List (List ℤ))} (h : ∀ m ∈ Ft, HasCols 3 m ∧ m.length = F.length) :
    (List.range F.length).map (row3o Ft) = orMinusOne F Ft := by
  cases Ft with
  | none =>
    unfold orMinusOne
    simp only [Option.getD_none]
    apply List.ext_getElem
    · simp
    · intro i h1 h2; simp [row3o, List.range_succ]
  | some m =>
    obtain ⟨h1, h2⟩ := h m rfl
    unfold orMinusOne
    rw [Option.getD_some, ← h2]
    exact range_row3 h1

theorem foldlM_append_some {σ τ : Type} (step : σ → τ → Option σ) {l1 l2 : List τ} {s s1 s2 : σ} (h1 : l1.foldlM step s = some s1)
    (h2 : l2.foldlM step s1 = some s2) : (l1 ++ l2).foldlM step s = some s2 := by
  rw [List.foldlM_append, h1]; exact h2

theorem pyReadObj_eq (hio : io.Ok) {V : List (List ν)} {F : List (List ℤ)} {UV : List (List ν)} {Ft : Option (List (List ℤ))}
    {N : List (List ν)} {Fn : Option (List (List ℤ))} (hV : ∃ d, 0 < d ∧ HasCols d V) (hUV : ∃ d, 0 < d ∧ HasCols d UV)
    (hN : ∃ d, 0 < d ∧ HasCols d N) (hF : HasCols 3 F) (hFt : ∀ m ∈ Ft, HasCols 3 m ∧ m.length = F.length)
    (hFn : ∀ m ∈ Fn, HasCols 3 m ∧ m.length = F.length) (a b : Bool) :
    pyReadObj io a b (objText io V F UV Ft N Fn) = some
      { V := orNone V, F := orNone F, UV := if a then orNone UV else none, Ft := if a then orNone (orMinusOne F Ft) else none,
        N := if b then orNone N else none, Fn := if b then orNone (orMinusOne F Fn) else none } := by
  unfold pyReadObj objText
  rw [splitOn_lines _ (objLines_nl hio V F UV Ft N Fn)]
  unfold objLines
  obtain ⟨d, hd, hV⟩ := hV
  obtain ⟨d', hd', hUV⟩ := hUV
  obtain ⟨d'', hd'', hN⟩ := hN
  have nilcols : ∀ d, HasCols d ([] : List (List ν)) := fun d r hr => by cases hr
  have snoc : ∀ (d : ℕ) (L : List (List ν)) (r : List ν), HasCols d L → r.length = d → HasCols d (L ++ [r]) := by
    intro d L r h1 h2 q hq
    rw [List.mem_append, List.mem_singleton] at hq
    rcases hq with hq | rfl
    · exact h1 q hq
    · exact h2
  -- the four blocks
  obtain ⟨s1, e1, _, h1⟩ := fold_rel (fun s line => pyLine io a b line s) (fun r => rowLine ['v'] (r.map io.fmt))
    (fun s L => HasCols d L ∧ s = { V := orNone L }) (fun r => r.length = d)
    (fun s L r hs hr => ⟨_, by rw [hs.2]; exact py_v hio a b hd hs.1 hr {}, snoc d L r hs.1 hr, rfl⟩)
    V {} [] ⟨nilcols d, rfl⟩ hV
  obtain ⟨s2, e2, _, h2⟩ := fold_rel (fun s line => pyLine io a b line s) (fun r => rowLine ['v', 't'] (r.map io.fmt))
    (fun s L => HasCols d' L ∧ s = { V := orNone V, UV := if a then orNone L else none }) (fun r => r.length = d')
    (fun s L r hs hr => ⟨_, by rw [hs.2]; exact py_vt hio a b hd' hs.1 hr { V := orNone V }, snoc d' L r hs.1 hr, rfl⟩)
    UV s1 [] ⟨nilcols d', by rw [h1]; cases a <;> rfl⟩ hUV
  obtain ⟨s3, e3, _, h3⟩ := fold_rel (fun s line => pyLine io a b line s) (fun r => rowLine ['v', 'n'] (r.map io.fmt))
    (fun s L => HasCols d'' L ∧ s = { V := orNone V, UV := if a then orNone UV else none, N := if b then orNone L else none })
    (fun r => r.length = d'')
    (fun s L r hs hr => ⟨_, by rw [hs.2]; exact py_vn hio a b hd'' hs.1 hr { V := orNone V, UV := if a then orNone UV else none },
      snoc d'' L r hs.1 hr, rfl⟩)
    N s2 [] ⟨nilcols d'', by rw [h2]; cases b <;> rfl⟩ hN
  obtain ⟨s4, e4, h4⟩ := fold_rel (fun s line => pyLine io a b line s) (fun r => rowLine ['f'] (faceToks F Ft Fn r))
    (fun s L => s = { V := orNone V, UV := if a then orNone UV else none, N := if b then orNone N else none,
                      F := orNone (L.map (row3 F)), Ft := if a then orNone (L.map (row3o Ft)) else none,
                      Fn := if b then orNone (L.map (row3o Fn)) else none }) (fun _ => True)
    (fun s L r hs _ => ⟨_, by rw [hs]; exact py_f a b F Ft Fn L r { V := orNone V, UV := if a then orNone UV else none, N := if b then orNone N else none }, rfl⟩)
    (List.range F.length) s3 [] (by rw [h3]; cases a <;> cases b <;> rfl) (fun _ _ => trivial)
  rw [List.nil_append, range_row3 hF, range_row3o hFt, range_row3o hFn] at h4
  refine foldlM_append_some _ (foldlM_append_some _ e1 (foldlM_append_some _ e2 (foldlM_append_some _ e3 e4))) ?_
  rw [h4]
  rfl

end Gpy
