import Verif.Proofs.Ply11

/-!
# PLY: too few normals, and a text format
-/

set_option autoImplicit false
namespace Gpy.Ply

/-! ## bytes taken from an array -/

/-- the number of bytes a property takes from array `g` -/
def costOf (tab : Table) (g : ℕ) (e : Name) (p : Prp) : ℕ :=
  if tab.find e p.name = some g then p.ty.stride * (if p.list.isSome then p.listCount else 1) else 0

theorem takeBytes_some {k : ℕ} {s v r : List Byte} (h : takeBytes k s = some (v, r)) : r.length + k = s.length := by
  unfold takeBytes at h
  split at h
  · exact absurd h (by simp)
  · rename_i hk
    have := (Prod.mk.inj (Option.some.inj h)).2
    rw [← this, List.length_drop]; omega

theorem writeVals_cost (pt : Put) (t : Ty) (g g' n : ℕ) (st st' : WSt) (h : writeVals pt t g n st = some st') :
    (st'.left g').length + (if g = g' then t.stride * n else 0) = (st.left g').length := by
  induction n generalizing st with
  | zero =>
    simp only [writeVals, Option.some.injEq] at h
    rw [h]; simp
  | succ n ih =>
    simp only [writeVals] at h
    obtain ⟨⟨v, r⟩, h1, h2⟩ := Option.bind_eq_some_iff.mp h
    have := ih _ h2
    have hk := takeBytes_some h1
    by_cases hg : g = g'
    · subst hg
      simp only [upd, if_true] at this ⊢
      rw [Nat.mul_succ]; omega
    · have hg' : ¬ g' = g := fun h => hg h.symm
      simpa [upd, hg, hg'] using this

theorem writeStep_cost (pt : Put) (tab : Table) (e : Name) (g : ℕ) (st st' : WSt) (p : Prp) (h : writeStep pt tab e st p = some st') :
    (st'.left g).length + costOf tab g e p = (st.left g).length := by
  unfold writeStep at h
  obtain ⟨g0, h1, h2⟩ := Option.bind_eq_some_iff.mp h
  unfold costOf
  rw [h1]
  cases hl : p.list with
  | none =>
    rw [hl] at h2
    have := writeVals_cost pt p.ty g0 g 1 _ _ h2
    simpa using this
  | some lt =>
    rw [hl] at h2
    have := writeVals_cost pt p.ty g0 g _ _ _ h2
    simpa using this

theorem props_cost (pt : Put) (tab : Table) (e : Name) (g : ℕ) (ps : List Prp) (st st' : WSt) (h : ps.foldlM (writeStep pt tab e) st = some st') :
    (st'.left g).length + (ps.map (costOf tab g e)).sum = (st.left g).length := by
  induction ps generalizing st with
  | nil =>
    have : st = st' := by simpa using h
    rw [this]; simp
  | cons p ps ih =>
    rw [List.foldlM_cons] at h
    obtain ⟨s1, h1, h2⟩ := Option.bind_eq_some_iff.mp h
    have a := writeStep_cost pt tab e g _ _ p h1
    have b := ih s1 h2
    rw [List.map_cons, List.sum_cons]; omega

theorem rows_cost (pt : Put) (tab : Table) (e : Elem) (g n : ℕ) (st st' : WSt) (h : repeatM (writeRowP pt tab e) n st = some st') :
    (st'.left g).length + n * (e.props.map (costOf tab g e.name)).sum = (st.left g).length := by
  induction n generalizing st with
  | zero =>
    have : st = st' := by simpa [repeatM] using h
    rw [this]; simp
  | succ n ih =>
    simp only [repeatM] at h
    obtain ⟨s1, h1, h2⟩ := Option.bind_eq_some_iff.mp h
    unfold writeRowP at h1
    obtain ⟨s2, h3, h4⟩ := Option.map_eq_some_iff.mp h1
    have a := props_cost pt tab e.name g _ _ _ h3
    have b := ih s1 h2
    rw [← h4] at b
    simp only at b
    rw [Nat.succ_mul]; omega

theorem normals_cost : ∀ c fc f : Bool, (((vProps true c).map DProp.wprp).map (costOf (wtab true c fc f) 1 (c! "vertex"))).sum = 24 := by decide +kernel

theorem bytesD_length (R : List (Fin 3 → D64)) : (bytesD R).length = 24 * R.length := by
  induction R with
  | nil => rfl
  | cons r R ih =>
    have : bytesD (r :: R) = (List.ofFn (r 0) ++ List.ofFn (r 1) ++ List.ofFn (r 2)) ++ bytesD R := by simp [bytesD]
    rw [this, List.length_append, ih]; simp; ring

/-- with fewer normals than vertices the writer runs past the array of normals -/
theorem short_normals (io : TextIO) (binary : Bool) (M : Mesh) (h0 : M.N ≠ []) (h : M.N.length < M.V.length) : writePly io binary M = none := by
  unfold writePly
  split
  · rw [plyFile_eq]
    set c := decide (0 < M.C.length ∧ M.C.length = M.V.length)
    set fc := decide (0 < M.C.length ∧ M.C.length = M.F.length) with hfc
    set f := decide (0 < M.F.length) with hf
    have hn : decide (0 < M.N.length) = true := decide_eq_true (List.length_pos_iff.mpr h0)
    rw [hn]
    have key : ∀ pt, writePayload pt (plyFileB true c fc f M) = none := by
      intro pt
      unfold writePayload
      rw [plyFileB_tab, plyFileB_bufs, plyFileB_elems]
      · rw [List.foldlM_cons]
        cases hr : repeatM (writeRowP pt (wtab true c fc f) ⟨c! "vertex", M.V.length, (vProps true c).map DProp.wprp⟩) M.V.length
            ⟨fun g => (wbufs true c fc f M).getD g [], []⟩ with
        | none => rfl
        | some st =>
          exfalso
          have := rows_cost pt _ _ 1 _ _ _ hr
          simp only [normals_cost] at this
          have hb : (wbufs true c fc f M).getD 1 [] = bytesD M.N := by cases c <;> cases fc <;> cases f <;> rfl
          rw [hb, bytesD_length] at this
          omega
      · intro hh
        have := of_decide_eq_true (hfc ▸ hh)
        exact ⟨hf ▸ decide_eq_true (by omega), this.2⟩
    simp only [key, Option.map_none]
  · rfl

/-! ## a text format that meets the contract -/

/-- two letters for a byte -/
def hexOf (b : Byte) : List Byte := [⟨97 + b.val / 16, by omega⟩, ⟨97 + b.val % 16, by omega⟩]

def unhex : List Byte → Option (List Byte)
  | [] => some []
  | [_] => none
  | x :: y :: s => (unhex s).map (fun r => ⟨((x.val - 97) * 16 + (y.val - 97)) % 256, Nat.mod_lt _ (by decide)⟩ :: r)

theorem unhex_hexOf (b : List Byte) : unhex (b.flatMap hexOf) = some b := by
  induction b with
  | nil => rfl
  | cons x b ih =>
    simp only [List.flatMap_cons, hexOf, List.cons_append, List.nil_append, unhex] at *
    rw [ih]
    simp only [Option.map_some, Option.some.injEq, List.cons.injEq, and_true]
    apply Fin.ext
    simp only [Nat.add_sub_cancel_left]
    have := x.isLt
    omega

/-- values as letters after an `x`, numbers in unary after an `n` -/
def demoIO : TextIO where
  print _ b := ⟨120, by decide⟩ :: b.flatMap hexOf
  printNat n := ⟨110, by decide⟩ :: List.replicate n ⟨97, by decide⟩
  parse t s := match s with
    | [] => none
    | x :: r => if x.val = 110 then some (leBytes t.stride r.length) else (unhex r).bind (fun v => if v.length = t.stride then some v else none)

theorem demoIO_ok : demoIO.Ok (fun _ b => b) where
  print_word t b := by
    refine ⟨by simp [demoIO], ?_⟩
    intro c hc
    simp only [demoIO, List.mem_cons, List.mem_flatMap, hexOf, List.not_mem_nil, or_false] at hc
    rcases hc with rfl | ⟨x, _, rfl | rfl⟩
    · decide
    · have := x.isLt
      simp [isSp]; omega
    · have := x.isLt
      simp [isSp]; omega
  printNat_word n := by
    refine ⟨by simp [demoIO], ?_⟩
    intro c hc
    simp only [demoIO, List.mem_cons, List.mem_replicate] at hc
    rcases hc with rfl | ⟨_, rfl⟩ <;> decide
  parse_print t b _ hb := by
    simp [demoIO, unhex_hexOf, hb]
  parse_nat t n _ _ := by simp [demoIO]
  parse_len t s v h := by
    cases s with
    | nil => simp [demoIO] at h
    | cons x r =>
      simp only [demoIO] at h
      split at h
      · rw [← Option.some.inj h, leBytes_length]
      · obtain ⟨u, _, h2⟩ := Option.bind_eq_some_iff.mp h
        split at h2
        · rename_i hl
          rw [← Option.some.inj h2]; exact hl
        · exact absurd h2 (by simp)
  canon_int _ _ _ _ := rfl

end Gpy.Ply
