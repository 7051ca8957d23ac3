import Verif.Proofs.Ply9

/-!
# PLY: writing and reading back
-/

set_option autoImplicit false
namespace Gpy.Ply

theorem flatMap_nil' {α β : Type} (l : List α) : l.flatMap (fun _ => ([] : List β)) = [] := by
  rw [List.flatMap_eq_nil_iff]; intro _ _; rfl

/-- each array starts with the bytes that go to the file -/
theorem bufs_prefix (n c fc f : Bool) (M : Mesh) (hf : f = decide (0 < M.F.length)) (hn : n = false → M.N = []) (hN : n = true → M.V.length ≤ M.N.length)
    (hcV : c = true → M.C.length = M.V.length) (hfV : fc = true → M.C.length = M.F.length ∧ f = true) (g : ℕ) :
    pickDoc same (wtab n c fc f) g (if f then [vElem n c M (if c then scrambled M.C else []), fElem fc M (if fc then scrambled M.C else [])]
      else [vElem n c M (if c then scrambled M.C else [])]) <+: (wbufs n c fc f M).getD g [] := by
  have pv := pickElem_v n c fc f M (if c then scrambled M.C else []) hn hN (by intro h; simp [h])
    (by intro h; rw [if_pos h, scrambled_length]; exact hcV h) g
  have ev0 := flat_cellsD M.V
  have evN : n = true → (List.range M.V.length).flatMap (fun i => (cellsD M.N i).flatMap List.flatten) <+: bytesD M.N :=
    fun h => bytesD_prefix M.N M.V.length (hN h)
  have evC : c = true → (List.range M.V.length).flatMap (fun i => (cellsC (scrambled M.C) i).flatMap List.flatten) <+: bytesC M.C := by
    intro h
    have := bytesC_prefix M.C
    rw [scrambled_length, hcV h] at this
    exact this
  have efC : fc = true → (List.range M.F.length).flatMap (fun i => (cellsC (scrambled M.C) i).flatMap List.flatten) <+: bytesC M.C := by
    intro h
    have := bytesC_prefix M.C
    rw [scrambled_length, (hfV h).1] at this
    exact this
  have ef0 := flat_cellsF M.F
  -- the vertex element
  have hv : pickElem same (wtab n c fc f) g (vElem n c M (if c then scrambled M.C else [])) <+:
      (if g = 0 then bytesD M.V else if n = true ∧ g = 1 then bytesD M.N else if c = true ∧ g = gC n then bytesC M.C else []) ∧
      (g ≠ 0 → ¬ (n = true ∧ g = 1) → ¬ (c = true ∧ g = gC n) → pickElem same (wtab n c fc f) g (vElem n c M (if c then scrambled M.C else [])) = []) := by
    rw [pv]
    by_cases h0 : g = 0
    · have h1 : ¬ (n = true ∧ g = 1) := by omega
      have h2 : ¬ (c = true ∧ g = gC n) := by unfold gC; omega
      simp only [h1, h2, if_false, List.append_nil]
      simp only [h0, if_true]
      rw [ev0]
      exact ⟨List.prefix_refl _, fun h => absurd rfl h⟩
    · simp only [h0, if_false, List.nil_append]
      by_cases h1 : n = true ∧ g = 1
      · have h2 : ¬ (c = true ∧ g = gC n) := by unfold gC; rw [h1.1]; simp; omega
        simp only [h1, and_self, if_true, h2, if_false, List.append_nil]
        have h2' : ¬ (c = true ∧ 1 = gC true) := by unfold gC; simp
        simp only [h2', if_false, List.append_nil]
        exact ⟨evN h1.1, fun _ h => absurd h (by simp)⟩
      · by_cases h2 : c = true ∧ g = gC n
        · simp only [h1, if_false, h2.1, true_and, h2.2, if_true, List.nil_append]
          have h1' : ¬ (n = true ∧ gC n = 1) := by rw [← h2.2]; exact h1
          simp only [h1', if_false, List.nil_append]
          exact ⟨evC h2.1, fun _ _ h => absurd trivial h⟩
        · simp only [h1, h2, if_false, List.append_nil]
          rw [flatMap_nil']
          exact ⟨List.prefix_refl _, fun _ _ _ => rfl⟩
  cases f with
  | false =>
    have hfc : fc = false := by
      cases fc with
      | false => rfl
      | true => exact absurd (hfV rfl).2 (by decide)
    subst hfc
    have hgoal : pickDoc same (wtab n c false false) g [vElem n c M (if c then scrambled M.C else [])]
        = pickElem same (wtab n c false false) g (vElem n c M (if c then scrambled M.C else [])) := by simp [pickDoc]
    simp only [Bool.false_eq_true, if_false]
    rw [hgoal]
    refine hv.1.trans ?_
    cases n <;> cases c <;> rcases g with _ | _ | _ | g <;> simp [wbufs, gC]
  | true =>
    have hgoal : pickDoc same (wtab n c fc true) g [vElem n c M (if c then scrambled M.C else []), fElem fc M (if fc then scrambled M.C else [])]
        = pickElem same (wtab n c fc true) g (vElem n c M (if c then scrambled M.C else []))
          ++ pickElem same (wtab n c fc true) g (fElem fc M (if fc then scrambled M.C else [])) := by simp [pickDoc]
    simp only [if_true]
    rw [hgoal]
    have pf := pickElem_f n c fc M (if fc then scrambled M.C else []) (by intro h; simp [h])
      (by intro h; rw [if_pos h, scrambled_length]; exact (hfV h).1) g
    by_cases h3 : fc = true ∧ g = gFC n c
    · have e1 := hv.2 (by rw [h3.2]; unfold gFC; omega) (by rw [h3.2]; unfold gFC; rintro ⟨h, h'⟩; rw [h] at h'; simp at h'; omega)
        (by rw [h3.2]; unfold gFC gC; rintro ⟨h, h'⟩; rw [h] at h'; simp at h')
      have h4 : ¬ gFC n c = gF n c fc := by unfold gFC gF; rw [h3.1]; simp
      rw [e1, pf, h3.1, h3.2]
      rw [h3.1] at h4
      simp only [if_true, and_self, h4, if_false, List.append_nil, List.nil_append]
      refine (efC h3.1).trans ?_
      cases n <;> cases c <;> simp [wbufs, gFC]
    · by_cases h4 : g = gF n c fc
      · have e1 := hv.2 (by rw [h4]; unfold gF; omega) (by rw [h4]; unfold gF; rintro ⟨h, h'⟩; rw [h] at h'; simp at h'; omega)
          (by rw [h4]; unfold gF gC; rintro ⟨h, h'⟩; rw [h] at h'; simp at h'; omega)
        have h3' : ¬ (fc = true ∧ gF n c fc = gFC n c) := by rw [← h4]; exact h3
        rw [e1, pf, h4]
        simp only [h3', if_false, List.nil_append, if_true]
        rw [ef0]
        cases n <;> cases c <;> cases fc <;> simp [wbufs, gF]
      · have e2 : pickElem same (wtab n c fc true) g (fElem fc M (if fc then scrambled M.C else [])) = [] := by
          rw [pf]
          simp only [h3, h4, if_false, List.append_nil]
          exact flatMap_nil' _
        rw [e2, List.append_nil]
        refine hv.1.trans ?_
        cases n <;> cases c <;> cases fc <;> rcases g with _ | _ | _ | _ | _ | g <;> simp_all [wbufs, gC, gFC, gF]

theorem cv_pos (M : Mesh) : (if decide (0 < M.C.length ∧ M.C.length = M.V.length) = true then scrambled M.C else []) = colV M := by
  unfold colV
  by_cases h : M.C.length = M.V.length
  · by_cases h0 : 0 < M.C.length
    · rw [if_pos (decide_eq_true ⟨h0, h⟩), if_pos h]
    · have : M.C = [] := List.eq_nil_of_length_eq_zero (by omega)
      simp [this, scrambled]
  · simp [h]

theorem cf_pos (M : Mesh) : (if decide (0 < M.C.length ∧ M.C.length = M.F.length) = true then scrambled M.C else []) = colF M := by
  unfold colF
  by_cases h : M.C.length = M.F.length
  · by_cases h0 : 0 < M.C.length
    · rw [if_pos (decide_eq_true ⟨h0, h⟩), if_pos h]
    · have : M.C = [] := List.eq_nil_of_length_eq_zero (by omega)
      simp [this, scrambled]
  · simp [h]

theorem colV_pos (M : Mesh) : decide (0 < (colV M).length) = decide (0 < M.C.length ∧ M.C.length = M.V.length) := by
  unfold colV
  by_cases h : M.C.length = M.V.length
  · rw [if_pos h, scrambled_length]; simp [h]
  · rw [if_neg h]; simp [h]

theorem colF_pos (M : Mesh) : decide (0 < (colF M).length) = decide (0 < M.C.length ∧ M.C.length = M.F.length) := by
  unfold colF
  by_cases h : M.C.length = M.F.length
  · rw [if_pos h, scrambled_length]; simp [h]
  · rw [if_neg h]; simp [h]

/-- rows of the vertex element -/
theorem wcells_v (M : Mesh) (n c : Bool) (cv : List (Fin 4 → Byte)) (hn : n = false → M.N = []) (hN : n = true → M.V.length ≤ M.N.length)
    (hc : c = false → cv = []) (hC : c = true → cv.length = M.V.length) :
    ∀ row ∈ (vElem n c M cv).rows, List.Forall₂ WCell (vElem n c M cv).props row := by
  intro row hrow
  obtain ⟨i, hi, rfl⟩ := List.mem_map.mp hrow
  have hi' := List.mem_range.mp hi
  refine f2_append (f2_append (wcell_D M.V i hi' kV rfl) ?_) ?_
  · cases n with
    | false => rw [hn rfl]; exact .nil
    | true => exact wcell_D M.N i (lt_of_lt_of_le hi' (hN rfl)) kN rfl
  · cases c with
    | false => rw [hc rfl]; exact .nil
    | true => exact wcell_C cv i (by rw [hC rfl]; exact hi')

/-- rows of the face element -/
theorem wcells_f (M : Mesh) (fc : Bool) (cf : List (Fin 4 → Byte)) (hc : fc = false → cf = []) (hC : fc = true → cf.length = M.F.length) :
    ∀ row ∈ (fElem fc M cf).rows, List.Forall₂ WCell (fElem fc M cf).props row := by
  intro row hrow
  obtain ⟨i, hi, rfl⟩ := List.mem_map.mp hrow
  have hi' := List.mem_range.mp hi
  refine f2_append ?_ (wcell_F M.F i hi')
  cases fc with
  | false => rw [hc rfl]; exact .nil
  | true => exact wcell_C cf i (by rw [hC rfl]; exact hi')

theorem finds_v : ∀ n c fc f : Bool, ∀ k ∈ (vProps n c).map DProp.name, ((wtab n c fc f).find (c! "vertex") k).isSome = true := by decide +kernel
theorem finds_f : ∀ n c fc : Bool, ∀ k ∈ (fProps fc).map DProp.name, ((wtab n c fc true).find (c! "face") k).isSome = true := by decide +kernel

/-- the file that `write_mesh` writes -/
theorem write_doc (io : TextIO) (binary : Bool) (M : Mesh) (hN : M.N = [] ∨ M.V.length ≤ M.N.length)
    (hC : M.C.length = 0 ∨ M.C.length = M.V.length ∨ M.C.length = M.F.length) :
    writePly io binary M = some ((meshDoc M (colV M) (colF M)).file io (if binary then .little else .ascii) [plyComment]) := by
  set n := decide (0 < M.N.length) with hn
  set c := decide (0 < M.C.length ∧ M.C.length = M.V.length) with hc
  set fc := decide (0 < M.C.length ∧ M.C.length = M.F.length) with hfc
  set f := decide (0 < M.F.length) with hf
  have hn0 : n = false → M.N = [] := by
    intro h
    rw [hn] at h
    exact List.eq_nil_of_length_eq_zero (by have := of_decide_eq_false h; omega)
  have hn1 : n = true → M.V.length ≤ M.N.length := by
    intro h
    rcases hN with h' | h'
    · rw [hn, h'] at h; exact absurd h (by simp)
    · exact h'
  have hc1 : c = true → M.C.length = M.V.length := fun h => (of_decide_eq_true (hc ▸ h)).2
  have hfc1 : fc = true → M.C.length = M.F.length ∧ f = true := by
    intro h
    have := of_decide_eq_true (hfc ▸ h)
    exact ⟨this.2, by rw [hf]; simp only [decide_eq_true_eq]; omega⟩
  have hcv : (if c = true then scrambled M.C else []) = colV M := cv_pos M
  have hcf : (if fc = true then scrambled M.C else []) = colF M := cf_pos M
  have hdoc : meshDoc M (colV M) (colF M) = if f then [vElem n c M (colV M), fElem fc M (colF M)] else [vElem n c M (colV M)] := by
    rw [meshDoc_eq, colV_pos, colF_pos]
  have hfile : plyFile M = plyFileB n c fc f M := plyFile_eq M
  have cv0 : c = false → colV M = [] := by intro h; rw [← hcv, h]; rfl
  have cv1 : c = true → (colV M).length = M.V.length := by intro h; rw [← hcv, if_pos h, scrambled_length]; exact hc1 h
  have cf0 : fc = false → colF M = [] := by intro h; rw [← hcf, h]; rfl
  have cf1 : fc = true → (colF M).length = M.F.length := by intro h; rw [← hcf, if_pos h, scrambled_length]; exact (hfc1 h).1
  have helems : (plyFileB n c fc f M).elems = (meshDoc M (colV M) (colF M)).map DElem.welem := by
    rw [plyFileB_elems n c fc f M (fun h => ⟨(hfc1 h).2, (hfc1 h).1⟩), hdoc]
    cases f <;> simp [DElem.welem, vElem, fElem]
  have hmem : ∀ e ∈ meshDoc M (colV M) (colF M), e = vElem n c M (colV M) ∨ (f = true ∧ e = fElem fc M (colF M)) := by
    intro e he
    rw [hdoc] at he
    cases hf' : f with
    | false => rw [hf'] at he; left; simpa using he
    | true =>
      rw [hf'] at he
      simp only [if_true, List.mem_cons, List.not_mem_nil, or_false] at he
      rcases he with h | h
      · exact Or.inl h
      · exact Or.inr ⟨rfl, h⟩
  have hcells : ∀ e ∈ meshDoc M (colV M) (colF M), ∀ row ∈ e.rows, List.Forall₂ WCell e.props row := by
    intro e he
    rcases hmem e he with rfl | ⟨_, rfl⟩
    · exact wcells_v M n c (colV M) hn0 hn1 cv0 cv1
    · exact wcells_f M fc (colF M) cf0 cf1
  have hfind : ∀ e ∈ meshDoc M (colV M) (colF M), ∀ p ∈ e.props, ∃ g, (plyFileB n c fc f M).tab.find e.name p.name = some g := by
    intro e he p hp
    rw [plyFileB_tab]
    rcases hmem e he with rfl | ⟨hft, rfl⟩
    · exact Option.isSome_iff_exists.mp (finds_v n c fc f p.name (List.mem_map_of_mem hp))
    · rw [hft]
      exact Option.isSome_iff_exists.mp (finds_f n c fc p.name (List.mem_map_of_mem hp))
  have hpre : ∀ g, pickDoc same (plyFileB n c fc f M).tab g (meshDoc M (colV M) (colF M)) <+: (plyFileB n c fc f M).bufs.getD g [] := by
    intro g
    rw [plyFileB_tab, plyFileB_bufs, hdoc]
    have := bufs_prefix n c fc f M hf hn0 hn1 hc1 hfc1 g
    rw [hcv, hcf] at this
    exact this
  have hpay : ∀ pt, writePayload pt (plyFileB n c fc f M) = some ((meshDoc M (colV M) (colF M)).payload pt) := by
    intro pt
    refine writePayload_spec pt _ _ helems hcells hfind
      (fun g => ((plyFileB n c fc f M).bufs.getD g []).drop (pickDoc same (plyFileB n c fc f M).tab g (meshDoc M (colV M) (colF M))).length) ?_
    intro g
    exact (List.prefix_iff_eq_append.mp (hpre g)).symm
  unfold writePly
  rw [if_pos hC]
  simp only [hfile]
  rw [hpay, helems, writeHeader_spec binary _ _ hfind]
  simp only [Option.map_some, Doc.file]
  cases binary <;> rfl

end Gpy.Ply
