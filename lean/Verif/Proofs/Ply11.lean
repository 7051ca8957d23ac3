import Verif.Proofs.Ply10
import Mathlib.Tactic.FinCases

/-!
# PLY: reading a written file
-/

set_option autoImplicit false
namespace Gpy.Ply

theorem field_blk (e : DElem) (hn : (e.props.map DProp.name).Nodup) (A B : List DProp) (t : Ty) (l : Option Ty) (keys : List Name)
    (hp : e.props = A ++ blk t l keys ++ B) (a cells b row : List (List (List Byte))) (hr : row = a ++ cells ++ b) (ha : A.length = a.length)
    (j : ℕ) (k : Name) (c : List (List Byte)) (hk : keys[j]? = some k) (hc : cells[j]? = some c) : e.field k row = some (t, c) := by
  have hm : ((⟨k, t, l⟩ : DProp), c) ∈ e.props.zip row := by
    rw [hp, hr, List.append_assoc, List.append_assoc, List.zip_append ha]
    refine List.mem_append_right _ ?_
    rw [List.mem_iff_getElem?]
    refine ⟨j, ?_⟩
    rw [List.getElem?_zip_eq_some]
    have h1 : (blk t l keys)[j]? = some ⟨k, t, l⟩ := by unfold blk; rw [List.getElem?_map, hk]; rfl
    exact ⟨by rw [List.getElem?_append_left (List.getElem?_eq_some_iff.mp h1).1]; exact h1,
      by rw [List.getElem?_append_left (List.getElem?_eq_some_iff.mp hc).1]; exact hc⟩
  have := field_of_mem e hn row (⟨k, t, l⟩, c) hm
  exact this

variable {cn : Ty → List Byte → List Byte}

theorem scalars_D (e : DElem) (hn : (e.props.map DProp.name).Nodup) (A B : List DProp) (keys : List Name) (hkl : keys.length = 3)
    (hp : e.props = A ++ blk .float64 none keys ++ B) (n : ℕ) (R0 : List (Fin 3 → D64)) (a b : ℕ → List (List (List Byte)))
    (hrows : e.rows = (List.range n).map (fun i => a i ++ cellsD R0 i ++ b i)) (ha : ∀ i, i < n → A.length = (a i).length)
    (R : List (Fin 3 → D64)) (hS : Scalars cn e keys R) : R.length = n ∧
    ∀ (i : ℕ) r r0, R[i]? = some r → R0[i]? = some r0 → ∀ j, List.ofFn (r j) = cn .float64 (List.ofFn (r0 j)) := by
  have hl : R.length = n := by rw [hS.1, hrows]; simp
  refine ⟨hl, ?_⟩
  intro i r r0 hr hr0 j
  have hi : i < n := by rw [← hl]; exact (List.getElem?_eq_some_iff.mp hr).1
  have hrow : e.rows[i]? = some (a i ++ cellsD R0 i ++ b i) := by rw [hrows, List.getElem?_map, List.getElem?_range hi]; rfl
  obtain ⟨key, t, v, h1, h2, h3⟩ := hS.2 i r _ hr hrow j
  have hcell : (cellsD R0 i)[j.val]? = some [List.ofFn (r0 j)] := by
    unfold cellsD
    rw [hr0]
    simp only [Option.elim_some, List.getElem?_map, List.getElem?_ofFn, j.isLt, dite_true, Option.map_some]
  have := field_blk e hn A B _ _ keys hp (a i) (cellsD R0 i) (b i) _ rfl (ha i hi) j.val key _ h1 hcell
  rw [h2] at this
  have ⟨e1, e2⟩ := Prod.mk.inj (Option.some.inj this)
  rw [h3, e1, List.singleton_inj.mp e2]

theorem scalars_C (e : DElem) (hn : (e.props.map DProp.name).Nodup) (A B : List DProp) (keys : List Name) (hkl : keys.length = 4)
    (hp : e.props = A ++ blk .uint8 none keys ++ B) (n : ℕ) (R0 : List (Fin 4 → Byte)) (hR0 : R0.length = n) (a b : ℕ → List (List (List Byte)))
    (hrows : e.rows = (List.range n).map (fun i => a i ++ cellsC R0 i ++ b i)) (ha : ∀ i, i < n → A.length = (a i).length)
    (hcn : ∀ x : Byte, cn .uint8 [x] = [x])
    (R : List (Fin 4 → Fin 1 → Byte)) (hS : Scalars cn e keys R) : R.map (fun x j => x j 0) = R0 := by
  have hl : R.length = n := by rw [hS.1, hrows]; simp
  apply List.ext_getElem?
  intro i
  by_cases hi : i < n
  · have hr : R[i]? = some R[i] := List.getElem?_eq_getElem (by omega)
    have hr0 : R0[i]? = some R0[i] := List.getElem?_eq_getElem (by omega)
    rw [List.getElem?_map, hr, hr0]
    simp only [Option.map_some, Option.some.injEq]
    funext j
    have hrow : e.rows[i]? = some (a i ++ cellsC R0 i ++ b i) := by rw [hrows, List.getElem?_map, List.getElem?_range hi]; rfl
    obtain ⟨key, t, v, h1, h2, h3⟩ := hS.2 i _ _ hr hrow j
    have hcell : (cellsC R0 i)[j.val]? = some [[R0[i] j]] := by
      unfold cellsC
      rw [hr0]
      simp only [Option.elim_some, List.getElem?_map, List.getElem?_ofFn, j.isLt, dite_true, Option.map_some]
    have := field_blk e hn A B _ _ keys hp (a i) (cellsC R0 i) (b i) _ rfl (ha i hi) j.val key _ h1 hcell
    rw [h2] at this
    have ⟨e1, e2⟩ := Prod.mk.inj (Option.some.inj this)
    rw [e1, List.singleton_inj.mp e2, hcn] at h3
    have h4 : List.ofFn (R[i] j) = [R[i] j 0] := by simp [List.ofFn_succ]
    rw [h4] at h3
    exact List.singleton_inj.mp h3
  · rw [List.getElem?_eq_none (by simp; omega), List.getElem?_eq_none (by omega)]

theorem triples_F (e : DElem) (hn : (e.props.map DProp.name).Nodup) (A B : List DProp) (key : Name)
    (hp : e.props = A ++ blk .uint32 (some .uint8) [key] ++ B) (n : ℕ) (R0 : List (Fin 3 → W32)) (hR0 : R0.length = n) (a b : ℕ → List (List (List Byte)))
    (hrows : e.rows = (List.range n).map (fun i => a i ++ cellsF R0 i ++ b i)) (ha : ∀ i, i < n → A.length = (a i).length)
    (hcn : ∀ x : W32, cn .uint32 (List.ofFn x) = List.ofFn x)
    (R : List (Fin 3 → W32)) (hS : Triples cn e key R) : R = R0 := by
  have hl : R.length = n := by rw [hS.1, hrows]; simp
  apply List.ext_getElem?
  intro i
  by_cases hi : i < n
  · have hr : R[i]? = some R[i] := List.getElem?_eq_getElem (by omega)
    have hr0 : R0[i]? = some R0[i] := List.getElem?_eq_getElem (by omega)
    rw [hr, hr0]
    have hrow : e.rows[i]? = some (a i ++ cellsF R0 i ++ b i) := by rw [hrows, List.getElem?_map, List.getElem?_range hi]; rfl
    obtain ⟨t, v0, v1, v2, h2, h30, h31, h32⟩ := hS.2 i _ _ hr hrow
    have hcell : (cellsF R0 i)[0]? = some [List.ofFn (R0[i] 0), List.ofFn (R0[i] 1), List.ofFn (R0[i] 2)] := by
      unfold cellsF
      rw [hr0]
      rfl
    have := field_blk e hn A B _ _ [key] hp (a i) (cellsF R0 i) (b i) _ rfl (ha i hi) 0 key _ rfl hcell
    rw [h2] at this
    have ⟨e1, e2⟩ := Prod.mk.inj (Option.some.inj this)
    simp only [List.cons.injEq, and_true] at e2
    rw [e1, e2.1, hcn] at h30
    rw [e1, e2.2.1, hcn] at h31
    rw [e1, e2.2.2, hcn] at h32
    congr 1
    funext j
    apply List.ofFn_injective
    fin_cases j
    · exact h30
    · exact h31
    · exact h32
  · rw [List.getElem?_eq_none (by omega), List.getElem?_eq_none (by omega)]

/-! ## the document is readable -/

/-- `InOrder` as a statement on the properties -/
def InOrderP (ps : List DProp) (keys : List Name) (t : Ty) : Prop :=
  (ps.map DProp.name).filter (fun n => decide (n ∈ keys)) = keys ∧ ∀ p ∈ ps, p.name ∈ keys → p.ty = t ∧ p.list = none

instance (ps : List DProp) (keys : List Name) (t : Ty) : Decidable (InOrderP ps keys t) := by unfold InOrderP; infer_instance

/-- all keys occur -/
def HasP (ps : List DProp) (keys : List Name) : Prop := ∀ k ∈ keys, ∃ p ∈ ps, p.name = k
instance (ps : List DProp) (keys : List Name) : Decidable (HasP ps keys) := by unfold HasP; infer_instance

theorem v_order : ∀ n c : Bool, InOrderP (vProps n c) rV.keys .float64 := by decide +kernel
theorem n_order : ∀ n c : Bool, HasP (vProps n c) rN.keys → InOrderP (vProps n c) rN.keys .float64 := by decide +kernel
theorem n_has : ∀ n c : Bool, HasP (vProps n c) rN.keys ↔ n = true := by decide +kernel
theorem c_has : ∀ n c : Bool, HasP (vProps n c) rC.keys ↔ c = true := by decide +kernel
theorem c'_has : ∀ n c : Bool, ¬ HasP (vProps n c) rC'.keys := by decide +kernel
theorem fc_has : ∀ c : Bool, HasP (fProps c) rFC.keys ↔ c = true := by decide +kernel
theorem fc'_has : ∀ c : Bool, ¬ HasP (fProps c) rFC'.keys := by decide +kernel
theorem f_has : ∀ c : Bool, HasP (fProps c) rF.keys := by decide +kernel
theorem f'_has : ∀ c : Bool, ¬ HasP (fProps c) rF'.keys := by decide +kernel
theorem c_order : ∀ n c : Bool, HasP (vProps n c) rC.keys → InOrderP (vProps n c) rC.keys .uint8 := by decide +kernel
theorem fc_order : ∀ c : Bool, HasP (fProps c) rFC.keys → InOrderP (fProps c) rFC.keys .uint8 := by decide +kernel
theorem v_nodup : ∀ n c : Bool, ((vProps n c).map DProp.name).Nodup := by decide +kernel
theorem f_nodup : ∀ c : Bool, ((fProps c).map DProp.name).Nodup := by decide +kernel
theorem v_hash : ∀ n c : Bool, ∀ p ∈ vProps n c, ∀ r ∈ allRequests, ∀ k ∈ r.keys, fnv1a ((c! "vertex") ++ p.name) = fnv1a (r.elem ++ k) → (c! "vertex") = r.elem ∧ p.name = k := by decide +kernel
theorem f_hash : ∀ c : Bool, ∀ p ∈ fProps c, ∀ r ∈ allRequests, ∀ k ∈ r.keys, fnv1a ((c! "face") ++ p.name) = fnv1a (r.elem ++ k) → (c! "face") = r.elem ∧ p.name = k := by decide +kernel
theorem v_scalar : ∀ n c : Bool, ∀ p ∈ vProps n c, p.list = none := by decide +kernel
theorem v_valid : ∀ n c : Bool, ∀ p ∈ vProps n c, p.ty ≠ .invalid ∧ p.list = none := by decide +kernel
theorem f_valid : ∀ c : Bool, ∀ p ∈ fProps c, p.ty ≠ .invalid ∧ (p.list = none ∨ p.list = some .uint8) := by decide +kernel
theorem f_list : ∀ c : Bool, ∀ p ∈ fProps c, p.name = (c! "vertex_indices") → (p.ty = .int32 ∨ p.ty = .uint32) ∧ p.list ≠ none := by decide +kernel

/-- the document of a mesh, with the tests as parameters -/
def wdoc (n c fc f : Bool) (M : Mesh) (cv cf : List (Fin 4 → Byte)) : Doc := if f then [vElem n c M cv, fElem fc M cf] else [vElem n c M cv]

theorem mem_wdoc {n c fc f : Bool} {M : Mesh} {cv cf : List (Fin 4 → Byte)} {e : DElem} (h : e ∈ wdoc n c fc f M cv cf) :
    e = vElem n c M cv ∨ (f = true ∧ e = fElem fc M cf) := by
  unfold wdoc at h
  cases f with
  | false => left; simpa using h
  | true =>
    simp only [if_true, List.mem_cons, List.not_mem_nil, or_false] at h
    rcases h with h | h
    · exact Or.inl h
    · exact Or.inr ⟨rfl, h⟩

theorem v_mem (n c fc f : Bool) (M : Mesh) (cv cf : List (Fin 4 → Byte)) : vElem n c M cv ∈ wdoc n c fc f M cv cf := by
  unfold wdoc; cases f <;> simp

theorem f_mem (n c fc : Bool) (M : Mesh) (cv cf : List (Fin 4 → Byte)) : fElem fc M cf ∈ wdoc n c fc true M cv cf := by
  unfold wdoc; simp

theorem vf : (c! "vertex" : Name) ≠ c! "face" := by decide

theorem wdoc_v {n c fc f : Bool} {M : Mesh} {cv cf : List (Fin 4 → Byte)} {e : DElem} (h : e ∈ wdoc n c fc f M cv cf) (he : e.name = c! "vertex") : e = vElem n c M cv := by
  rcases mem_wdoc h with h | ⟨_, h⟩
  · exact h
  · rw [h] at he; exact absurd he.symm vf

theorem wdoc_f {n c fc f : Bool} {M : Mesh} {cv cf : List (Fin 4 → Byte)} {e : DElem} (h : e ∈ wdoc n c fc f M cv cf) (he : e.name = c! "face") : f = true ∧ e = fElem fc M cf := by
  rcases mem_wdoc h with h | h
  · rw [h] at he; exact absurd he vf
  · exact h

theorem has_v (n c fc f : Bool) (M : Mesh) (cv cf : List (Fin 4 → Byte)) (r : Request) (hr : r.elem = c! "vertex") :
    Doc.has (wdoc n c fc f M cv cf) r ↔ HasP (vProps n c) r.keys := by
  constructor
  · rintro ⟨e, he, hn, h⟩
    rw [wdoc_v he (hn.trans hr)] at h
    exact h
  · intro h
    exact ⟨_, v_mem n c fc f M cv cf, hr.symm, h⟩

theorem has_f (n c fc f : Bool) (M : Mesh) (cv cf : List (Fin 4 → Byte)) (r : Request) (hr : r.elem = c! "face") :
    Doc.has (wdoc n c fc f M cv cf) r ↔ f = true ∧ HasP (fProps fc) r.keys := by
  constructor
  · rintro ⟨e, he, hn, h⟩
    obtain ⟨hf, he'⟩ := wdoc_f he (hn.trans hr)
    rw [he'] at h
    exact ⟨hf, h⟩
  · rintro ⟨rfl, h⟩
    exact ⟨_, f_mem n c fc M cv cf, hr.symm, h⟩

theorem cellOk_v {p : DProp} {x : List (List Byte)} (h : WCell p x) (hp : p.ty ≠ .invalid) (hl : p.list = none ∨ p.list = some .uint8) : CellOk p x := by
  refine ⟨hp, h.1, ?_⟩
  have h2 := h.2
  rcases hl with hl | hl
  · rw [hl] at h2 ⊢; simpa using h2
  · rw [hl] at h2 ⊢
    simp only [Option.isSome_some, if_true] at h2
    refine ⟨rfl, ?_⟩
    rw [h2]; decide

theorem f2_imp {ps : List DProp} {row : List (List (List Byte))} (h : List.Forall₂ WCell ps row) (hp : ∀ p ∈ ps, p.ty ≠ .invalid ∧ (p.list = none ∨ p.list = some .uint8)) :
    List.Forall₂ CellOk ps row := by
  induction h with
  | nil => exact .nil
  | cons a _ ih => exact .cons (cellOk_v a (hp _ (by simp)).1 (hp _ (by simp)).2) (ih (fun p h => hp p (by simp [h])))

theorem blkF (fc : Bool) : fProps fc = (if fc then blk .uint8 none kC else []) ++ blk .uint32 (some .uint8) [c! "vertex_indices"] ++ [] := by
  cases fc <;> rfl

theorem wdoc_readable (n c fc f : Bool) (M : Mesh) (cv cf : List (Fin 4 → Byte)) (hn0 : n = false → M.N = []) (hn1 : n = true → M.V.length ≤ M.N.length)
    (cv0 : c = false → cv = []) (cv1 : c = true → cv.length = M.V.length) (cf0 : fc = false → cf = []) (cf1 : fc = true → cf.length = M.F.length) :
    Doc.Readable (wdoc n c fc f M cv cf) .float64 := by
  refine ⟨?_, ⟨?_, ?_, ?_⟩, Or.inr rfl, ?_, ?_, ?_, ?_, ?_⟩
  · intro e he row hrow
    rcases mem_wdoc he with rfl | ⟨_, rfl⟩
    · exact f2_imp (wcells_v M n c cv hn0 hn1 cv0 cv1 row hrow) (fun p hp => ⟨(v_valid n c p hp).1, Or.inl (v_valid n c p hp).2⟩)
    · exact f2_imp (wcells_f M fc cf cf0 cf1 row hrow) (f_valid fc)
  · unfold wdoc
    cases f with
    | false => simp
    | true => simp [vElem, fElem, vf]
  · intro e he
    rcases mem_wdoc he with rfl | ⟨_, rfl⟩
    · exact v_nodup n c
    · exact f_nodup fc
  · intro e he
    rcases mem_wdoc he with rfl | ⟨_, rfl⟩
    · exact v_hash n c
    · exact f_hash fc
  · exact ⟨_, v_mem n c fc f M cv cf, rfl, v_order n c⟩
  · intro h e he hen
    rw [wdoc_v he hen]
    exact Or.inr ⟨n_order n c ((has_v n c fc f M cv cf rN rfl).mp h), rfl⟩
  · intro r hr h e he hen
    simp only [List.mem_cons, List.not_mem_nil, or_false] at hr
    rcases hr with rfl | rfl | rfl | rfl
    · rw [wdoc_v he hen]
      exact c_order n c ((has_v n c fc f M cv cf rC rfl).mp h)
    · exact absurd ((has_v n c fc f M cv cf rC' rfl).mp h) (c'_has n c)
    · rw [(wdoc_f he hen).2]
      exact fc_order fc ((has_f n c fc f M cv cf rFC rfl).mp h).2
    · exact absurd ((has_f n c fc f M cv cf rFC' rfl).mp h).2 (fc'_has fc)
  · intro r hr h e he hen k hk
    simp only [List.mem_cons, List.not_mem_nil, or_false] at hr
    rcases hr with rfl | rfl
    · rw [(wdoc_f he hen).2]
      have hk' : k = c! "vertex_indices" := by simpa [rF] using hk
      subst hk'
      refine ⟨f_list fc, ?_⟩
      intro row hrow
      obtain ⟨i, hi, rfl⟩ := List.mem_map.mp hrow
      have hi' := List.mem_range.mp hi
      have hcell : (cellsF M.F i)[0]? = some [List.ofFn (M.F[i] 0), List.ofFn (M.F[i] 1), List.ofFn (M.F[i] 2)] := by
        unfold cellsF
        rw [List.getElem?_eq_getElem hi']
        rfl
      refine ⟨.uint32, _, _, _, field_blk (fElem fc M cf) (f_nodup fc) _ [] _ _ _ (blkF fc) (cellsC cf i) (cellsF M.F i) [] _ (by simp) ?_ 0 _ _ rfl hcell⟩
      cases fc with
      | false => rw [cf0 rfl]; simp [cellsC]
      | true =>
        unfold cellsC
        rw [List.getElem?_eq_getElem (by rw [cf1 rfl]; exact hi')]
        rfl
    · exact absurd ((has_f n c fc f M cv cf rF' rfl).mp h).2 (f'_has fc)
  · intro h6 _ e he p hp
    rcases mem_wdoc he with rfl | ⟨hf, rfl⟩
    · exact v_scalar n c p hp
    · exact absurd ((has_f n c fc f M cv cf rF rfl).mpr ⟨hf, f_has fc⟩) h6

/-! ## the round trip -/

/-- `A` and `B` have the same rows up to `cn` -/
def SameUpTo (cn : Ty → List Byte → List Byte) (A B : List (Fin 3 → D64)) : Prop :=
  A.length = B.length ∧ ∀ (i : ℕ) a b, A[i]? = some a → B[i]? = some b → ∀ j, List.ofFn (a j) = cn .float64 (List.ofFn (b j))

theorem cellsC_len (R : List (Fin 4 → Byte)) (i : ℕ) (h : i < R.length) : (cellsC R i).length = 4 := by
  unfold cellsC; rw [List.getElem?_eq_getElem h]; rfl
theorem cellsD_len (R : List (Fin 3 → D64)) (i : ℕ) (h : i < R.length) : (cellsD R i).length = 3 := by
  unfold cellsD; rw [List.getElem?_eq_getElem h]; rfl

theorem wdoc_says (n c fc f : Bool) (M : Mesh) (cv cf : List (Fin 4 → Byte)) (hf : f = decide (0 < M.F.length)) (hn0 : n = false → M.N = []) (hn1 : n = true → M.V.length ≤ M.N.length)
    (cv1 : c = true → cv.length = M.V.length) (cf0 : fc = false → cf = []) (cf1 : fc = true → cf.length = M.F.length)
    (hfc : fc = true → f = true) (h8 : ∀ x : Byte, cn .uint8 [x] = [x]) (h32 : ∀ x : W32, cn .uint32 (List.ofFn x) = List.ofFn x)
    (widen : W32 → D64) (M' : Mesh) (hS : Says cn widen (wdoc n c fc f M cv cf) .float64 M') :
    SameUpTo cn M'.V M.V ∧ SameUpTo cn M'.N (M.N.take M.V.length) ∧ M'.F = M.F ∧ M'.C = if c then cv else if fc then cf else [] := by
  have hv := hS.v _ (v_mem n c fc f M cv cf) rfl
  have nd := v_nodup n c
  refine ⟨?_, ?_, ?_, ?_⟩
  · exact scalars_D (vElem n c M cv) nd [] ((if n then blk .float64 none kN else []) ++ (if c then blk .uint8 none kC else [])) kV rfl
      (by simp [vElem, vProps, List.append_assoc]) M.V.length M.V (fun _ => []) (fun i => cellsD M.N i ++ cellsC cv i)
      (by simp [vElem, List.append_assoc]) (fun _ _ => rfl) M'.V (hv.1 rfl)
  · cases hn : n with
    | false =>
      have h := hS.n0 (fun h => absurd ((n_has n c).mp ((has_v n c fc f M cv cf rN rfl).mp h)) (by rw [hn]; decide))
      rw [h, hn0 hn]
      exact ⟨by simp, by intro i a b ha; simp at ha⟩
    | true =>
      have hhas : Doc.has (wdoc n c fc f M cv cf) rN := (has_v n c fc f M cv cf rN rfl).mpr ((n_has n c).mpr hn)
      obtain ⟨t, ht, hN⟩ := hS.n hhas _ (v_mem n c fc f M cv cf) rfl
      have ht' : t = .float64 := by
        rw [← ht ⟨c! "nx", .float64, none⟩ (by simp [vElem, vProps, hn, blk, kN]) (by simp [rN])]
      have := scalars_D (vElem n c M cv) nd (blk .float64 none kV) (if c then blk .uint8 none kC else []) kN rfl
        (by simp [vElem, vProps, hn]) M.V.length M.N (fun i => cellsD M.V i) (fun i => cellsC cv i)
        (by simp [vElem]) (fun i hi => by rw [cellsD_len _ _ hi]; rfl) M'.N (hN.1 ht')
      refine ⟨by rw [this.1, List.length_take, Nat.min_eq_left (hn1 hn)], ?_⟩
      intro i a b ha hb
      rw [List.getElem?_take_of_lt (by rw [← this.1]; exact (List.getElem?_eq_some_iff.mp ha).1)] at hb
      exact this.2 i a b ha hb
  · cases hfb : f with
    | false =>
      have h := hS.f0 (by
        intro r hr h
        simp only [List.mem_cons, List.not_mem_nil, or_false] at hr
        rcases hr with rfl | rfl
        · exact absurd ((has_f n c fc f M cv cf rF' rfl).mp h).1 (by rw [hfb]; decide)
        · exact absurd ((has_f n c fc f M cv cf rF rfl).mp h).1 (by rw [hfb]; decide))
      rw [h]
      rw [hfb] at hf
      exact (List.eq_nil_of_length_eq_zero (by have := of_decide_eq_false hf.symm; omega)).symm
    | true =>
      have hfirst : Doc.First (wdoc n c fc f M cv cf) [rF', rF] rF := ⟨[rF'], [], rfl, (has_f n c fc f M cv cf rF rfl).mpr ⟨hfb, f_has fc⟩, by
        intro x hx h
        rw [List.mem_singleton.mp hx] at h
        exact f'_has fc ((has_f n c fc f M cv cf rF' rfl).mp h).2⟩
      have hm : fElem fc M cf ∈ wdoc n c fc f M cv cf := by rw [hfb]; exact f_mem n c fc M cv cf
      have hT := hS.f rF hfirst _ hm rfl (c! "vertex_indices") (by simp [rF])
      refine triples_F (fElem fc M cf) (f_nodup fc) _ [] _ (blkF fc) M.F.length M.F rfl (fun i => cellsC cf i) (fun _ => []) (by simp [fElem]) ?_ h32 M'.F hT
      intro i hi
      cases fc with
      | false => rw [cf0 rfl]; simp [cellsC]
      | true => rw [cellsC_len _ _ (by rw [cf1 rfl]; exact hi)]; rfl
  · have nC' : ¬ Doc.has (wdoc n c fc f M cv cf) rC' := fun h => c'_has n c ((has_v n c fc f M cv cf rC' rfl).mp h)
    have nFC' : ¬ Doc.has (wdoc n c fc f M cv cf) rFC' := fun h => fc'_has fc ((has_f n c fc f M cv cf rFC' rfl).mp h).2
    cases hc : c with
    | true =>
      have hfirst : Doc.First (wdoc n c fc f M cv cf) [rC', rC, rFC', rFC] rC := ⟨[rC'], [rFC', rFC], rfl,
        (has_v n c fc f M cv cf rC rfl).mpr ((c_has n c).mpr hc), by
        intro x hx h
        rw [List.mem_singleton.mp hx] at h
        exact nC' h⟩
      obtain ⟨R, hR, hCR⟩ := hS.c rC hfirst _ (v_mem n c fc f M cv cf) rfl
      rw [hCR, if_pos rfl]
      refine scalars_C (vElem n c M cv) nd (blk .float64 none kV ++ (if n then blk .float64 none kN else [])) [] kC rfl
        (by simp [vElem, vProps, hc]) M.V.length cv (cv1 hc) (fun i => cellsD M.V i ++ cellsD M.N i) (fun _ => [])
        (by simp [vElem]) (fun i hi => ?_) h8 R hR
      rw [List.length_append, List.length_append, cellsD_len _ _ hi]
      cases n with
      | false => rw [hn0 rfl]; simp [cellsD, blk, kV]
      | true => rw [cellsD_len _ _ (lt_of_lt_of_le hi (hn1 rfl))]; rfl
    | false =>
      have nC : ¬ Doc.has (wdoc n c fc f M cv cf) rC := fun h => absurd ((c_has n c).mp ((has_v n c fc f M cv cf rC rfl).mp h)) (by rw [hc]; decide)
      simp only [Bool.false_eq_true, if_false]
      cases hfc' : fc with
      | true =>
        have hfb := hfc hfc'
        have hfirst : Doc.First (wdoc n c fc f M cv cf) [rC', rC, rFC', rFC] rFC := ⟨[rC', rC, rFC'], [], rfl,
          (has_f n c fc f M cv cf rFC rfl).mpr ⟨hfb, (fc_has fc).mpr hfc'⟩, by
          intro x hx h
          simp only [List.mem_cons, List.not_mem_nil, or_false] at hx
          rcases hx with rfl | rfl | rfl
          · exact nC' h
          · exact nC h
          · exact nFC' h⟩
        have hm : fElem fc M cf ∈ wdoc n c fc f M cv cf := by rw [hfb]; exact f_mem n c fc M cv cf
        obtain ⟨R, hR, hCR⟩ := hS.c rFC hfirst _ hm rfl
        rw [hCR, if_pos rfl]
        exact scalars_C (fElem fc M cf) (f_nodup fc) [] (blk .uint32 (some .uint8) kF) kC rfl
          (by simp [fElem, fProps, hfc']) M.F.length cf (cf1 hfc') (fun i => []) (fun i => cellsF M.F i)
          (by simp [fElem]) (fun i hi => rfl) h8 R hR
      | false =>
        rw [hS.c0]
        · simp
        · intro r hr h
          simp only [List.mem_cons, List.not_mem_nil, or_false] at hr
          rcases hr with rfl | rfl | rfl | rfl
          · exact nC' h
          · exact nC h
          · exact nFC' h
          · exact absurd ((fc_has fc).mp ((has_f n c fc f M cv cf rFC rfl).mp h).2) (by rw [hfc']; decide)

/-- writing and reading back -/
theorem write_read (io : TextIO) (canon : Ty → List Byte → List Byte) (binary : Bool)
    (L : Lawful (putOf io (if binary then .little else .ascii)) (codecOf io (if binary then .little else .ascii)) (canonOf canon (if binary then .little else .ascii)) (padOf (if binary then .little else .ascii)))
    (h8 : ∀ x : Byte, canonOf canon (if binary then .little else .ascii) .uint8 [x] = [x])
    (h32 : ∀ x : W32, canonOf canon (if binary then .little else .ascii) .uint32 (List.ofFn x) = List.ofFn x)
    (widen : W32 → D64) (M : Mesh) (hN : M.N = [] ∨ M.V.length ≤ M.N.length)
    (hC : M.C.length = 0 ∨ M.C.length = M.V.length ∨ M.C.length = M.F.length) :
    ∃ F M', writePly io binary M = some F ∧ readPly io widen F = some M' ∧
      SameUpTo (canonOf canon (if binary then .little else .ascii)) M'.V M.V ∧
      SameUpTo (canonOf canon (if binary then .little else .ascii)) M'.N (M.N.take M.V.length) ∧ M'.F = M.F ∧ M'.C = scrambled M.C := by
  set fmt : Fmt := if binary then .little else .ascii with hfmt
  set n := decide (0 < M.N.length) with hn
  set c := decide (0 < M.C.length ∧ M.C.length = M.V.length) with hc
  set fc := decide (0 < M.C.length ∧ M.C.length = M.F.length) with hfc
  set f := decide (0 < M.F.length) with hf
  have hn0 : n = false → M.N = [] := by
    intro h
    rw [hn] at h
    exact List.eq_nil_of_length_eq_zero (by have := of_decide_eq_false h; omega)
  have hn1 : n = true → M.V.length ≤ M.N.length := by
    intro h
    rcases hN with h' | h'
    · rw [hn, h'] at h; exact absurd h (by simp)
    · exact h'
  have hc1 : c = true → M.C.length = M.V.length := fun h => (of_decide_eq_true (hc ▸ h)).2
  have hfc1 : fc = true → M.C.length = M.F.length ∧ f = true := by
    intro h
    have := of_decide_eq_true (hfc ▸ h)
    exact ⟨this.2, by rw [hf]; simp only [decide_eq_true_eq]; omega⟩
  have hcv : (if c = true then scrambled M.C else []) = colV M := cv_pos M
  have hcf : (if fc = true then scrambled M.C else []) = colF M := cf_pos M
  have hdoc : meshDoc M (colV M) (colF M) = wdoc n c fc f M (colV M) (colF M) := by
    rw [meshDoc_eq, colV_pos, colF_pos]; rfl
  have cv0 : c = false → colV M = [] := by intro h; rw [← hcv, h]; rfl
  have cv1 : c = true → (colV M).length = M.V.length := by intro h; rw [← hcv, if_pos h, scrambled_length]; exact hc1 h
  have cf0 : fc = false → colF M = [] := by intro h; rw [← hcf, h]; rfl
  have cf1 : fc = true → (colF M).length = M.F.length := by intro h; rw [← hcf, if_pos h, scrambled_length]; exact (hfc1 h).1
  obtain ⟨M', hr, hS⟩ := read_doc io canon fmt L widen [plyComment] _ _ (wdoc_readable n c fc f M (colV M) (colF M) hn0 hn1 cv0 cv1 cf0 cf1)
  rw [← hdoc] at hr
  obtain ⟨r1, r2, r3, r4⟩ := wdoc_says n c fc f M (colV M) (colF M) hf hn0 hn1 cv1 cf0 cf1 (fun h => (hfc1 h).2) h8 h32 widen M' hS
  refine ⟨_, M', write_doc io binary M hN hC, hr, r1, r2, r3, ?_⟩
  rw [r4, ← hcv, ← hcf]
  by_cases h1 : c = true
  · rw [if_pos h1, if_pos h1]
  · by_cases h2 : fc = true
    · rw [if_neg h1, if_pos h2, if_pos h2]
    · rw [if_neg h1, if_neg h2]
      have : M.C.length = 0 := by
        by_contra h0
        rcases hC with h | h | h
        · exact h0 h
        · exact h1 (hc ▸ decide_eq_true ⟨by omega, h⟩)
        · exact h2 (hfc ▸ decide_eq_true ⟨by omega, h⟩)
      rw [List.eq_nil_of_length_eq_zero this]
      rfl

end Gpy.Ply
