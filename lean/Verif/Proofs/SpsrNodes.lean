import Verif.Proofs.SpsrKernel
import Verif.Proofs.GridNeighbors2

/-! The covariances of the nodes in `stochastic_poisson_surface_reconstruction`. -/

set_option autoImplicit false
namespace Gpy.Spsr
open Np Finset

theorem list_range_sum (n : ℕ) (f : ℕ → ℝ) : ((List.range n).map f).sum = ∑ k ∈ range n, f k := by
  induction n with
  | zero => simp
  | succ n ih => rw [List.range_succ, List.map_append, List.sum_append, ih, Finset.sum_range_succ]; simp

/-- an entry of the matrix: the sum over the rows of neighbours -/
theorem k1_get {d : ℕ} {gs : Fin d → ℕ} {h corner : Pt d} {rows : List (ℕ → ℤ)} {c : ℕ} (hr : gridNeighbors (List.ofFn gs) 2 true true true = some rows)
    (hc : (List.range (size gs)).find? (fun c => rows.all (fun f => decide (0 ≤ f c))) = some c) (hlt : ∀ f ∈ rows, ∀ i, i < size gs → f i < size gs) (h0 : 0 < size gs) :
    ∃ K, k1 gs h corner = some K ∧ K.WF ∧ K.nrows = size gs ∧ K.ncols = size gs ∧ ∀ i j : ℕ, i < size gs →
      K.get i j = (rows.map (fun f => if f i = (j : ℤ) then kern h (node gs h corner c) (node gs h corner (f c).toNat) else 0)).sum := by
  unfold k1
  simp only [hr, hc, Option.bind_eq_bind, Option.bind_some]
  generalize hv : (fun f : ℕ → ℤ => kern h (node gs h corner c) (node gs h corner (f c).toNat)) = value
  have hv' : ∀ f : ℕ → ℤ, kern h (node gs h corner c) (node gs h corner (f c).toNat) = value f := fun f => by rw [← hv]
  simp only [hv']
  generalize hE : rows.flatMap (fun f => (List.range (size gs)).map (fun i => if f i < 0 then (i, 0, 0) else (i, (f i).toNat, value f))) = E
  have hmem : ∀ t ∈ E, t.1 < size gs ∧ t.2.1 < size gs := by
    intro t ht
    rw [← hE, List.mem_flatMap] at ht
    obtain ⟨f, hf, ht⟩ := ht
    obtain ⟨i, hi, rfl⟩ := List.mem_map.mp ht
    have hi' := List.mem_range.mp hi
    have := hlt f hf i hi'
    split_ifs with hneg
    · exact ⟨hi', h0⟩
    · exact ⟨hi', by simp only; omega⟩
  have hcsr : csrMatrix (E.map (fun t => t.2.2)) (E.map (fun t => t.1)) (E.map (fun t => t.2.1)) (size gs) (size gs) = some ⟨size gs, size gs, E⟩ := by
    unfold csrMatrix
    rw [if_pos, zip3_map]
    · simp
    · refine ⟨by simp, by simp, ?_, ?_⟩
      · intro i hi
        obtain ⟨t, ht, rfl⟩ := List.mem_map.mp hi
        exact (hmem t ht).1
      · intro i hi
        obtain ⟨t, ht, rfl⟩ := List.mem_map.mp hi
        exact (hmem t ht).2
  refine ⟨_, hcsr, (csrMatrix_wf hcsr).1, rfl, rfl, ?_⟩
  intro i j hi
  unfold Csr.get
  simp only
  rw [← hE]
  clear hE hmem hcsr E
  clear hr hc
  induction rows with
  | nil => simp
  | cons f t ih =>
    rw [List.flatMap_cons, List.map_append, List.sum_append, List.map_cons, List.sum_cons, ih (fun g hg => hlt g (List.mem_cons_of_mem _ hg))]
    congr 1
    rw [List.map_map]
    have e : ((fun t : ℕ × ℕ × ℝ => if t.1 = i ∧ t.2.1 = j then t.2.2 else 0) ∘ fun i => if f i < 0 then (i, 0, 0) else (i, (f i).toNat, value f)) =
        fun k => if k = i then (if f i = (j : ℤ) then value f else 0) else 0 := by
      funext k
      simp only [Function.comp_apply]
      by_cases hk : k = i
      · subst hk
        by_cases hneg : f k < 0
        · rw [if_pos hneg, if_pos rfl, if_neg (show ¬ f k = (j : ℤ) by omega)]
          simp
        · rw [if_neg hneg, if_pos rfl]
          simp only [true_and]
          by_cases hj : f k = (j : ℤ)
          · rw [if_pos hj, if_pos (by omega)]
          · rw [if_neg hj, if_neg (by omega)]
      · rw [if_neg hk, if_neg]
        split_ifs <;> simp [hk]
    rw [e, list_range_sum, Finset.sum_ite_eq' (Finset.range (size gs)) i]
    rw [if_pos (Finset.mem_range.mpr hi)]

/-! ## The rows that are kept -/

/-- `np.unique(.,return_index=True)` keeps one path for every displacement, the first one -/
theorem sel_paths {gs : List ℕ} (hg5 : ∀ g ∈ gs, 5 ≤ g) (P : List GPath) (hP : ∀ p ∈ P, p.WF gs) :
    ∃ Q : List GPath, (npUniqueIndex ((P.map (GPath.row gs)).map (fun r => r.nb 0))).filterMap (fun k => (P.map (GPath.row gs))[k]?) = Q.map (GPath.row gs) ∧
      (Q.map GPath.disp).Nodup ∧
      (∀ q ∈ Q, ∃ n : ℕ, P[n]? = some q ∧ ∀ (m : ℕ) (p : GPath), m < n → P[m]? = some p → p.disp ≠ q.disp) ∧ ∀ p ∈ P, ∃ q ∈ Q, q.disp = p.disp := by
  have hg0 : ∀ g ∈ gs, 0 < g := fun g hg => by have := hg5 g hg; omega
  have hnb : ∀ q ∈ P, (q.row gs).nb 0 = ravelWrapF gs q.disp := by
    intro q hq
    rw [row_nb gs hg0 q (hP q hq), unrZ_zero gs _ (disp_small gs q (hP q hq)).1]
  have hinj : ∀ p ∈ P, ∀ q ∈ P, (p.row gs).nb 0 = (q.row gs).nb 0 → p.disp = q.disp := by
    intro p hp q hq he
    rw [hnb p hp, hnb q hq] at he
    exact ravel_inj (B := 2) gs (fun g hg => by have := hg5 g hg; omega) _ _ (disp_small gs p (hP p hp)).1 (disp_small gs q (hP q hq)).1
      (disp_small gs p (hP p hp)).2 (disp_small gs q (hP q hq)).2 he
  set l := (P.map (GPath.row gs)).map (fun r => r.nb 0) with hl
  have hlget : ∀ n : ℕ, l[n]? = P[n]?.map (fun p => (p.row gs).nb 0) := by
    intro n
    rw [hl, List.getElem?_map, List.getElem?_map, Option.map_map]
    rfl
  have hval : ∀ v ∈ npUnique l, ∃ q, P[l.idxOf v]? = some q ∧ (q.row gs).nb 0 = v := by
    intro v hv
    have hvl : v ∈ l := by
      unfold npUnique at hv
      rw [List.mem_insertionSort, List.mem_dedup] at hv
      exact hv
    have := List.getElem?_idxOf hvl
    rw [hlget] at this
    cases hq : P[l.idxOf v]? with
    | none => rw [hq] at this; simp at this
    | some q => rw [hq] at this; exact ⟨q, rfl, by simpa using this⟩
  have hnd : (npUnique l).Nodup := by
    unfold npUnique
    exact ((List.perm_insertionSort _ _).nodup_iff).mpr (List.nodup_dedup l)
  choose! sel hsel1 hsel2 using hval
  refine ⟨(npUnique l).map sel, ?_, ?_, ?_, ?_⟩
  · unfold npUniqueIndex
    rw [List.filterMap_map, List.map_map]
    rw [show List.map (GPath.row gs ∘ sel) (npUnique l) = List.filterMap (some ∘ (GPath.row gs ∘ sel)) (npUnique l) from by rw [List.filterMap_eq_map]]
    refine List.filterMap_congr (fun v hv => ?_)
    simp only [Function.comp_apply, List.getElem?_map, hsel1 v hv, Option.map_some]
  · rw [List.map_map]
    refine List.Nodup.map_on ?_ hnd
    intro v hv w hw he
    simp only [Function.comp_apply] at he
    have h1 := hsel2 v hv
    have h2 := hsel2 w hw
    rw [hnb _ (List.mem_of_getElem? (hsel1 v hv))] at h1
    rw [hnb _ (List.mem_of_getElem? (hsel1 w hw))] at h2
    rw [← h1, ← h2, he]
  · intro q hq
    obtain ⟨v, hv, rfl⟩ := List.mem_map.mp hq
    refine ⟨l.idxOf v, hsel1 v hv, ?_⟩
    intro m p hm hp hd
    refine lt_idxOf_ne hm ((p.row gs).nb 0) (by rw [hlget, hp]; rfl) ?_
    rw [hnb p (List.mem_of_getElem? hp), hd, ← hnb _ (List.mem_of_getElem? (hsel1 v hv)), hsel2 v hv]
  · intro p hp
    have hpl : (p.row gs).nb 0 ∈ npUnique l := by
      unfold npUnique
      rw [List.mem_insertionSort, List.mem_dedup, hl, List.map_map]
      exact List.mem_map.mpr ⟨p, hp, rfl⟩
    exact ⟨_, List.mem_map.mpr ⟨_, hpl, rfl⟩, hinj _ (List.mem_of_getElem? (hsel1 _ hpl)) p hp (hsel2 _ hpl)⟩

/-- in two dimensions (with diagonals and the cell itself) the paths that are kept never go back -/
theorem sel_mono2 (q : GPath) (n : ℕ) (hq : (gpaths (gnOffs2 true true))[n]? = some q)
    (hf : ∀ (m : ℕ) (p : GPath), m < n → (gpaths (gnOffs2 true true))[m]? = some p → p.disp ≠ q.disp) : q.mono = true := by
  rcases firstOk_get _ [] (firstOk2 true true) n q hq hf (by simp) with h | h
  · exact h
  · cases n with
    | zero =>
      have : (gpaths (gnOffs2 true true))[0]? = some ([0, 0], none) := by decide
      rw [this, Option.some.injEq] at hq
      rw [← hq]; rfl
    | succ n =>
      exfalso
      refine hf 0 ([0, 0], none) (by omega) (by decide) ?_
      have hl : q.disp.length = 2 := (disp_small [5, 5] q (gpaths_wf (gs := [5, 5]) (offs2_small true true) q (List.mem_of_getElem? hq))).1
      show [0, 0] = q.disp
      match hd : q.disp, hl with
      | [a, b], _ =>
        rw [hd] at h
        rw [h a (by simp), h b (by simp)]

/-- every displacement of at most two cells in each direction is that of a path -/
theorem disp_all2 (a b : ℤ) (ha : |a| ≤ 2) (hb : |b| ≤ 2) : ∃ p ∈ gpaths (gnOffs2 true true), GPath.disp p = [a, b] := by
  have ha' := abs_le.mp ha
  have hb' := abs_le.mp hb
  have : ∀ a ∈ Finset.Icc (-2 : ℤ) 2, ∀ b ∈ Finset.Icc (-2 : ℤ) 2, ∃ p ∈ gpaths (gnOffs2 true true), GPath.disp p = [a, b] := by decide +kernel
  exact this a (Finset.mem_Icc.mpr ha') b (Finset.mem_Icc.mpr hb')

/-- the kernel only depends on the difference -/
theorem kern_sub {d : ℕ} (h : Pt d) {x y x' y' : Pt d} (he : ∀ k, x k - y k = x' k - y' k) : kern h x y = kern h x' y' := by
  unfold kern
  congr 2
  funext k
  exact he k

theorem cnB3_two {x : ℝ} (hx : 2 ≤ |x|) : cnB 3 x = 0 := by
  rcases eq_or_lt_of_le hx with h | h
  · unfold cnB cnFactor
    rw [← h]
    norm_num [cond01]
  · exact cnB_support (by norm_num) (by norm_num) (by push_cast; linarith)

theorem kern_zero_le {d : ℕ} {h : Pt d} (hh : ∀ k, 0 < h k) {x y : Pt d} (k : Fin d) (hk : 3 * minH h ≤ |x k - y k|) : kern h x y = 0 := by
  have hm := minH_pos (Nat.lt_of_le_of_lt (Nat.zero_le _) k.isLt) hh
  unfold kern
  rw [compactNormal_eq (by norm_num) (by norm_num), Option.getD_some]
  rw [Finset.prod_eq_zero (Finset.mem_univ k), zero_div, zero_div]
  rw [cnFac_none]
  apply cnB3_two
  simp only [Option.getD_none, Pi.zero_apply, sub_zero]
  rw [abs_div, abs_of_pos (show 0 < 1.5 * minH h by positivity), le_div_iff₀ (by positivity)]
  linarith

/-- the coordinates of a node -/
theorem node_coord {d : ℕ} (gs : Fin d → ℕ) (h corner : Pt d) (n : ℕ) (k : Fin d) : node gs h corner n k = corner k + ((unrZ (List.ofFn gs) n).getD k.val 0 : ℤ) * h k := by
  unfold node
  congr 2
  unfold unrZ
  have hk : k.val < (unravelF (List.ofFn gs) n).length := by rw [unravel_length, List.length_ofFn]; exact k.isLt
  rw [List.getD_eq_getElem _ _ hk, List.getD_eq_getElem _ _ (by simpa using hk), List.getElem_map]
  simp

theorem zipWith_getD {u o : List ℤ} (hl : u.length = o.length) (k : ℕ) : (List.zipWith (· + ·) u o).getD k 0 = u.getD k 0 + o.getD k 0 := by
  by_cases hk : k < u.length
  · rw [List.getD_eq_getElem _ _ (by simp; omega), List.getD_eq_getElem _ _ hk, List.getD_eq_getElem _ _ (by omega), List.getElem_zipWith]
  · rw [List.getD_eq_default _ _ (by simp; omega), List.getD_eq_default _ _ (by omega), List.getD_eq_default _ _ (by omega), add_zero]

/-- the difference of two nodes whose displacement is known -/
theorem node_diff {d : ℕ} {gs : Fin d → ℕ} {h corner : Pt d} {o : List ℤ} {c e : ℕ} (hl : o.length = d) (he : unrZ (List.ofFn gs) e = List.zipWith (· + ·) (unrZ (List.ofFn gs) c) o) (k : Fin d) :
    node gs h corner c k - node gs h corner e k = -((o.getD k.val 0 : ℤ) * h k) := by
  rw [node_coord, node_coord, he, zipWith_getD (by rw [unrZ_length, List.length_ofFn, hl])]
  push_cast
  ring

theorem nodup_map_sum {α β : Type} [DecidableEq β] (l : List α) (f : α → β) (b : β) (v : ℝ) (g : α → ℝ) (hn : (l.map f).Nodup) (h1 : ∀ a ∈ l, f a ≠ b → g a = 0) (h2 : ∀ a ∈ l, f a = b → g a = v)
    (h3 : b ∉ l.map f → v = 0) : (l.map g).sum = v := by
  induction l with
  | nil => simp at h3; simp [h3]
  | cons a t ih =>
    rw [List.map_cons, List.nodup_cons] at hn
    rw [List.map_cons, List.sum_cons]
    by_cases hab : f a = b
    · have : (t.map g).sum = 0 := by
        apply List.sum_eq_zero
        intro x hx
        obtain ⟨a', ha', rfl⟩ := List.mem_map.mp hx
        refine h1 a' (List.mem_cons_of_mem _ ha') ?_
        intro he
        exact hn.1 (by rw [hab, ← he]; exact List.mem_map_of_mem ha')
      rw [h2 a (List.mem_cons_self) hab, this, add_zero]
    · rw [h1 a (List.mem_cons_self) hab, zero_add]
      refine ih hn.2 (fun a' h' => h1 a' (List.mem_cons_of_mem _ h')) (fun a' h' => h2 a' (List.mem_cons_of_mem _ h')) ?_
      intro hb
      refine h3 ?_
      rw [List.map_cons, List.mem_cons, not_or]
      exact ⟨fun h => hab h.symm, hb⟩

/-- The covariances of the nodes in two dimensions -/
theorem k1_exact2 {gs : Fin 2 → ℕ} {h corner : Pt 2} (hh : ∀ k, 0 < h k) (hg : ∀ k, 5 ≤ gs k) :
    ∃ K, k1 gs h corner = some K ∧ K.WF ∧ K.nrows = size gs ∧ K.ncols = size gs ∧ ∀ i j : ℕ, i < size gs → j < size gs → K.get i j = kern h (node gs h corner i) (node gs h corner j) := by
  generalize hL : List.ofFn gs = L
  have hLl : L.length = 2 := by rw [← hL]; simp
  have hL5 : ∀ g ∈ L, 5 ≤ g := by
    intro g hg'
    rw [← hL] at hg'
    obtain ⟨k, rfl⟩ := List.mem_ofFn.mp hg'
    exact hg k
  have hL0 : ∀ g ∈ L, 0 < g := fun g hg' => by have := hL5 g hg'; omega
  have hsize : size gs = L.prod := by unfold size; rw [hL]
  have hwf : ∀ p ∈ gpaths (gnOffs2 true true), p.WF L := gpaths_wf (by rw [hLl]; exact offs2_small true true)
  obtain ⟨Q, q1, q2, q3, q4⟩ := sel_paths hL5 (gpaths (gnOffs2 true true)) hwf
  have hQwf : ∀ q ∈ Q, q.WF L := fun q hq => by obtain ⟨n, hn, -⟩ := q3 q hq; exact hwf q (List.mem_of_getElem? hn)
  have hQm : ∀ q ∈ Q, q.mono = true := fun q hq => by obtain ⟨n, hn, hf⟩ := q3 q hq; exact sel_mono2 q n hn hf
  have hQl : ∀ q ∈ Q, q.disp.length = 2 := fun q hq => by rw [(disp_small L q (hQwf q hq)).1, hLl]
  have hrows : gridNeighbors (List.ofFn gs) 2 true true true = some (Q.map (fun q (c : ℕ) => if (q.row L).oob c then -1 else ((q.row L).nb c : ℤ))) := by
    rw [hL, gridNeighbors_eq (Or.inl hLl)]
    simp only [if_true, show 2 - 1 = 1 from rfl, gnLoop, gnStep_paths]
    unfold gnOffs
    rw [if_pos hLl, q1, List.map_map]
    rfl
  -- a row that is in the grid
  have hval : ∀ q ∈ Q, ∀ i e : ℕ, (if (q.row L).oob i then (-1 : ℤ) else ((q.row L).nb i : ℤ)) = (e : ℤ) → e < L.prod ∧ unrZ L e = List.zipWith (· + ·) (unrZ L i) q.disp := by
    intro q hq i e he
    by_cases ho : (q.row L).oob i = true
    · rw [if_pos ho] at he; omega
    · rw [if_neg ho] at he
      exact row_unr (hQwf q hq) (by simpa using ho) (by omega)
  -- some cell has all its neighbours
  have hfind : ∃ c, (List.range (size gs)).find? (fun c => (Q.map (fun q (c : ℕ) => if (q.row L).oob c then (-1 : ℤ) else ((q.row L).nb c : ℤ))).all (fun f => decide (0 ≤ f c))) = some c := by
    rw [← Option.isSome_iff_exists, List.find?_isSome]
    obtain ⟨a, b, hab⟩ := List.length_eq_two.mp hLl
    subst hab
    have ha := hL5 a (by simp)
    have hb := hL5 b (by simp)
    obtain ⟨r1, r2⟩ := ravel_ok [a, b] [2, 2] rfl (by simp [gnOut]; omega)
    refine ⟨ravelWrapF [a, b] [2, 2], List.mem_range.mpr (by rw [hsize]; exact r1), ?_⟩
    rw [List.all_eq_true]
    intro f hf
    obtain ⟨q, hq, rfl⟩ := List.mem_map.mp hf
    have hsm := (disp_small [a, b] q (hQwf q hq)).2
    have hl := hQl q hq
    match hd : q.disp, hl with
    | [x, y], _ =>
      rw [hd] at hsm
      have hx := abs_le.mp (hsm x (by simp))
      have hy := abs_le.mp (hsm y (by simp))
      obtain ⟨s1, s2⟩ := ravel_ok [a, b] [2 + x, 2 + y] rfl (by simp [gnOut]; omega)
      obtain ⟨m1, m2⟩ := mono_row [a, b] hL0 q (hQwf q hq) (hQm q hq) r1 s1 (by rw [s2, r2, hd]; rfl)
      simp only [m1]
      simp
  obtain ⟨c, hc⟩ := hfind
  have hlt : ∀ f ∈ Q.map (fun q (c : ℕ) => if (q.row L).oob c then (-1 : ℤ) else ((q.row L).nb c : ℤ)), ∀ i : ℕ, i < size gs → f i < ((size gs : ℕ) : ℤ) := by
    intro f hf i hi
    obtain ⟨q, hq, rfl⟩ := List.mem_map.mp hf
    by_cases ho : (q.row L).oob i = true
    · simp only [ho, if_true]; omega
    · have := hval q hq i _ (if_neg ho)
      simp only [if_neg ho]
      rw [hsize]
      exact_mod_cast this.1
  have h0 : 0 < size gs := by
    rw [hsize]
    exact List.prod_pos hL0
  obtain ⟨K, k1', k2', k3', k4', k5'⟩ := k1_get (h := h) (corner := corner) hrows hc hlt h0
  refine ⟨K, k1', k2', k3', k4', ?_⟩
  intro i j hi hj
  rw [k5' i j hi, List.map_map]
  have hi' : i < L.prod := by rw [← hsize]; exact hi
  have hj' : j < L.prod := by rw [← hsize]; exact hj
  have hcv := List.find?_some hc
  rw [List.all_eq_true] at hcv
  -- the displacement from `i` to `j`
  have hdisp : ∃ o : List ℤ, o.length = 2 ∧ unrZ L j = List.zipWith (· + ·) (unrZ L i) o := by
    have l1 := unrZ_length L i
    have l2 := unrZ_length L j
    rw [hLl] at l1 l2
    match hu : unrZ L i, l1 with
    | [a, b], _ =>
      match hv : unrZ L j, l2 with
      | [a', b'], _ => exact ⟨[a' - a, b' - b], rfl, by simp⟩
  obtain ⟨o, ol, oj⟩ := hdisp
  refine nodup_map_sum Q GPath.disp o _ _ q2 ?_ ?_ ?_
  · intro q hq hne
    simp only [Function.comp_apply]
    rw [if_neg]
    intro he
    obtain ⟨-, e2⟩ := hval q hq i j he
    rw [oj] at e2
    refine hne ?_
    exact (zipWith_add_inj (by rw [ol, unrZ_length, hLl]) (by rw [hQl q hq, unrZ_length, hLl]) e2).symm
  · intro q hq he
    simp only [Function.comp_apply]
    obtain ⟨m1, m2⟩ := mono_row L hL0 q (hQwf q hq) (hQm q hq) hi' hj' (by rw [he]; exact oj)
    rw [m1, m2]
    simp only [Bool.false_eq_true, if_false, if_true]
    have hcq := hcv _ (List.mem_map_of_mem hq)
    simp only [decide_eq_true_eq] at hcq
    generalize hz : (if (q.row L).oob c = true then (-1 : ℤ) else ((q.row L).nb c : ℤ)) = z at *
    obtain ⟨e, rfl⟩ := Int.eq_ofNat_of_zero_le hcq
    obtain ⟨-, e2⟩ := hval q hq c e hz
    rw [Int.toNat_natCast]
    rw [he] at e2
    refine kern_sub h (fun k => ?_)
    rw [node_diff ol (by rw [hL]; exact e2) k, node_diff ol (by rw [hL]; exact oj) k]
  · intro hno
    have hbig : ∃ k : Fin 2, 2 < |o.getD k.val 0| := by
      by_contra hc'
      push Not at hc'
      match ho : o, ol with
      | [a, b], _ =>
        obtain ⟨p, hp, hpd⟩ := disp_all2 a b (by simpa using hc' 0) (by simpa using hc' 1)
        obtain ⟨q, hq, hqd⟩ := q4 p hp
        exact hno (List.mem_map.mpr ⟨q, hq, by rw [hqd, hpd]⟩)
    obtain ⟨k, hk⟩ := hbig
    refine kern_zero_le hh k ?_
    rw [node_diff ol (by rw [hL]; exact oj) k, abs_neg, abs_mul, abs_of_pos (hh k)]
    have h3 : (3 : ℝ) ≤ |((o.getD k.val 0 : ℤ) : ℝ)| := by
      rw [← Int.cast_abs]
      exact_mod_cast hk
    have := minH_le h k
    have := hh k
    nlinarith [minH_pos (by norm_num) hh]

end Gpy.Spsr
