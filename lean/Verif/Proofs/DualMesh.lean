import Verif.Proofs.DualInv
import Mathlib.Data.List.ProdSigma
import Mathlib.Data.List.Nodup
import Mathlib.Data.List.Perm.Basic

/-! The mesh that is extracted from cells with the invariant is a dual mesh. -/

set_option autoImplicit false
namespace Gpy.Dual

/-- the number of the vertex of the cell at place `n` -/
def rank (cells : List Cell) (n : ℕ) : ℕ := (cells.take n).countP (fun c => c.has)

theorem collect_spec (cells : List Cell) : (collect cells).1 = (cells.filter (fun c => c.has)).map (fun c => c.vertex) ∧ (collect cells).2.length = cells.length ∧
    ∀ (n : ℕ) (x : Cell), cells[n]? = some x → (collect cells).2[n]? = some (if x.has then some (rank cells n) else none) := by
  induction cells using List.reverseRecOn with
  | nil => exact ⟨rfl, rfl, fun n x h => by simp at h⟩
  | append_singleton l a ih =>
    obtain ⟨h1, h2, h3⟩ := ih
    have e : collect (l ++ [a]) = if a.has then ((collect l).1 ++ [a.vertex], (collect l).2 ++ [some (collect l).1.length]) else ((collect l).1, (collect l).2 ++ [none]) := by
      unfold collect; rw [List.foldl_append]; rfl
    have hrank : ∀ n ≤ l.length, rank (l ++ [a]) n = rank l n := by
      intro n hn; unfold rank; rw [List.take_append_of_le_length hn]
    have hlast : rank (l ++ [a]) l.length = (collect l).1.length := by
      rw [hrank _ le_rfl, h1]; unfold rank; rw [List.take_length, List.length_map, List.countP_eq_length_filter]
    rw [e]
    by_cases ha : a.has = true
    · rw [if_pos ha]
      refine ⟨by simp [h1, ha, List.filter_append], by simp [h2], fun n x hx => ?_⟩
      simp only
      by_cases hn : n < l.length
      · rw [List.getElem?_append_left hn] at hx
        rw [List.getElem?_append_left (by omega), h3 n x hx, hrank n (by omega)]
      · have : n = l.length := by
          have := (List.getElem?_eq_some_iff.mp hx).1
          simp at this; omega
        subst this
        rw [List.getElem?_append_right (le_refl _)] at hx
        simp at hx
        rw [List.getElem?_append_right (by omega), h2, hlast, ← hx, if_pos ha]
        simp
    · rw [if_neg ha]
      refine ⟨by simp [h1, ha, List.filter_append], by simp [h2], fun n x hx => ?_⟩
      simp only
      by_cases hn : n < l.length
      · rw [List.getElem?_append_left hn] at hx
        rw [List.getElem?_append_left (by omega), h3 n x hx, hrank n (by omega)]
      · have : n = l.length := by
          have := (List.getElem?_eq_some_iff.mp hx).1
          simp at this; omega
        subst this
        rw [List.getElem?_append_right (le_refl _)] at hx
        simp at hx
        rw [List.getElem?_append_right (by omega), h2, ← hx, if_neg ha]
        simp

theorem rank_succ (cells : List Cell) (n : ℕ) (x : Cell) (hx : cells[n]? = some x) : rank cells (n + 1) = rank cells n + (if x.has then 1 else 0) := by
  unfold rank
  rw [List.take_add_one, hx, List.countP_append]
  simp

theorem rank_mono (cells : List Cell) : Monotone (rank cells) := by
  intro n m h
  unfold rank
  exact List.Sublist.countP_le (List.take_sublist_take_left h)

theorem rank_lt (cells : List Cell) (n m : ℕ) (x : Cell) (hx : cells[n]? = some x) (h : x.has = true) (hnm : n < m) : rank cells n < rank cells m := by
  have h1 := rank_succ cells n x hx
  rw [if_pos h] at h1
  have := rank_mono cells (show n + 1 ≤ m by omega)
  omega

theorem rank_surj (cells : List Cell) : ∀ t < cells.countP (fun c => c.has), ∃ (n : ℕ) (x : Cell), cells[n]? = some x ∧ x.has = true ∧ rank cells n = t := by
  induction cells using List.reverseRecOn with
  | nil => intro t ht; simp at ht
  | append_singleton l a ih =>
    intro t ht
    have hrank : ∀ n ≤ l.length, rank (l ++ [a]) n = rank l n := by
      intro n hn; unfold rank; rw [List.take_append_of_le_length hn]
    by_cases h : t < l.countP (fun c => c.has)
    · obtain ⟨n, x, hx, hh, e⟩ := ih t h
      have hn := (List.getElem?_eq_some_iff.mp hx).1
      exact ⟨n, x, by rw [List.getElem?_append_left hn]; exact hx, hh, by rw [hrank n (by omega)]; exact e⟩
    · rw [List.countP_append] at ht
      have ha : a.has = true := by
        by_contra hf
        simp [hf] at ht; omega
      refine ⟨l.length, a, by simp, ha, ?_⟩
      rw [hrank _ le_rfl]; unfold rank; rw [List.take_length]
      simp [ha] at ht; omega

variable {P : Cell → ℕ → Pt 3 → Prop} {g : Grid} {cells : List Cell}

/-- the number of the vertex of a cell -/
def numOf (g : Grid) (cells : List Cell) (c : Ijk) : ℕ := rank cells (cellNo g c)

theorem active_cell {c : Ijk} (h : g.Active c) : g.Cell c := ⟨h.1, h.2.1, h.2.2.1⟩

theorem inv_has (h : Inv P g cells) (c : Ijk) (hc : g.Active c) : ∃ x, cells[cellNo g c]? = some x ∧ x.has = true := by
  obtain ⟨x, hx, hk⟩ := h.get c (active_cell hc)
  exact ⟨x, hx, by rw [hk.has]; exact (gen_active g c (active_cell hc)).mpr hc⟩

theorem num_bij (h : Inv P g cells) : Set.BijOn (numOf g cells) {c | g.Active c} (Set.Iio (collect cells).1.length) := by
  have hlen : (collect cells).1.length = rank cells cells.length := by
    rw [(collect_spec cells).1, List.length_map]; unfold rank; rw [List.take_length, List.countP_eq_length_filter]
  refine ⟨fun c hc => ?_, fun c hc c' hc' e => ?_, fun t ht => ?_⟩
  · obtain ⟨x, hx, hh⟩ := inv_has h c hc
    simp only [Set.mem_Iio]
    rw [hlen]
    exact rank_lt cells _ _ x hx hh (List.getElem?_eq_some_iff.mp hx).1
  · obtain ⟨x, hx, hh⟩ := inv_has h c hc
    obtain ⟨x', hx', hh'⟩ := inv_has h c' hc'
    refine cellNo_inj g c c' (active_cell hc) (active_cell hc') ?_
    rcases lt_trichotomy (cellNo g c) (cellNo g c') with hlt | heq | hgt
    · have := rank_lt cells _ _ x hx hh hlt
      exact absurd e (ne_of_lt this)
    · exact heq
    · have := rank_lt cells _ _ x' hx' hh' hgt
      exact absurd e.symm (ne_of_lt this)
  · simp only [Set.mem_Iio] at ht
    rw [hlen] at ht
    obtain ⟨n, x, hx, hh, e⟩ := rank_surj cells t (by unfold rank at ht; rwa [List.take_length] at ht)
    obtain ⟨c, hc, hn, hk⟩ := h.get' n x hx
    refine ⟨c, (gen_active g c hc).mp (by rw [← hk.has]; exact hh), ?_⟩
    unfold numOf; rw [← hn]; exact e

theorem getCellVert_active (h : Inv P g cells) (c : Ijk) (hc : g.Active c) : getCellVert g (collect cells).2 c.1 c.2.1 c.2.2 = some (numOf g cells c) := by
  obtain ⟨x, hx, hh⟩ := inv_has h c hc
  have hC := active_cell hc
  unfold getCellVert
  rw [if_pos ⟨by have := hC.1; omega, by have := hC.2.1; omega, by have := hC.2.2; omega⟩, cellIdx_eq g c hC, Int.toNat_natCast, List.getD_eq_getElem?_getD, (collect_spec cells).2.2 _ x hx, if_pos hh]
  rfl

/-- the ends of an edge and the cells around it -/
def tup (e : GEdge) : Ijk × Ijk × Ijk × Ijk × Ijk × Ijk := (e.v, up e.ax e.v, around e 0, around e 1, around e 2, around e 3)

/-- the edges in the order of the loops -/
def edgesOf (g : Grid) : List GEdge :=
  (List.range (g.nx - 1) ×ˢ (List.range' 1 (g.ny - 2) ×ˢ List.range' 1 (g.nz - 2))).map (GEdge.mk 0) ++
  (List.range' 1 (g.nx - 2) ×ˢ (List.range (g.ny - 1) ×ˢ List.range' 1 (g.nz - 2))).map (GEdge.mk 1) ++
  (List.range' 1 (g.nx - 2) ×ˢ (List.range' 1 (g.ny - 2) ×ˢ List.range (g.nz - 1))).map (GEdge.mk 2)

theorem edges_eq (g : Grid) : edgesX g ++ edgesY g ++ edgesZ g = (edgesOf g).map tup := by
  unfold edgesX edgesY edgesZ edgesOf
  simp only [List.map_append, List.map_map, SProd.sprod, List.product, List.map_flatMap]
  rfl

theorem edges_nodup (g : Grid) : (edgesOf g).Nodup := by
  have inj : ∀ a : Fin 3, Function.Injective (GEdge.mk a) := fun a v w h => by injection h
  unfold edgesOf
  refine List.Nodup.append (List.Nodup.append ?_ ?_ ?_) ?_ ?_
  · exact List.Nodup.map (inj 0) (List.nodup_range.product ((List.nodup_range').product List.nodup_range'))
  · exact List.Nodup.map (inj 1) (List.Nodup.product List.nodup_range' ((List.nodup_range).product List.nodup_range'))
  · intro x hx hy
    obtain ⟨_, -, rfl⟩ := List.mem_map.mp hx
    obtain ⟨_, -, h⟩ := List.mem_map.mp hy
    simp at h
  · exact List.Nodup.map (inj 2) (List.Nodup.product List.nodup_range' ((List.nodup_range').product List.nodup_range))
  · intro x hx hy
    obtain ⟨_, -, rfl⟩ := List.mem_map.mp hy
    rcases List.mem_append.mp hx with hx | hx
    · obtain ⟨_, -, h⟩ := List.mem_map.mp hx
      simp at h
    · obtain ⟨_, -, h⟩ := List.mem_map.mp hx
      simp at h

theorem mem_edges (g : Grid) (e : GEdge) : e ∈ edgesOf g ↔ g.Inner e := by
  obtain ⟨ax, i, j, k⟩ := e
  unfold edgesOf Grid.Inner
  simp only [List.mem_append, List.mem_map, List.mem_product, List.mem_range, List.mem_range'_1, GEdge.mk.injEq]
  fin_cases ax
  · simp; omega
  · simp; omega
  · simp; omega

/-- the edge is an edge of each of the four cells -/
theorem around_corner (e : GEdge) (he : g.Inner e) (r : Fin 4) : g.Cell (around e r) ∧ ∃ a b d a' b' d', corner (around e r) a b d = e.v ∧ corner (around e r) a' b' d' = up e.ax e.v := by
  obtain ⟨ax, i, j, k⟩ := e
  unfold Grid.Inner at he
  fin_cases ax
  · simp at he
    obtain ⟨h1, ⟨h2, h3⟩, h4, h5⟩ := he
    fin_cases r
    · refine ⟨⟨?_, ?_, ?_⟩, 0, 1, 1, 1, 1, 1, ?_, ?_⟩ <;> simp [around, across, corner, down, up] <;> omega
    · refine ⟨⟨?_, ?_, ?_⟩, 0, 0, 1, 1, 0, 1, ?_, ?_⟩ <;> simp [around, across, corner, down, up] <;> omega
    · refine ⟨⟨?_, ?_, ?_⟩, 0, 0, 0, 1, 0, 0, ?_, ?_⟩ <;> simp [around, across, corner, down, up] <;> omega
    · refine ⟨⟨?_, ?_, ?_⟩, 0, 1, 0, 1, 1, 0, ?_, ?_⟩ <;> simp [around, across, corner, down, up] <;> omega
  · simp at he
    obtain ⟨⟨h1, h2⟩, h3, h4, h5⟩ := he
    fin_cases r
    · refine ⟨⟨?_, ?_, ?_⟩, 1, 0, 1, 1, 1, 1, ?_, ?_⟩ <;> simp [around, across, corner, down, up] <;> omega
    · refine ⟨⟨?_, ?_, ?_⟩, 0, 0, 1, 0, 1, 1, ?_, ?_⟩ <;> simp [around, across, corner, down, up] <;> omega
    · refine ⟨⟨?_, ?_, ?_⟩, 0, 0, 0, 0, 1, 0, ?_, ?_⟩ <;> simp [around, across, corner, down, up] <;> omega
    · refine ⟨⟨?_, ?_, ?_⟩, 1, 0, 0, 1, 1, 0, ?_, ?_⟩ <;> simp [around, across, corner, down, up] <;> omega
  · simp at he
    obtain ⟨⟨h1, h2⟩, ⟨h3, h4⟩, h5⟩ := he
    fin_cases r
    · refine ⟨⟨?_, ?_, ?_⟩, 1, 1, 0, 1, 1, 1, ?_, ?_⟩ <;> simp [around, across, corner, down, up] <;> omega
    · refine ⟨⟨?_, ?_, ?_⟩, 0, 1, 0, 0, 1, 1, ?_, ?_⟩ <;> simp [around, across, corner, down, up] <;> omega
    · refine ⟨⟨?_, ?_, ?_⟩, 0, 0, 0, 0, 0, 1, ?_, ?_⟩ <;> simp [around, across, corner, down, up] <;> omega
    · refine ⟨⟨?_, ?_, ?_⟩, 1, 0, 0, 1, 0, 1, ?_, ?_⟩ <;> simp [around, across, corner, down, up] <;> omega

theorem around_active (e : GEdge) (he : g.Inner e) (hs : g.Changes e) (r : Fin 4) : g.Active (around e r) := by
  obtain ⟨hc, a, b, d, a', b', d', h1, h2⟩ := around_corner e he r
  rcases hs with ⟨s1, s2⟩ | ⟨s1, s2⟩
  · exact ⟨hc.1, hc.2.1, hc.2.2, ⟨a, b, d, by rw [h1]; exact s1⟩, a', b', d', by rw [h2]; exact s2⟩
  · exact ⟨hc.1, hc.2.1, hc.2.2, ⟨a', b', d', by rw [h2]; exact s2⟩, a, b, d, by rw [h1]; exact s1⟩

theorem changes_iff (e : GEdge) : g.Changes e ↔ g.at e.v * g.at (up e.ax e.v) < 0 := by
  unfold Grid.Changes
  rw [mul_neg_iff]; tauto

/-- `quadAt` at an edge -/
noncomputable def quadOf (g : Grid) (cells : List Cell) (e : GEdge) : Option (Option Quad) :=
  quadAt g cells (collect cells).1 (collect cells).2 e.v (up e.ax e.v) (around e 0) (around e 1) (around e 2) (around e 3)

/-- the ring of an edge before the winding is chosen -/
def ringOf (num : Ijk → ℕ) (e : GEdge) : Quad := ⟨num (around e 0), num (around e 1), num (around e 2), num (around e 3)⟩

/-- the other direction -/
def Quad.rev (q : Quad) : Quad := ⟨q.a, q.d, q.c, q.b⟩

theorem quadOf_changes (h : Inv P g cells) (e : GEdge) (he : g.Inner e) (hs : g.Changes e) :
    quadOf g cells e = (hasNormal cells g (g.x e.v.1 e.v.2.1 e.v.2.2) (g.x (up e.ax e.v).1 (up e.ax e.v).2.1 (up e.ax e.v).2.2) (around e 0).1 (around e 0).2.1 (around e 0).2.2).map
      (fun _ => some (if flipped (collect cells).1 (gradientAt g e.v.1 e.v.2.1 e.v.2.2 + gradientAt g (up e.ax e.v).1 (up e.ax e.v).2.1 (up e.ax e.v).2.2) (ringOf (numOf g cells) e)
        then (ringOf (numOf g cells) e).rev else ringOf (numOf g cells) e)) := by
  unfold quadOf quadAt
  rw [if_pos (show g.s e.v.1 e.v.2.1 e.v.2.2 * g.s (up e.ax e.v).1 (up e.ax e.v).2.1 (up e.ax e.v).2.2 < 0 from (changes_iff e).mp hs)]
  simp only [getCellVert_active h _ (around_active e he hs _)]
  rfl

theorem quadOf_none (e : GEdge) (hs : ¬ g.Changes e) : quadOf g cells e = some none := by
  unfold quadOf quadAt
  exact if_neg (fun h => hs ((changes_iff e).mpr h))

theorem mapM_rings (R : GEdge → Quad → Prop) (T : GEdge → Prop) [DecidablePred T] (f : GEdge → Option (Option Quad)) : ∀ (E : List GEdge) (qs : List (Option Quad)),
    (∀ e ∈ E, ∀ r, f e = some r → (T e → ∃ q, r = some q ∧ R e q) ∧ (¬ T e → r = none)) → E.mapM f = some qs → List.Forall₂ R (E.filter (fun e => decide (T e))) qs.reduceOption := by
  intro E
  induction E with
  | nil => intro qs _ h; simp at h; subst h; exact List.Forall₂.nil
  | cons e E ih =>
    intro qs hE h
    rw [List.mapM_cons] at h
    simp only [Option.bind_eq_bind, Option.pure_def] at h
    obtain ⟨r, hr, h⟩ := Option.bind_eq_some_iff.mp h
    obtain ⟨rs, hrs, h⟩ := Option.bind_eq_some_iff.mp h
    cases h
    have := ih rs (fun e he => hE e (List.mem_cons_of_mem _ he)) hrs
    obtain ⟨h1, h2⟩ := hE e List.mem_cons_self r hr
    by_cases hT : T e
    · obtain ⟨q, rfl, hq⟩ := h1 hT
      simp only [List.filter_cons, hT, decide_true, if_true, List.reduceOption, List.filterMap_cons, id_eq]
      exact List.Forall₂.cons hq this
    · rw [h2 hT]
      simp only [List.filter_cons, hT, decide_false, Bool.false_eq_true, if_false, List.reduceOption, List.filterMap_cons, id_eq]
      exact this

theorem extract_eq (g : Grid) (cells : List Cell) : extract g cells = ((edgesOf g).mapM (quadOf g cells)).map (fun q => ((collect cells).1, q.reduceOption)) := by
  unfold extract
  simp only
  rw [edges_eq, List.mapM_map]
  rfl

/-- the quads of an extracted mesh, with their edges and the choice of the winding -/
theorem extract_rings (h : Inv P g cells) (m : List (Pt 3) × List Quad) (hm : extract g cells = some m) :
    m.1 = (collect cells).1 ∧ ∃ L : List GEdge, L.Nodup ∧ (∀ e, e ∈ L ↔ g.Inner e ∧ g.Changes e) ∧
      List.Forall₂ (fun e q => q = if flipped m.1 (gradientAt g e.v.1 e.v.2.1 e.v.2.2 + gradientAt g (up e.ax e.v).1 (up e.ax e.v).2.1 (up e.ax e.v).2.2) (ringOf (numOf g cells) e)
        then (ringOf (numOf g cells) e).rev else ringOf (numOf g cells) e) L m.2 := by
  classical
  rw [extract_eq] at hm
  obtain ⟨qs, hqs, rfl⟩ := Option.map_eq_some_iff.mp hm
  refine ⟨rfl, (edgesOf g).filter (fun e => decide (g.Changes e)), (edges_nodup g).filter _, fun e => by simp [List.mem_filter, mem_edges], ?_⟩
  refine mapM_rings _ g.Changes (quadOf g cells) _ qs (fun e he r hr => ⟨fun hs => ?_, fun hs => ?_⟩) hqs
  · rw [quadOf_changes h e ((mem_edges g e).mp he) hs] at hr
    obtain ⟨u, -, rfl⟩ := Option.map_eq_some_iff.mp hr
    exact ⟨_, rfl, rfl⟩
  · rw [quadOf_none e hs] at hr
    exact (Option.some.inj hr).symm

theorem extract_dual (h : Inv P g cells) (m : List (Pt 3) × List Quad) (hm : extract g cells = some m) : IsDualMesh g m.1.length m.2 := by
  obtain ⟨hV, L, hn, hL, hF⟩ := extract_rings h m hm
  refine ⟨numOf g cells, by rw [hV]; exact num_bij h, L, hn, hL, hF.imp (fun e q hq => ?_)⟩
  rw [hq]
  split_ifs
  · exact Or.inr rfl
  · exact Or.inl rfl

end Gpy.Dual
