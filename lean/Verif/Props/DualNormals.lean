import Verif.Props.DualContact
import Mathlib.Analysis.Normed.Group.Constructions
import Mathlib.Topology.MetricSpace.ProperSpace.Real
import Mathlib.Topology.MetricSpace.ProperSpace

/-!
# C127: the four cells around an edge have the same Hermite normal
-/

set_option autoImplicit false
namespace Gpy.Dual

noncomputable section
open Classical

/-! ### edges of cells -/

theorem edgeOfOffsets_complete : ∀ m < 12, edgeOfOffsets (cornerOffset (endA m)) (cornerOffset (endB m)) = some m ∧ edgeOfOffsets (cornerOffset (endB m)) (cornerOffset (endA m)) = some m := by
  decide +kernel

theorem offset_of_cv (c : Ijk) (m : ℕ) (hm : m < 8) : (((cv c m).1 : ℤ) - c.1, ((cv c m).2.1 : ℤ) - c.2.1, ((cv c m).2.2 : ℤ) - c.2.2) = cornerOffset m := by
  rw [cornerOffset_eq m hm]
  unfold cv
  simp

theorem edgeOfVerts_complete (x : Cell) (c : Ijk) (m : ℕ) (hm : m < 12) (h1 : x.ix = c.1) (h2 : x.iy = c.2.1) (h3 : x.iz = c.2.2) :
    edgeOfVerts x (cellEdge c m).v (up (cellEdge c m).ax (cellEdge c m).v) = some m := by
  obtain ⟨ea, eb⟩ := ends_lt m hm
  unfold edgeOfVerts
  rw [h1, h2, h3]
  rcases cellEdge_ends c m hm with ⟨p, q⟩ | ⟨p, q⟩
  · rw [← q, ← p, offset_of_cv c _ ea, offset_of_cv c _ eb]
    exact (edgeOfOffsets_complete m hm).1
  · rw [← p, ← q, offset_of_cv c _ ea, offset_of_cv c _ eb]
    exact (edgeOfOffsets_complete m hm).2

theorem ends_inj (a b : GEdge) (h : (a.v = b.v ∧ up a.ax a.v = up b.ax b.v) ∨ (up a.ax a.v = b.v ∧ a.v = up b.ax b.v)) : a = b := by
  obtain ⟨x, i, j, k⟩ := a
  obtain ⟨x', i', j', k'⟩ := b
  fin_cases x <;> fin_cases x' <;> simp [up] at h ⊢ <;> omega

theorem slot_edge {g : Grid} {e : GEdge} {n m : ℕ} (h : Slot g e.v (up e.ax e.v) n m) : ∃ c, g.Cell c ∧ n = cellNo g c ∧ m < 12 ∧ cellEdge c m = e ∧ ((gen g c).pos m).isSome = true := by
  obtain ⟨c, hc, hn, hm, hends, hs⟩ := h
  refine ⟨c, hc, hn, hm, ?_, hs⟩
  apply ends_inj
  rcases cellEdge_ends c m hm with ⟨p, q⟩ | ⟨p, q⟩
  · rw [← q, ← p]
    tauto
  · rw [← p, ← q]
    tauto

/-- the cells around an edge, with the number of the edge in each -/
def ringSlots (e : GEdge) : List (Ijk × ℕ) := match e.ax with
  | 0 => [(e.v, 0), (down 1 e.v, 2), (down 2 e.v, 4), (down 2 (down 1 e.v), 6)]
  | 1 => [(e.v, 3), (down 0 e.v, 1), (down 2 e.v, 7), (down 2 (down 0 e.v), 5)]
  | 2 => [(e.v, 8), (down 0 e.v, 9), (down 1 e.v, 11), (down 1 (down 0 e.v), 10)]

theorem ringSlots_spec (g : Grid) (e : GEdge) (he : g.Inner e) : ∀ s ∈ ringSlots e, g.Cell s.1 ∧ s.2 < 12 ∧ cellEdge s.1 s.2 = e := by
  obtain ⟨x, i, j, k⟩ := e
  unfold Grid.Inner at he
  fin_cases x <;> simp at he <;> simp [ringSlots, Grid.Cell, down, cellEdge, cv, off] <;> omega

theorem ringSlots_complete (e : GEdge) (c : Ijk) (m : ℕ) (hm : m < 12) (h : cellEdge c m = e) : (c, m) ∈ ringSlots e := by
  obtain ⟨i, j, k⟩ := c
  subst h
  interval_cases m <;> simp [ringSlots, cellEdge, cv, off, down]

theorem ringSlots_nodup (g : Grid) (e : GEdge) (he : g.Inner e) : ((ringSlots e).map (fun s => cellNo g s.1)).Nodup := by
  have hs := ringSlots_spec g e he
  have : ((ringSlots e).map Prod.fst).Nodup := by
    obtain ⟨x, i, j, k⟩ := e
    unfold Grid.Inner at he
    fin_cases x <;> simp at he <;> simp [ringSlots, down] <;> omega
  rw [show (fun s : Ijk × ℕ => cellNo g s.1) = cellNo g ∘ Prod.fst from rfl, ← List.map_map]
  refine this.map_on ?_
  intro a ha b hb hab
  obtain ⟨s, hs1, rfl⟩ := List.mem_map.mp ha
  obtain ⟨t, ht1, rfl⟩ := List.mem_map.mp hb
  exact cellNo_inj g _ _ (hs s hs1).1 (hs t ht1).1 hab

/-! ### the list of an edge -/

variable {P : Cell → ℕ → Pt 3 → Prop} {g : Grid} {cells : List Cell}

/-- the entries of the list of an edge -/
def ringList (g : Grid) (e : GEdge) : List (ℕ × Option ℕ) := (ringSlots e).map (fun s => (cellNo g s.1, some s.2))

theorem changes_neg {e : GEdge} (hs : g.Changes e) : g.at e.v * g.at (up e.ax e.v) < 0 := by
  rcases hs with ⟨a, b⟩ | ⟨a, b⟩
  · exact mul_neg_of_neg_of_pos a b
  · exact mul_neg_of_pos_of_neg a b

theorem slot_active {e : GEdge} (hs : g.Changes e) {c : Ijk} {m : ℕ} (hc : g.Cell c) (hm : m < 12) (h : cellEdge c m = e) : (gen g c).has = true ∧ ((gen g c).pos m).isSome = true := by
  obtain ⟨ea, eb⟩ := ends_lt m hm
  have key : ∃ a < 8, ∃ b < 8, cv c a = e.v ∧ cv c b = up e.ax e.v := by
    rcases cellEdge_ends c m hm with ⟨p, q⟩ | ⟨p, q⟩ <;> rw [h] at p q
    · exact ⟨_, ea, _, eb, p, q⟩
    · exact ⟨_, eb, _, ea, q, p⟩
  have hh : (gen g c).has = true := by
    obtain ⟨a, ha, b, hb, p, q⟩ := key
    rw [gen_has]
    rcases hs with ⟨r, s⟩ | ⟨r, s⟩
    · exact ⟨⟨a, ha, by rw [p]; exact r⟩, b, hb, by rw [q]; exact s⟩
    · exact ⟨⟨b, hb, by rw [q]; exact s⟩, a, ha, by rw [p]; exact r⟩
  refine ⟨hh, ((gen_slot g c m).1).mpr ⟨hh, hm, not_lt.mpr ?_⟩⟩
  have := changes_neg hs
  rcases cellEdge_ends c m hm with ⟨p, q⟩ | ⟨p, q⟩ <;> rw [h] at p q <;> rw [p, q]
  · exact this.le
  · rw [mul_comm]; exact this.le

theorem inside_of_num {e : GEdge} (he : g.Inner e) (h3 : 3 ≤ g.num e.ax) : insideGrid g e.v ∨ insideGrid g (up e.ax e.v) := by
  obtain ⟨x, i, j, k⟩ := e
  unfold Grid.Inner at he
  unfold insideGrid
  fin_cases x <;> simp [Grid.num] at he h3 <;> simp [up] <;> omega

theorem cellIdx_neg (c : Ijk) (hc : g.Cell c) (i j k : ℤ) (h1 : i = c.1) (h2 : j = c.2.1) (h3 : k = c.2.2) : cellIdx g.nx g.ny i j k = (cellNo g c : ℤ) := by
  rw [h1, h2, h3]
  exact cellIdx_eq g c hc

/-- what the list of an edge is made of, for any cell and any two directions -/
theorem processEdge_eq (h : Inv P g cells) {u u' : Ijk} (hin : insideGrid g u ∨ insideGrid g u') (c0 c1 c2 c3 : Ijk) (m0 m1 m2 m3 : ℕ) (hu : u = c0) (hc : g.Cell c0 ∧ g.Cell c1 ∧ g.Cell c2 ∧ g.Cell c3)
    (hm : ∀ c m, (c, m) ∈ [(c0, m0), (c1, m1), (c2, m2), (c3, m3)] → (∀ x : Cell, x.ix = c.1 → x.iy = c.2.1 → x.iz = c.2.2 → edgeOfVerts x u u' = some m) ∧ (gen g c).has = true ∧ ((gen g c).pos m).isSome = true)
    (hd1 : (c0.1 : ℤ) + (dirs.getD (edgeFaces.getD m0 (0, 0)).1 (0, 0, 0)).1 = c1.1 ∧ (c0.2.1 : ℤ) + (dirs.getD (edgeFaces.getD m0 (0, 0)).1 (0, 0, 0)).2.1 = c1.2.1 ∧
      (c0.2.2 : ℤ) + (dirs.getD (edgeFaces.getD m0 (0, 0)).1 (0, 0, 0)).2.2 = c1.2.2)
    (hd2 : (c0.1 : ℤ) + (dirs.getD (edgeFaces.getD m0 (0, 0)).2 (0, 0, 0)).1 = c2.1 ∧ (c0.2.1 : ℤ) + (dirs.getD (edgeFaces.getD m0 (0, 0)).2 (0, 0, 0)).2.1 = c2.2.1 ∧
      (c0.2.2 : ℤ) + (dirs.getD (edgeFaces.getD m0 (0, 0)).2 (0, 0, 0)).2.2 = c2.2.2)
    (hd3 : (c1.1 : ℤ) + (dirs.getD (edgeFaces.getD m0 (0, 0)).2 (0, 0, 0)).1 = c3.1 ∧ (c1.2.1 : ℤ) + (dirs.getD (edgeFaces.getD m0 (0, 0)).2 (0, 0, 0)).2.1 = c3.2.1 ∧
      (c1.2.2 : ℤ) + (dirs.getD (edgeFaces.getD m0 (0, 0)).2 (0, 0, 0)).2.2 = c3.2.2) :
    processEdge g cells u u' = some [(cellNo g c0, some m0), (cellNo g c1, some m1), (cellNo g c2, some m2), (cellNo g c3, some m3)] := by
  obtain ⟨g0, g1, g2, g3⟩ := hc
  have info : ∀ c m, (c, m) ∈ [(c0, m0), (c1, m1), (c2, m2), (c3, m3)] → g.Cell c → ∃ x, cells[cellNo g c]? = some x ∧ x.ix = c.1 ∧ x.iy = c.2.1 ∧ x.iz = c.2.2 ∧ x.has = true ∧ (x.pos m).isSome = true ∧
      edgeOfVerts x u u' = some m ∧ cellNo g c < cells.length := by
    intro c m hcm hc
    obtain ⟨x, hx, k⟩ := h.get c hc
    obtain ⟨b1, b2, b3, -⟩ := gen_basic g c
    obtain ⟨q1, q2, q3⟩ := hm c m hcm
    have e1 := k.ix.trans b1
    have e2 := k.iy.trans b2
    have e3 := k.iz.trans b3
    exact ⟨x, hx, e1, e2, e3, by rw [k.has]; exact q2, by rw [k.pos]; exact q3, q1 x e1 e2 e3, (List.getElem?_eq_some_iff.mp hx).1⟩
  obtain ⟨x0, hx0, i0, j0, k0, has0, pos0, ev0, l0⟩ := info c0 m0 (by simp) g0
  obtain ⟨x1, hx1, i1, j1, k1, has1, -, ev1, l1⟩ := info c1 m1 (by simp) g1
  obtain ⟨x2, hx2, i2, j2, k2, has2, -, ev2, l2⟩ := info c2 m2 (by simp) g2
  obtain ⟨x3, hx3, i3, j3, k3, has3, -, ev3, l3⟩ := info c3 m3 (by simp) g3
  obtain ⟨p, hp⟩ := Option.isSome_iff_exists.mp pos0
  have n0 : cellIdx g.nx g.ny u.1 u.2.1 u.2.2 = (cellNo g c0 : ℤ) := by rw [hu]; exact cellIdx_eq g c0 g0
  unfold processEdge
  rw [if_neg (by tauto)]
  simp only
  rw [n0]
  simp only [Int.toNat_natCast, hx0, ev0, hp]
  rw [if_neg (by omega)]
  rw [i0, j0, k0, hd1.1, hd1.2.1, hd1.2.2, hd2.1, hd2.2.1, hd2.2.2, hd3.1, hd3.2.1, hd3.2.2, cellIdx_eq g c1 g1, cellIdx_eq g c2 g2, cellIdx_eq g c3 g3]
  rw [if_neg (by omega)]
  simp only [Int.toNat_natCast, hx1, hx2, hx3, ev1, ev2, ev3, has0, has1, has2, has3]
  simp

theorem processEdge_ring (h : Inv P g cells) (e : GEdge) (he : g.Inner e) (hs : g.Changes e) (h3 : 3 ≤ g.num e.ax) : processEdge g cells e.v (up e.ax e.v) = some (ringList g e) := by
  have sp := ringSlots_spec g e he
  have hin := inside_of_num he h3
  have hm : ∀ c m, (c, m) ∈ ringSlots e → (∀ x : Cell, x.ix = c.1 → x.iy = c.2.1 → x.iz = c.2.2 → edgeOfVerts x e.v (up e.ax e.v) = some m) ∧ (gen g c).has = true ∧ ((gen g c).pos m).isSome = true := by
    intro c m hcm
    obtain ⟨q1, q2, q3⟩ := sp (c, m) hcm
    refine ⟨fun x e1 e2 e3 => ?_, slot_active hs q1 q2 q3⟩
    have := edgeOfVerts_complete x c m q2 e1 e2 e3
    rw [show cellEdge c m = e from q3] at this
    exact this
  obtain ⟨x, i, j, k⟩ := e
  unfold Grid.Inner at he
  fin_cases x
  all_goals
    simp only [ringSlots, ringList, List.map_cons, List.map_nil] at sp hm ⊢
    simp at he
    refine processEdge_eq h hin _ _ _ _ _ _ _ _ rfl ⟨(sp _ (.head _)).1, (sp _ (.tail _ (.head _))).1, (sp _ (.tail _ (.tail _ (.head _)))).1, (sp _ (.tail _ (.tail _ (.tail _ (.head _))))).1⟩ hm ?_ ?_ ?_ <;>
      simp [dirs, edgeFaces, down] <;> omega

theorem mem_allEdges (e : GEdge) (he : g.Inner e) : (e.v, up e.ax e.v) ∈ allEdges g := by
  obtain ⟨x, i, j, k⟩ := e
  unfold Grid.Inner at he
  unfold allEdges
  simp only [List.mem_flatMap, List.mem_range]
  fin_cases x <;> simp at he <;> refine ⟨k, by omega, j, by omega, i, by omega, ?_⟩ <;> simp [up] <;> omega

theorem allEdges_edge (p : Ijk × Ijk) (hp : p ∈ allEdges g) : ∃ e : GEdge, p = (e.v, up e.ax e.v) := by
  unfold allEdges at hp
  simp only [List.mem_flatMap, List.mem_range, List.mem_append] at hp
  obtain ⟨k, -, j, -, i, -, (h | h) | h⟩ := hp
  · split_ifs at h
    · exact ⟨⟨0, (i, j, k)⟩, List.mem_singleton.mp h⟩
    · exact absurd h (by simp)
  · split_ifs at h
    · exact ⟨⟨1, (i, j, k)⟩, List.mem_singleton.mp h⟩
    · exact absurd h (by simp)
  · split_ifs at h
    · exact ⟨⟨2, (i, j, k)⟩, List.mem_singleton.mp h⟩
    · exact absurd h (by simp)

/-- every list is the list of an edge; the list of `e` is one of them -/
theorem edgeCells_spec (h : Inv P g cells) (e : GEdge) (he : g.Inner e) (hs : g.Changes e) (h3 : 3 ≤ g.num e.ax) :
    ringList g e ∈ edgeCells g cells ∧ ∀ l ∈ edgeCells g cells, l = ringList g e ∨ ∀ s ∈ l, ∀ c m, g.Cell c → m < 12 → cellEdge c m = e → s ≠ (cellNo g c, some m) := by
  constructor
  · exact List.mem_filterMap.mpr ⟨_, mem_allEdges e he, processEdge_ring h e he hs h3⟩
  · intro l hl
    obtain ⟨p, hp, hl⟩ := List.mem_filterMap.mp hl
    obtain ⟨e', rfl⟩ := allEdges_edge p hp
    by_cases hee : e' = e
    · subst hee
      rw [processEdge_ring h e' he hs h3] at hl
      exact Or.inl (Option.some.inj hl).symm
    · right
      intro s hsl c m hc hm hcm hsc
      subst hsc
      obtain ⟨c', hc', hn, -, hce, -⟩ := slot_edge (processEdge_slots h _ _ l hl _ hsl m rfl)
      have : c = c' := cellNo_inj g c c' hc hc' hn
      subst this
      exact hee (hce.symm.trans hcm)

/-! ### normals -/

/-- the normal of edge `m` of cell `i` -/
def nrmAt (cells : List Cell) (i m : ℕ) : Option (Option (Pt 3)) := cells[i]?.map (fun c => c.nrm m)

theorem nrmAt_modify (cs : List Cell) (f : Cell → Cell) (i j m : ℕ) : nrmAt (cs.modify j f) i m = if i = j then cs[i]?.map (fun c => (f c).nrm m) else nrmAt cs i m := by
  unfold nrmAt
  rw [List.getElem?_modify]
  split_ifs with h1 h2 h2
  · cases cs[i]? <;> rfl
  · exact absurd h1.symm h2
  · exact absurd h2.symm h1
  · cases cs[i]? <;> rfl

theorem nrmAt_set (n : Pt 3) (cs : List Cell) (s : ℕ × Option ℕ) (i m : ℕ) : nrmAt (setNormal n cs s) i m = if s = (i, some m) then (nrmAt cs i m).map (fun _ => some n) else nrmAt cs i m := by
  obtain ⟨j, o⟩ := s
  unfold setNormal
  cases o with
  | none => rw [if_neg (by simp)]
  | some m' =>
    simp only
    rw [nrmAt_modify]
    by_cases hij : i = j
    · subst hij
      rw [if_pos rfl]
      by_cases hm : m' = m
      · subst hm
        rw [if_pos rfl]
        unfold nrmAt
        simp [Function.comp_def]
      · rw [if_neg (by simp [hm])]
        unfold nrmAt
        simp [Function.update_of_ne (Ne.symm hm)]
    · rw [if_neg hij, if_neg (by simp; intro h; exact absurd h.symm hij)]

theorem nrmAt_sets (n : Pt 3) (i m : ℕ) : ∀ (l : List (ℕ × Option ℕ)) (cs : List Cell), nrmAt (l.foldl (setNormal n) cs) i m = if (i, some m) ∈ l then (nrmAt cs i m).map (fun _ => some n) else nrmAt cs i m := by
  intro l
  induction l with
  | nil => intro cs; simp
  | cons s l ih =>
    intro cs
    rw [List.foldl_cons, ih, nrmAt_set]
    by_cases h1 : (i, some m) ∈ l
    · rw [if_pos h1, if_pos (List.mem_cons_of_mem _ h1)]
      split_ifs
      · rw [Option.map_map]; rfl
      · rfl
    · rw [if_neg h1]
      by_cases h2 : s = (i, some m)
      · rw [if_pos h2, if_pos (by rw [h2]; exact List.mem_cons_self)]
      · rw [if_neg h2, if_neg (by rw [List.mem_cons]; rintro (h | h); exacts [h2 h.symm, h1 h])]

/-- the blended normal -/
def blended (w : ℝ) (n : Pt 3) (o : Option (Pt 3)) : Option (Pt 3) := o.map (fun old => if 0 < pnorm n then normalized ((1 - w) • old + w • n) else old)

theorem nrmAt_blend (w : ℝ) (n : Pt 3) (cs : List Cell) (s : ℕ × Option ℕ) (i m : ℕ) : nrmAt (blendNormal w n cs s) i m = if s = (i, some m) then (nrmAt cs i m).map (blended w n) else nrmAt cs i m := by
  obtain ⟨j, o⟩ := s
  unfold blendNormal
  cases o with
  | none => rw [if_neg (by simp)]
  | some m' =>
    simp only
    rw [nrmAt_modify]
    by_cases hij : i = j
    · subst hij
      rw [if_pos rfl]
      unfold nrmAt
      by_cases hm : m' = m
      · subst hm
        rw [if_pos rfl, Option.map_map]
        congr 1
        funext c
        simp only [Function.comp_apply, blended]
        cases hc : c.nrm m' with
        | none => simp [hc]
        | some old =>
          simp only [Option.map_some]
          split_ifs
          · simp
          · exact hc
      · rw [if_neg (by simp [hm])]
        congr 1
        funext c
        cases hc : c.nrm m' with
        | none => rfl
        | some old =>
          simp only
          split_ifs
          · simp [Function.update_of_ne (Ne.symm hm)]
          · rfl
    · rw [if_neg hij, if_neg (by simp; intro h; exact absurd h.symm hij)]

theorem nrmAt_blends (w : ℝ) (n : Pt 3) (i m : ℕ) : ∀ (l : List (ℕ × Option ℕ)), (l.map Prod.fst).Nodup → ∀ (cs : List Cell),
    nrmAt (l.foldl (blendNormal w n) cs) i m = if (i, some m) ∈ l then (nrmAt cs i m).map (blended w n) else nrmAt cs i m := by
  intro l
  induction l with
  | nil => intro _ cs; simp
  | cons s l ih =>
    intro hnd cs
    rw [List.map_cons, List.nodup_cons] at hnd
    rw [List.foldl_cons, ih hnd.2, nrmAt_blend]
    by_cases h1 : (i, some m) ∈ l
    · have h2 : s ≠ (i, some m) := by
        intro h
        refine hnd.1 ?_
        rw [h]
        exact List.mem_map.mpr ⟨_, h1, rfl⟩
      rw [if_pos h1, if_pos (List.mem_cons_of_mem _ h1), if_neg h2]
    · rw [if_neg h1]
      by_cases h2 : s = (i, some m)
      · rw [if_pos h2, if_pos (by rw [h2]; exact List.mem_cons_self)]
      · rw [if_neg h2, if_neg (by rw [List.mem_cons]; rintro (h | h); exacts [h2 h.symm, h1 h])]

theorem nrmAt_blends_not (w : ℝ) (n : Pt 3) (i m : ℕ) : ∀ (l : List (ℕ × Option ℕ)), (i, some m) ∉ l → ∀ (cs : List Cell), nrmAt (l.foldl (blendNormal w n) cs) i m = nrmAt cs i m := by
  intro l
  induction l with
  | nil => intro _ cs; rfl
  | cons s l ih =>
    intro h cs
    rw [List.mem_cons, not_or] at h
    rw [List.foldl_cons, ih h.2, nrmAt_blend, if_neg (fun e => h.1 e.symm)]

theorem nrmAt_blendPos (w : ℝ) (y : Pt 3) (i m : ℕ) : ∀ (l : List (ℕ × Option ℕ)) (cs : List Cell), nrmAt (l.foldl (blendPos w y) cs) i m = nrmAt cs i m := by
  intro l
  induction l with
  | nil => intro cs; rfl
  | cons s l ih =>
    intro cs
    rw [List.foldl_cons, ih]
    obtain ⟨j, o⟩ := s
    unfold blendPos
    cases o with
    | none => rfl
    | some m' =>
      simp only
      rw [nrmAt_modify]
      split_ifs
      · rfl
      · rfl

/-! ### one normal for each edge -/

/-- the slots of edge `e` have the same normal -/
def Shared (g : Grid) (e : GEdge) (cells : List Cell) : Prop :=
  ∀ c m c' m', g.Cell c → m < 12 → cellEdge c m = e → g.Cell c' → m' < 12 → cellEdge c' m' = e → nrmAt cells (cellNo g c) m = nrmAt cells (cellNo g c') m'

theorem mem_ring {e : GEdge} {c : Ijk} {m : ℕ} (hm : m < 12) (h : cellEdge c m = e) : (cellNo g c, some m) ∈ ringList g e := List.mem_map.mpr ⟨(c, m), ringSlots_complete e c m hm h, rfl⟩

theorem slot_some (h : Inv P g cells) {e : GEdge} (hs : g.Changes e) {c : Ijk} {m : ℕ} (hc : g.Cell c) (hm : m < 12) (hcm : cellEdge c m = e) : ∃ x n, cells[cellNo g c]? = some x ∧ x.nrm m = some n := by
  obtain ⟨x, hx, k⟩ := h.get c hc
  have h1 : (x.nrm m).isSome = true := by
    rw [k.nrm, (gen_slot g c m).2]
    exact (slot_active hs hc hm hcm).2
  obtain ⟨n, hn⟩ := Option.isSome_iff_exists.mp h1
  exact ⟨x, n, hx, hn⟩

theorem averageOne_own (h : Inv P g cells) (e : GEdge) (hs : g.Changes e) : Shared g e (averageOne cells (ringList g e)) := by
  unfold averageOne
  split_ifs with hns
  · have hz : ∀ c m, g.Cell c → m < 12 → cellEdge c m = e → nrmAt cells (cellNo g c) m = some (some 0) := by
      intro c m hc hm hcm
      obtain ⟨x, n, hx, hn⟩ := slot_some h hs hc hm hcm
      unfold normalsOf at hns
      rw [List.filterMap_eq_nil_iff] at hns
      have := hns _ (mem_ring (g := g) hm hcm)
      simp only [hx, hn, Option.getD_some] at this
      have hp : ¬ 0 < pnorm n := by
        intro hp
        rw [if_pos hp] at this
        exact absurd this (by simp)
      have h0 : psq n = 0 := by
        have h1 := Real.sqrt_eq_zero'.mp (le_antisymm (not_lt.mp hp) (Real.sqrt_nonneg _))
        exact le_antisymm h1 (psq_nn n)
      unfold nrmAt
      rw [hx, Option.map_some, hn]
      congr 2
      funext i
      have := (Finset.sum_eq_zero_iff_of_nonneg (fun i _ => sq_nonneg (n i))).mp h0 i (Finset.mem_univ i)
      exact pow_eq_zero_iff (two_ne_zero) |>.mp this
    intro c m c' m' hc hm hcm hc' hm' hcm'
    rw [hz c m hc hm hcm, hz c' m' hc' hm' hcm']
  · intro c m c' m' hc hm hcm hc' hm' hcm'
    obtain ⟨x, n, hx, hn⟩ := slot_some h hs hc hm hcm
    obtain ⟨x', n', hx', hn'⟩ := slot_some h hs hc' hm' hcm'
    rw [nrmAt_sets, nrmAt_sets, if_pos (mem_ring hm hcm), if_pos (mem_ring hm' hcm')]
    unfold nrmAt
    rw [hx, hx']
    rfl

theorem averageOne_other (cs : List Cell) (l : List (ℕ × Option ℕ)) (i m : ℕ) (h : (i, some m) ∉ l) : nrmAt (averageOne cs l) i m = nrmAt cs i m := by
  unfold averageOne
  split_ifs
  · rfl
  · rw [nrmAt_sets, if_neg h]

theorem averageOne_inv (h : Inv P g cells) (l : List (ℕ × Option ℕ)) (hl : Good g l) : Inv P g (averageOne cells l) := by
  unfold averageOne
  split_ifs
  · exact h
  · obtain ⟨u, u', hu⟩ := hl
    exact foldl_inv (Inv P g) _ _ (fun cs hcs s hs => setNormal_inv _ hcs s (hu s hs)) _ h

theorem averageNormals_shared (h : Inv P g cells) (e : GEdge) (he : g.Inner e) (hs : g.Changes e) (h3 : 3 ≤ g.num e.ax) : Shared g e (averageNormals g cells) := by
  obtain ⟨hmem, hall⟩ := edgeCells_spec h e he hs h3
  have hgood := edgeCells_good h
  unfold averageNormals
  obtain ⟨A, B, hAB⟩ := List.append_of_mem hmem
  rw [hAB] at hall hgood ⊢
  rw [List.foldl_append, List.foldl_cons]
  have hA : Inv P g (A.foldl averageOne cells) := foldl_inv (Inv P g) _ _ (fun cs hcs l hl => averageOne_inv hcs l (hgood l (List.mem_append_left _ hl))) _ h
  have h1 := averageOne_own hA e hs
  have h1i := averageOne_inv hA _ (hgood _ (List.mem_append_right _ List.mem_cons_self))
  refine (foldl_inv (fun cs => Inv P g cs ∧ Shared g e cs) B averageOne (fun cs hcs l hl => ?_) _ ⟨h1i, h1⟩).2
  have hlm : l ∈ A ++ ringList g e :: B := List.mem_append_right _ (List.mem_cons_of_mem _ hl)
  refine ⟨averageOne_inv hcs.1 l (hgood l hlm), ?_⟩
  rcases hall l hlm with rfl | hne
  · exact averageOne_own hcs.1 e hs
  · intro c m c' m' hc hm hcm hc' hm' hcm'
    rw [averageOne_other _ _ _ _ (fun hin => hne _ hin c m hc hm hcm rfl), averageOne_other _ _ _ _ (fun hin => hne _ hin c' m' hc' hm' hcm' rfl)]
    exact hcs.2 c m c' m' hc hm hcm hc' hm' hcm'

theorem updateOne_shared (pca : List (Pt 3) → Pt 3) (wn wp : ℝ) (e : GEdge) (he : g.Inner e) (l : List (ℕ × Option ℕ))
    (hl : l = ringList g e ∨ ∀ s ∈ l, ∀ c m, g.Cell c → m < 12 → cellEdge c m = e → s ≠ (cellNo g c, some m)) (h : Shared g e cells) : Shared g e (updateOne pca wn wp cells l) := by
  have key : ∀ n : Pt 3, Shared g e (l.foldl (blendNormal wn n) cells) := by
    intro n c m c' m' hc hm hcm hc' hm' hcm'
    have hh := h c m c' m' hc hm hcm hc' hm' hcm'
    rcases hl with rfl | hne
    · have hnd : ((ringList g e).map Prod.fst).Nodup := by
        unfold ringList
        rw [List.map_map]
        exact ringSlots_nodup g e he
      rw [nrmAt_blends _ _ _ _ _ hnd, nrmAt_blends _ _ _ _ _ hnd, if_pos (mem_ring hm hcm), if_pos (mem_ring hm' hcm'), hh]
    · rw [nrmAt_blends_not _ _ _ _ _ (fun hin => hne _ hin c m hc hm hcm rfl), nrmAt_blends_not _ _ _ _ _ (fun hin => hne _ hin c' m' hc' hm' hcm' rfl), hh]
  unfold updateOne
  split
  · split
    · exact h
    · simp only
      split
      · exact key _
      · intro c m c' m' hc hm hcm hc' hm' hcm'
        rw [nrmAt_blendPos, nrmAt_blendPos]
        exact key _ c m c' m' hc hm hcm hc' hm' hcm'
  · exact h

theorem updateHermite_shared (pca : List (Pt 3) → Pt 3) (wn wp : ℝ) (hi : Inv P g cells) (e : GEdge) (he : g.Inner e) (hs : g.Changes e) (h3 : 3 ≤ g.num e.ax) (h : Shared g e cells) :
    Shared g e (updateHermite pca wn wp g cells) :=
  foldl_inv (Shared g e) _ _ (fun _ hcs l hl => updateOne_shared pca wn wp e he l ((edgeCells_spec hi e he hs h3).2 l hl) hcs) _ h

/-! ### runs -/

/-- the normals are unchanged -/
def SameNrm (b c : Cell) : Prop := c.nrm = b.nrm

theorem Shared.of_same {e : GEdge} {cs : List Cell} (h : Shared g e cells) (hr : Rel SameNrm cells cs) : Shared g e cs := by
  have key : ∀ i m, nrmAt cs i m = nrmAt cells i m := by
    intro i m
    unfold nrmAt
    cases hx : cells[i]? with
    | none =>
      have : cs[i]? = none := by
        rw [List.getElem?_eq_none_iff] at hx ⊢
        rw [hr.1]; exact hx
      rw [this]
    | some x =>
      obtain ⟨y, hy, e⟩ := hr.get hx
      rw [hy, Option.map_some, Option.map_some, e]
  intro c m c' m' hc hm hcm hc' hm' hcm'
  rw [key, key]
  exact h c m c' m' hc hm hcm hc' hm' hcm'

theorem innerLoop_nrm (svd : Svd) (query : List (Pt 3 × Pt 3 × Pt 3) → Pt 3 → ℕ × Pt 3) (mu dc th : ℝ) (n : ℕ) : ∀ x, (innerLoop svd query mu dc th n x).nrm = x.nrm := by
  induction n with
  | zero => exact fun _ => rfl
  | succ n ih =>
    intro x
    have h1 : (refineVertex query { x with prev := x.vertex }).nrm = x.nrm := by
      unfold refineVertex
      split_ifs <;> rfl
    have h2 : (if (refineVertex query { x with prev := x.vertex }).infos = [] then refineVertex query { x with prev := x.vertex }
        else minimizeQef svd mu dc 1 th (refineVertex query { x with prev := x.vertex })).nrm = x.nrm := by
      split_ifs
      · exact h1
      · exact h1
    simp only [innerLoop]
    split_ifs at h2 ⊢
    · exact h2
    · exact (ih _).trans h2
    · exact h2
    · exact (ih _).trans h2

theorem assignSpheres_nrm (shuffle : List ℕ → List ℕ) (sort : List Sphere → List Sphere) (closest : List (Pt 3) → List (ℕ × ℕ × ℕ) → Pt 3 → ℝ × Pt 3) (V : List (Pt 3)) (F : List Quad) (size : ℕ) :
    Rel SameNrm cells (assignSpheres shuffle sort closest g V F size cells) := by
  unfold assignSpheres
  split_ifs
  · exact Rel.refl (R := SameNrm) (fun _ => rfl) _
  · simp only
    refine ⟨by simp, fun n b x hb hx => ?_⟩
    rw [List.getElem?_map, List.getElem?_zipIdx, hb] at hx
    simp only [Option.map_some, Option.some.injEq] at hx
    rw [← hx]
    rfl

theorem reached_shared {x : Ext} {o : Options} {n : ℕ} (h : Reached x o g n cells) (e : GEdge) (he : g.Inner e) (hs : g.Changes e) (h3 : 3 ≤ g.num e.ax) : Shared g e cells := by
  induction h with
  | start =>
    have h1 : Inv (fun _ _ _ => True) g ((averageNormals g (generateCells g)).map (update x.svd)) := update_inv x.svd (averageNormals_inv (gen_inv (fun _ _ _ _ _ => trivial)))
    refine Shared.of_same (averageNormals_shared h1 e he hs h3) ?_
    refine Rel.map (Rel.refl (R := SameNrm) (fun _ => rfl) _) _ (fun n b c _ _ hs => ?_)
    split_ifs <;> exact hs
  | step V F hr ih =>
    rename_i n cells
    have i0 := reached_inv hr
    have i1 := assignSpheres_inv (x.shuffle n) x.sort x.closest V F o.batch i0
    have i2 := faceIntersections_inv o.faceWeight i1
    have s1 := ih.of_same (assignSpheres_nrm (x.shuffle n) x.sort x.closest V F o.batch (g := g))
    have s2 : Shared g e (faceIntersections g o.faceWeight (assignSpheres (x.shuffle n) x.sort x.closest g V F o.batch cells)) := by
      refine s1.of_same ?_
      unfold faceIntersections
      refine Rel.map (Rel.refl (R := SameNrm) (fun _ => rfl) _) _ (fun n b c _ _ hs => ?_)
      split_ifs <;> exact hs
    unfold outerCells
    simp only
    have s3 : Shared g e (if o.hermite ∧ 0 < n then updateHermite x.pca o.normalWeight o.posWeight g (faceIntersections g o.faceWeight (assignSpheres (x.shuffle n) x.sort x.closest g V F o.batch cells))
        else faceIntersections g o.faceWeight (assignSpheres (x.shuffle n) x.sort x.closest g V F o.batch cells)) := by
      split_ifs
      · exact updateHermite_shared _ _ _ i2 e he hs h3 s2
      · exact s2
    refine s3.of_same ?_
    refine Rel.map (Rel.refl (R := SameNrm) (fun _ => rfl) _) _ (fun n b c _ _ hs => ?_)
    split_ifs
    · exact (innerLoop_nrm _ _ _ _ _ _ _).trans hs
    · exact hs

/-! ### unit normals -/

/-- all normals are unit vectors or zero -/
def Unit' (cells : List Cell) : Prop := ∀ c ∈ cells, ∀ m n, c.nrm m = some n → psq n = 1 ∨ n = 0

theorem normalized_unit (v : Pt 3) : psq (normalized v) = 1 ∨ normalized v = 0 := by
  unfold normalized
  split_ifs with h
  · left
    have hp : pnorm v * pnorm v = psq v := pnorm_mul_self v
    rw [show psq ((1 / pnorm v) • v) = (1 / pnorm v) ^ 2 * psq v by simp only [psq3, Pi.smul_apply, smul_eq_mul]; ring, ← hp]
    have h0 : pnorm v ≠ 0 := by
      intro h0
      rw [h0] at hp
      linarith
    field_simp
  · right
    have h0 : psq v = 0 := le_antisymm (not_lt.mp h) (psq_nn v)
    funext i
    have := (Finset.sum_eq_zero_iff_of_nonneg (fun i _ => sq_nonneg (v i))).mp h0 i (Finset.mem_univ i)
    exact pow_eq_zero_iff (two_ne_zero) |>.mp this

theorem Unit'.modify (h : Unit' cells) (i : ℕ) (f : Cell → Cell) (hf : ∀ c, (∀ m n, c.nrm m = some n → psq n = 1 ∨ n = 0) → ∀ m n, (f c).nrm m = some n → psq n = 1 ∨ n = 0) : Unit' (cells.modify i f) := by
  intro c hc
  obtain ⟨k, hk⟩ := List.mem_iff_getElem?.mp hc
  rw [List.getElem?_modify] at hk
  cases hx : cells[k]? with
  | none => rw [hx] at hk; simp at hk
  | some x =>
    rw [hx] at hk
    have hu := h x (List.mem_of_getElem? hx)
    split_ifs at hk
    · cases hk; exact hf x hu
    · cases hk; exact hu

theorem update_unit {c : Cell} (h : ∀ m n, c.nrm m = some n → psq n = 1 ∨ n = 0) (e : ℕ) (v : Pt 3) : ∀ m n, (Function.update c.nrm e (some (normalized v))) m = some n → psq n = 1 ∨ n = 0 := by
  intro m n hn
  by_cases hm : m = e
  · subst hm
    rw [Function.update_self, Option.some.injEq] at hn
    rw [← hn]
    exact normalized_unit v
  · rw [Function.update_of_ne hm] at hn
    exact h m n hn

theorem averageNormals_unit (h : Unit' cells) : Unit' (averageNormals g cells) := by
  unfold averageNormals
  refine foldl_inv Unit' _ _ (fun cs hcs l _ => ?_) _ h
  unfold averageOne
  split_ifs
  · exact hcs
  · refine foldl_inv Unit' _ _ (fun cs hcs s _ => ?_) _ hcs
    unfold setNormal
    split
    · exact hcs
    · exact hcs.modify _ _ (fun c hc => update_unit hc _ _)

theorem updateHermite_unit (pca : List (Pt 3) → Pt 3) (wn wp : ℝ) (h : Unit' cells) : Unit' (updateHermite pca wn wp g cells) := by
  unfold updateHermite
  refine foldl_inv Unit' _ _ (fun cs hcs l _ => ?_) _ h
  have hbn : ∀ (n : Pt 3) (ds : List Cell), Unit' ds → Unit' (l.foldl (blendNormal wn n) ds) := by
    intro n ds hds
    refine foldl_inv Unit' _ _ (fun es hes s _ => ?_) _ hds
    unfold blendNormal
    split
    · exact hes
    · refine hes.modify _ _ (fun c hc => ?_)
      split
      · exact hc
      · split_ifs
        · exact update_unit hc _ _
        · exact hc
  have hbp : ∀ (y : Pt 3) (ds : List Cell), Unit' ds → Unit' (l.foldl (blendPos wp y) ds) := by
    intro y ds hds
    refine foldl_inv Unit' _ _ (fun es hes s _ => ?_) _ hds
    unfold blendPos
    split
    · exact hes
    · exact hes.modify _ _ (fun c hc => hc)
  unfold updateOne
  split
  · split
    · exact hcs
    · simp only
      split
      · exact hbn _ _ hcs
      · exact hbp _ _ (hbn _ _ hcs)
  · exact hcs

theorem Unit'.of_same {cs : List Cell} (h : Unit' cells) (hr : Rel SameNrm cells cs) : Unit' cs := by
  intro c hc m n hn
  obtain ⟨k, hk⟩ := List.mem_iff_getElem?.mp hc
  obtain ⟨b, hb, e⟩ := hr.get' hk
  rw [e] at hn
  exact h b (List.mem_of_getElem? hb) m n hn

theorem gen_unit : Unit' (generateCells g) := by
  intro c hc m n hn
  unfold generateCells at hc
  simp only [List.mem_flatMap, List.mem_map] at hc
  obtain ⟨k, -, j, -, i, -, rfl⟩ := hc
  unfold genCell fillHermite at hn
  split_ifs at hn
  · simp only at hn
    split_ifs at hn
    rw [Option.some.injEq] at hn
    rw [← hn]
    exact normalized_unit _

theorem reached_unit {x : Ext} {o : Options} {n : ℕ} (h : Reached x o g n cells) : Unit' cells := by
  induction h with
  | start =>
    have h2 : Unit' ((averageNormals g (generateCells g)).map (update x.svd)) := by
      refine (averageNormals_unit gen_unit).of_same (Rel.map (Rel.refl (R := SameNrm) (fun _ => rfl) _) _ (fun n b c _ _ hs => ?_))
      unfold update
      split_ifs <;> exact hs
    refine (averageNormals_unit h2).of_same (Rel.map (Rel.refl (R := SameNrm) (fun _ => rfl) _) _ (fun n b c _ _ hs => ?_))
    split_ifs <;> exact hs
  | step V F hr ih =>
    rename_i n cells
    have s1 := ih.of_same (assignSpheres_nrm (x.shuffle n) x.sort x.closest V F o.batch (g := g))
    have s2 : Unit' (faceIntersections g o.faceWeight (assignSpheres (x.shuffle n) x.sort x.closest g V F o.batch cells)) := by
      refine s1.of_same ?_
      unfold faceIntersections
      refine Rel.map (Rel.refl (R := SameNrm) (fun _ => rfl) _) _ (fun n b c _ _ hs => ?_)
      split_ifs <;> exact hs
    unfold outerCells
    simp only
    have s3 : Unit' (if o.hermite ∧ 0 < n then updateHermite x.pca o.normalWeight o.posWeight g (faceIntersections g o.faceWeight (assignSpheres (x.shuffle n) x.sort x.closest g V F o.batch cells))
        else faceIntersections g o.faceWeight (assignSpheres (x.shuffle n) x.sort x.closest g V F o.batch cells)) := by
      split_ifs
      · exact updateHermite_unit _ _ _ s2
      · exact s2
    refine s3.of_same ?_
    refine Rel.map (Rel.refl (R := SameNrm) (fun _ => rfl) _) _ (fun n b c _ _ hs => ?_)
    split_ifs
    · exact (innerLoop_nrm _ _ _ _ _ _ _).trans hs
    · exact hs

/-- **C127** (one normal).  In every run on a grid with three or more vertices along the axis of an inner edge with a sign change, after every outer iteration, all cells with this edge store the same normal for it,
a unit vector or zero. -/
theorem C127_shared {x : Ext} {o : Options} {n : ℕ} (h : Reached x o g n cells) (e : GEdge) (he : g.Inner e) (hs : g.Changes e) (h3 : 3 ≤ g.num e.ax) :
    ∃ v : Pt 3, (psq v = 1 ∨ v = 0) ∧ ∀ c m, g.Cell c → m < 12 → cellEdge c m = e → ∃ y, cells[cellNo g c]? = some y ∧ y.nrm m = some v := by
  have sp := ringSlots_spec g e he
  obtain ⟨s0, hs0⟩ : ∃ s, s ∈ ringSlots e := by
    obtain ⟨ax, w⟩ := e
    fin_cases ax
    · exact ⟨_, .head _⟩
    · exact ⟨_, .head _⟩
    · exact ⟨_, .head _⟩
  obtain ⟨c1, c2, c3⟩ := sp s0 hs0
  obtain ⟨y0, v, hy0, hv⟩ := slot_some (reached_inv h) hs c1 c2 c3
  refine ⟨v, reached_unit h y0 (List.mem_of_getElem? hy0) _ _ hv, fun c m hc hm hcm => ?_⟩
  obtain ⟨y, v', hy, hv'⟩ := slot_some (reached_inv h) hs hc hm hcm
  have := reached_shared h e he hs h3 c m s0.1 s0.2 hc hm hcm c1 c2 c3
  unfold nrmAt at this
  rw [hy, hy0, Option.map_some, Option.map_some, hv, hv'] at this
  exact ⟨y, hy, by rw [hv']; exact Option.some.inj this⟩

/-! ### the average -/

/-- the edges from one vertex -/
def edgesFrom (g : Grid) (i j k : ℕ) : List (Ijk × Ijk) := (if i < g.nx - 1 then [((i, j, k), (i + 1, j, k))] else []) ++ (if j < g.ny - 1 then [((i, j, k), (i, j + 1, k))] else []) ++
      (if k < g.nz - 1 then [((i, j, k), (i, j, k + 1))] else [])

theorem edgesFrom_fst (i j k : ℕ) (p : Ijk × Ijk) (hp : p ∈ edgesFrom g i j k) : p.1 = (i, j, k) := by
  unfold edgesFrom at hp
  simp only [List.mem_append] at hp
  rcases hp with (h | h) | h <;> split_ifs at h <;> simp at h <;> rw [h]

theorem allEdges_nodup : (allEdges g).Nodup := by
  have : allEdges g = (List.range g.nz).flatMap (fun k => (List.range g.ny).flatMap (fun j => (List.range g.nx).flatMap (fun i => edgesFrom g i j k))) := rfl
  rw [this]
  refine List.nodup_flatMap.mpr ⟨fun k _ => List.nodup_flatMap.mpr ⟨fun j _ => List.nodup_flatMap.mpr ⟨fun i _ => ?_, ?_⟩, ?_⟩, ?_⟩
  · unfold edgesFrom
    split_ifs <;> simp
  · refine List.nodup_range.imp (fun {a b} hab => ?_)
    intro p hp hp'
    have := (edgesFrom_fst _ _ _ p hp).symm.trans (edgesFrom_fst _ _ _ p hp')
    simp at this
    exact hab this
  · refine List.nodup_range.imp (fun {a b} hab => ?_)
    intro p hp hp'
    obtain ⟨i, -, hp⟩ := List.mem_flatMap.mp hp
    obtain ⟨i', -, hp'⟩ := List.mem_flatMap.mp hp'
    have := (edgesFrom_fst _ _ _ p hp).symm.trans (edgesFrom_fst _ _ _ p hp')
    simp at this
    exact hab this.2
  · refine List.nodup_range.imp (fun {a b} hab => ?_)
    intro p hp hp'
    obtain ⟨j, -, hp⟩ := List.mem_flatMap.mp hp
    obtain ⟨j', -, hp'⟩ := List.mem_flatMap.mp hp'
    obtain ⟨i, -, hp⟩ := List.mem_flatMap.mp hp
    obtain ⟨i', -, hp'⟩ := List.mem_flatMap.mp hp'
    have := (edgesFrom_fst _ _ _ p hp).symm.trans (edgesFrom_fst _ _ _ p hp')
    simp at this
    exact hab this.2.2

/-- the list of `e` is there once -/
theorem edgeCells_split (h : Inv P g cells) (e : GEdge) (he : g.Inner e) (hs : g.Changes e) (h3 : 3 ≤ g.num e.ax) : ∃ A B, edgeCells g cells = A ++ ringList g e :: B ∧
    ∀ l, l ∈ A ∨ l ∈ B → ∀ c m, g.Cell c → m < 12 → cellEdge c m = e → (cellNo g c, some m) ∉ l := by
  obtain ⟨A, B, hAB⟩ := List.append_of_mem (mem_allEdges e he)
  have hnd := allEdges_nodup (g := g)
  rw [hAB, List.nodup_append] at hnd
  obtain ⟨-, hB, hA⟩ := hnd
  rw [List.nodup_cons] at hB
  have hA' : (e.v, up e.ax e.v) ∉ A := fun hin => hA _ hin _ List.mem_cons_self rfl
  refine ⟨A.filterMap (fun p => processEdge g cells p.1 p.2), B.filterMap (fun p => processEdge g cells p.1 p.2), ?_, ?_⟩
  · unfold edgeCells
    rw [hAB, List.filterMap_append, List.filterMap_cons_some (f := fun p : Ijk × Ijk => processEdge g cells p.1 p.2) (a := (e.v, up e.ax e.v)) (processEdge_ring h e he hs h3)]
  · intro l hl c m hc hm hcm hin
    have : ∃ p, p ∈ allEdges g ∧ p ≠ (e.v, up e.ax e.v) ∧ processEdge g cells p.1 p.2 = some l := by
      rcases hl with hl | hl <;> obtain ⟨p, hp, hpl⟩ := List.mem_filterMap.mp hl
      · exact ⟨p, by rw [hAB]; exact List.mem_append_left _ hp, fun e => hA' (e ▸ hp), hpl⟩
      · exact ⟨p, by rw [hAB]; exact List.mem_append_right _ (List.mem_cons_of_mem _ hp), fun e => hB.1 (e ▸ hp), hpl⟩
    obtain ⟨p, hp, hne, hpl⟩ := this
    obtain ⟨e', rfl⟩ := allEdges_edge p hp
    obtain ⟨c', hc', hn, -, hce, -⟩ := slot_edge (processEdge_slots h _ _ l hpl _ hin m rfl)
    have : c = c' := cellNo_inj g c c' hc hc' hn
    subst this
    rw [← hce, hcm] at hne
    exact hne rfl

theorem fold_other (i m : ℕ) : ∀ (A : List (List (ℕ × Option ℕ))) (cs : List Cell), (∀ l ∈ A, (i, some m) ∉ l) → nrmAt (A.foldl averageOne cs) i m = nrmAt cs i m := by
  intro A
  induction A with
  | nil => intro cs _; rfl
  | cons l A ih =>
    intro cs h
    rw [List.foldl_cons, ih _ (fun l hl => h l (List.mem_cons_of_mem _ hl)), averageOne_other _ _ _ _ (h l List.mem_cons_self)]

/-- the normal of edge `m` of cell `c` (0 if there is none) -/
def normalAt (g : Grid) (cells : List Cell) (s : Ijk × ℕ) : Pt 3 := ((nrmAt cells (cellNo g s.1) s.2).getD none).getD 0

theorem zero_of_not_pos {v : Pt 3} (h : ¬ 0 < pnorm v) : v = 0 := by
  have h0 : psq v = 0 := le_antisymm (Real.sqrt_eq_zero'.mp (le_antisymm (not_lt.mp h) (Real.sqrt_nonneg _))) (psq_nn v)
  funext i
  have := (Finset.sum_eq_zero_iff_of_nonneg (fun i _ => sq_nonneg (v i))).mp h0 i (Finset.mem_univ i)
  exact pow_eq_zero_iff (two_ne_zero) |>.mp this

theorem normalized_zero : normalized 0 = 0 := by
  unfold normalized
  split_ifs
  · rw [smul_zero]
  · rfl

theorem sum_nonzero (g : Grid) (cs : List Cell) : ∀ L : List (Ijk × ℕ), (∀ s ∈ L, ∃ x, cs[cellNo g s.1]? = some x) →
    (normalsOf cs (L.map (fun s => (cellNo g s.1, some s.2)))).sum = (L.map (normalAt g cs)).sum := by
  intro L
  induction L with
  | nil => intro _; rfl
  | cons s L ih =>
    intro h
    obtain ⟨x, hx⟩ := h s List.mem_cons_self
    have e : normalAt g cs s = (x.nrm s.2).getD 0 := by
      unfold normalAt nrmAt
      rw [hx]
      rfl
    rw [List.map_cons, List.map_cons, List.sum_cons, ← ih (fun s hs => h s (List.mem_cons_of_mem _ hs))]
    unfold normalsOf
    rw [List.filterMap_cons]
    simp only [hx, e]
    split_ifs with hp
    · rw [List.sum_cons]
    · rw [zero_of_not_pos hp, zero_add]

/-- **C127** (average).  Averaging replaces the normals that the cells with an edge have for it by the normalised sum of these, one for each cell. -/
theorem C127_average (h : Inv P g cells) (e : GEdge) (he : g.Inner e) (hs : g.Changes e) (h3 : 3 ≤ g.num e.ax) : ∃ L : List (Ijk × ℕ), L.Nodup ∧ L.length = 4 ∧
    (∀ s, s ∈ L ↔ g.Cell s.1 ∧ s.2 < 12 ∧ cellEdge s.1 s.2 = e) ∧
    ∀ s ∈ L, ∃ y, (averageNormals g cells)[cellNo g s.1]? = some y ∧ y.nrm s.2 = some (normalized (L.map (normalAt g cells)).sum) := by
  have sp := ringSlots_spec g e he
  refine ⟨ringSlots e, ?_, ?_, fun s => ⟨fun hs => sp s hs, fun hs => ringSlots_complete e s.1 s.2 hs.2.1 hs.2.2⟩, ?_⟩
  · have := ringSlots_nodup g e he
    exact List.Nodup.of_map _ this
  · obtain ⟨ax, w⟩ := e
    fin_cases ax <;> rfl
  intro s hsl
  obtain ⟨c1, c2, c3⟩ := sp s hsl
  obtain ⟨A, B, hAB, hoth⟩ := edgeCells_split h e he hs h3
  have hgood := edgeCells_good h
  have hA : Inv P g (A.foldl averageOne cells) := by
    refine foldl_inv (Inv P g) _ _ (fun cs hcs l hl => averageOne_inv hcs l (hgood l ?_)) _ h
    rw [hAB]
    exact List.mem_append_left _ hl
  have hsame : ∀ t ∈ ringSlots e, normalAt g (A.foldl averageOne cells) t = normalAt g cells t := by
    intro t ht
    obtain ⟨d1, d2, d3⟩ := sp t ht
    unfold normalAt
    rw [fold_other _ _ _ _ (fun l hl => hoth l (Or.inl hl) _ _ d1 d2 d3)]
  have hsum := sum_nonzero g (A.foldl averageOne cells) (ringSlots e) (fun t ht => by
    obtain ⟨x, -, hx, -⟩ := slot_some hA hs (sp t ht).1 (sp t ht).2.1 (sp t ht).2.2
    exact ⟨x, hx⟩)
  rw [List.map_congr_left hsame] at hsum
  have hval : nrmAt (averageNormals g cells) (cellNo g s.1) s.2 = some (some (normalized ((ringSlots e).map (normalAt g cells)).sum)) := by
    unfold averageNormals
    rw [hAB, List.foldl_append, List.foldl_cons, fold_other _ _ _ _ (fun l hl => hoth l (Or.inr hl) _ _ c1 c2 c3)]
    obtain ⟨x, n, hx, hn⟩ := slot_some hA hs c1 c2 c3
    generalize A.foldl averageOne cells = cs at hsum hx
    unfold averageOne
    split_ifs with hns
    · have hns' := hns
      unfold ringList at hns
      rw [hns, List.sum_nil] at hsum
      rw [← hsum, normalized_zero]
      unfold normalsOf at hns'
      rw [List.filterMap_eq_nil_iff] at hns'
      have := hns' _ (mem_ring (g := g) c2 c3)
      simp only [hx, hn, Option.getD_some] at this
      have hp : ¬ 0 < pnorm n := by
        intro hp
        rw [if_pos hp] at this
        exact absurd this (by simp)
      unfold nrmAt
      rw [hx, Option.map_some, hn, zero_of_not_pos hp]
    · rw [nrmAt_sets, if_pos (mem_ring (g := g) c2 c3)]
      unfold ringList
      rw [hsum]
      unfold nrmAt
      rw [hx]
      rfl
  unfold nrmAt at hval
  rw [Option.map_eq_some_iff] at hval
  exact hval

/-! ### the update -/

/-- the contract of the last column of `V` of the singular value decomposition: a unit vector to which the vectors are closest to perpendicular -/
def IsPca (pca : List (Pt 3) → Pt 3) : Prop := ∀ l, psq (pca l) = 1 ∧ ∀ v, psq v = 1 → (l.map (fun d => pdot (pca l) d ^ 2)).sum ≤ (l.map (fun d => pdot v d ^ 2)).sum

/-- vertices, corners and samples are unchanged -/
def SameGeo (b c : Cell) : Prop := c.vertex = b.vertex ∧ c.corners = b.corners ∧ c.sdf = b.sdf

theorem blends_geo (w : ℝ) (n : Pt 3) (l : List (ℕ × Option ℕ)) (cs : List Cell) (h : Rel SameGeo cells cs) : Rel SameGeo cells (l.foldl (blendNormal w n) cs) := by
  refine foldl_inv (Rel SameGeo cells) _ _ (fun es hes s _ => ?_) _ h
  unfold blendNormal
  split
  · exact hes
  · refine Rel.modify hes _ _ (fun b c _ _ hs => ?_)
    split
    · exact hs
    · split_ifs
      · exact hs
      · exact hs

theorem blendPos_geo (w : ℝ) (y : Pt 3) (l : List (ℕ × Option ℕ)) (cs : List Cell) (h : Rel SameGeo cells cs) : Rel SameGeo cells (l.foldl (blendPos w y) cs) := by
  refine foldl_inv (Rel SameGeo cells) _ _ (fun es hes s _ => ?_) _ h
  unfold blendPos
  split
  · exact hes
  · exact Rel.modify hes _ _ (fun b c _ _ hs => hs)

theorem updateOne_geo (pca : List (Pt 3) → Pt 3) (wn wp : ℝ) (l : List (ℕ × Option ℕ)) (cs : List Cell) (h : Rel SameGeo cells cs) : Rel SameGeo cells (updateOne pca wn wp cs l) := by
  unfold updateOne
  split
  · split
    · exact h
    · simp only
      split
      · exact blends_geo _ _ _ _ h
      · exact blendPos_geo _ _ _ _ (blends_geo _ _ _ _ h)
  · exact h

theorem updateOne_other (pca : List (Pt 3) → Pt 3) (wn wp : ℝ) (l : List (ℕ × Option ℕ)) (cs : List Cell) (i m : ℕ) (h : (i, some m) ∉ l) : nrmAt (updateOne pca wn wp cs l) i m = nrmAt cs i m := by
  unfold updateOne
  split
  · split
    · rfl
    · simp only
      split
      · exact nrmAt_blends_not _ _ _ _ _ h _
      · rw [nrmAt_blendPos]
        exact nrmAt_blends_not _ _ _ _ _ h _
  · rfl

theorem fold_update_other (pca : List (Pt 3) → Pt 3) (wn wp : ℝ) (i m : ℕ) : ∀ (A : List (List (ℕ × Option ℕ))) (cs : List Cell), (∀ l ∈ A, (i, some m) ∉ l) →
    nrmAt (A.foldl (updateOne pca wn wp) cs) i m = nrmAt cs i m := by
  intro A
  induction A with
  | nil => intro cs _; rfl
  | cons l A ih =>
    intro cs h
    rw [List.foldl_cons, ih _ (fun l hl => h l (List.mem_cons_of_mem _ hl)), updateOne_other _ _ _ _ _ _ _ (h l List.mem_cons_self)]

/-- the vertex of a cell -/
def vertexAt (g : Grid) (cells : List Cell) (c : Ijk) : Pt 3 := vertexOf cells (cellNo g c)

theorem pdot_neg3 (u v : Pt 3) : pdot (-u) v = -pdot u v := by simp only [pdot3, Pi.neg_apply]; ring

theorem normalized_of_unit {v : Pt 3} (h : psq v = 1) : normalized v = v := by
  unfold normalized pnorm
  rw [h, if_pos (by norm_num)]
  simp

theorem normalized_scale (w : Pt 3) : ∃ k : ℝ, 0 < k ∧ normalized w = k • w := by
  unfold normalized
  split_ifs with h
  · exact ⟨1 / pnorm w, div_pos one_pos (Real.sqrt_pos.mpr h), rfl⟩
  · exact ⟨1, one_pos, (one_smul _ _).symm⟩

/-- the direction of a plane: out of the surface -/
theorem outward (q w : Pt 3) (s t : ℝ) (hst : s < 0 ∧ 0 < t ∨ 0 < s ∧ t < 0) :
    let dir := (if s < 0 then (-1 : ℝ) else 1) • normalized w
    let n := if 0 < pdot q dir then -q else q
    (s < 0 → 0 ≤ pdot n w) ∧ (0 < s → pdot n w ≤ 0) := by
  obtain ⟨k, hk, e⟩ := normalized_scale w
  have hp : ∀ (u : Pt 3) (a : ℝ), pdot u (a • k • w) = a * k * pdot u w := by
    intro u a
    simp only [pdot3, Pi.smul_apply, smul_eq_mul]
    ring
  simp only
  rw [e, hp]
  have key : ∀ x : ℝ, 0 < k * x ↔ 0 < x := fun x => by constructor <;> intro h <;> nlinarith
  rcases hst with ⟨h1, -⟩ | ⟨h1, -⟩
  · rw [if_pos h1]
    refine ⟨fun _ => ?_, fun h => absurd h (not_lt.mpr h1.le)⟩
    split_ifs with h2
    · rw [pdot_neg3]
      nlinarith
    · nlinarith
  · rw [if_neg (not_lt.mpr h1.le)]
    refine ⟨fun h => absurd h (not_lt.mpr h1.le), fun _ => ?_⟩
    split_ifs with h2
    · rw [pdot_neg3]
      nlinarith
    · nlinarith

/-- what the plane of an edge is -/
theorem edgePlane_spec {pca : List (Pt 3) → Pt 3} (hpca : IsPca pca) (e : GEdge) (hs : g.Changes e) (L : List (Ijk × ℕ)) (c0 : Cell) (c : Ijk) (m : ℕ)
    (hm : m < 12) (hcm : cellEdge c m = e) (hcor : c0.corners = (gen g c).corners) (hsdf : c0.sdf = (gen g c).sdf) :
    let n := (edgePlane pca cells (L.map (fun s => (cellNo g s.1, some s.2))) c0 m).1
    let mid := (1 / 4 : ℝ) • (L.map (fun s => vertexAt g cells s.1)).sum
    psq n = 1 ∧ (∀ v, psq v = 1 → (L.map (fun s => pdot n (vertexAt g cells s.1 - mid) ^ 2)).sum ≤ (L.map (fun s => pdot v (vertexAt g cells s.1 - mid) ^ 2)).sum) ∧
    (g.at e.v < 0 → 0 ≤ pdot n (g.pos (up e.ax e.v) - g.pos e.v)) ∧ (0 < g.at e.v → pdot n (g.pos (up e.ax e.v) - g.pos e.v) ≤ 0) := by
  have hvs : (L.map (fun s => ((cellNo g s.1, some s.2) : ℕ × Option ℕ))).map (fun s => vertexOf cells s.1) = L.map (fun s => vertexAt g cells s.1) := by
    rw [List.map_map]
    rfl
  obtain ⟨-, -, -, bs, bx⟩ := gen_basic g c
  intro n mid
  have hn : n = if 0 < pdot (pca ((L.map (fun s => vertexAt g cells s.1)).map (fun v => v - mid))) ((if c0.sdf (endA m) < 0 then (-1 : ℝ) else 1) • normalized (c0.corners (endB m) - c0.corners (endA m)))
      then -(pca ((L.map (fun s => vertexAt g cells s.1)).map (fun v => v - mid))) else pca ((L.map (fun s => vertexAt g cells s.1)).map (fun v => v - mid)) := by
    show (edgePlane pca cells (L.map (fun s => (cellNo g s.1, some s.2))) c0 m).1 = _
    unfold edgePlane
    simp only
    rw [hvs, normalized_of_unit (hpca _).1]
    rfl
  generalize hq : pca ((L.map (fun s => vertexAt g cells s.1)).map (fun v => v - mid)) = q at hn
  have hqu : psq q = 1 := by rw [← hq]; exact (hpca _).1
  have hqm := (hpca ((L.map (fun s => vertexAt g cells s.1)).map (fun v => v - mid))).2
  rw [hq] at hqm
  simp only [List.map_map, Function.comp_def] at hqm
  have hsq : n = q ∨ n = -q := by
    rw [hn]
    split_ifs <;> simp
  refine ⟨?_, ?_, ?_⟩
  · rcases hsq with e | e <;> rw [e]
    · exact hqu
    · rw [psq_neg3, hqu]
  · intro v hv
    have := hqm v hv
    rcases hsq with e | e <;> rw [e]
    · exact this
    · simp only [pdot_neg3, neg_sq]
      exact this
  · rcases cellEdge_ends c m hm with ⟨p, q'⟩ | ⟨p, q'⟩ <;> rw [hcm] at p q' <;> rw [hcor, hsdf, bx, bs] at hn <;> simp only [bx, p, q'] at hn
    · have := outward q (g.pos (up e.ax e.v) - g.pos e.v) (g.at e.v) (g.at (up e.ax e.v)) hs
      simp only at this
      rw [hn]
      exact this
    · have := outward q (g.pos e.v - g.pos (up e.ax e.v)) (g.at (up e.ax e.v)) (g.at e.v) (by rcases hs with h | h <;> tauto)
      simp only at this
      have hflip : ∀ u : Pt 3, pdot u (g.pos e.v - g.pos (up e.ax e.v)) = -pdot u (g.pos (up e.ax e.v) - g.pos e.v) := by
        intro u
        simp only [pdot3, Pi.sub_apply]
        ring
      rw [hn]
      constructor
      · intro h1
        have h2 : 0 < g.at (up e.ax e.v) := by rcases hs with h | h <;> linarith [h.1, h.2]
        have := this.2 h2
        rw [hflip] at this
        exact neg_nonpos.mp this
      · intro h1
        have h2 : g.at (up e.ax e.v) < 0 := by rcases hs with h | h <;> linarith [h.1, h.2]
        have := this.1 h2
        rw [hflip] at this
        exact neg_nonneg.mp this

theorem edgePlane_geo {cs : List Cell} (h : Rel SameGeo cells cs) (pca : List (Pt 3) → Pt 3) (l : List (ℕ × Option ℕ)) (c0 c0' : Cell) (h0 : SameGeo c0 c0') (m : ℕ) :
    edgePlane pca cs l c0' m = edgePlane pca cells l c0 m := by
  have hv : ∀ n, vertexOf cs n = vertexOf cells n := by
    intro n
    unfold vertexOf
    cases hx : cells[n]? with
    | none =>
      have : cs[n]? = none := by
        rw [List.getElem?_eq_none_iff] at hx ⊢
        rw [h.1]; exact hx
      rw [this]
    | some x =>
      obtain ⟨y, hy, e⟩ := h.get hx
      rw [hy]
      exact e.1
  unfold edgePlane
  simp only [hv, h0.2.1, h0.2.2]

theorem ring_head (g : Grid) (e : GEdge) : ∃ s ∈ ringSlots e, (ringList g e).head? = some (cellNo g s.1, some s.2) := by
  obtain ⟨ax, w⟩ := e
  fin_cases ax
  · exact ⟨_, .head _, rfl⟩
  · exact ⟨_, .head _, rfl⟩
  · exact ⟨_, .head _, rfl⟩

/-- **C127** (update).  An update of the Hermite data blends the normals that the cells with an edge have for it with one unit vector `n`: the normal of the plane that fits the vertices of these cells best, pointing out of
the surface (from the end of the edge with the negative sample to the other one). -/
theorem C127_update {pca : List (Pt 3) → Pt 3} (hpca : IsPca pca) (wn wp : ℝ) (hw : Closed P wp) (h : Inv P g cells) (e : GEdge) (he : g.Inner e) (hs : g.Changes e) (h3 : 3 ≤ g.num e.ax) :
    ∃ L : List (Ijk × ℕ), L.Nodup ∧ L.length = 4 ∧ (∀ s, s ∈ L ↔ g.Cell s.1 ∧ s.2 < 12 ∧ cellEdge s.1 s.2 = e) ∧ ∃ n : Pt 3, psq n = 1 ∧
    (let mid := (1 / 4 : ℝ) • (L.map (fun s => vertexAt g cells s.1)).sum
      ∀ v, psq v = 1 → (L.map (fun s => pdot n (vertexAt g cells s.1 - mid) ^ 2)).sum ≤ (L.map (fun s => pdot v (vertexAt g cells s.1 - mid) ^ 2)).sum) ∧
    (g.at e.v < 0 → 0 ≤ pdot n (g.pos (up e.ax e.v) - g.pos e.v)) ∧ (0 < g.at e.v → pdot n (g.pos (up e.ax e.v) - g.pos e.v) ≤ 0) ∧
    ∀ s ∈ L, normalAt g (updateHermite pca wn wp g cells) s = normalized ((1 - wn) • normalAt g cells s + wn • n) := by
  have sp := ringSlots_spec g e he
  refine ⟨ringSlots e, ?_, ?_, fun s => ⟨fun hs => sp s hs, fun hs => ringSlots_complete e s.1 s.2 hs.2.1 hs.2.2⟩, ?_⟩
  · have := ringSlots_nodup g e he
    exact List.Nodup.of_map _ this
  · obtain ⟨ax, w⟩ := e
    fin_cases ax <;> rfl
  obtain ⟨A, B, hAB, hoth⟩ := edgeCells_split h e he hs h3
  have hgood := edgeCells_good h
  obtain ⟨s0, hs0, hhead⟩ := ring_head g e
  obtain ⟨a1, a2, a3⟩ := sp s0 hs0
  obtain ⟨c0, hc0, k0⟩ := h.get s0.1 a1
  obtain ⟨p1, p2, p3, p4⟩ := edgePlane_spec (cells := cells) hpca e hs (ringSlots e) c0 s0.1 s0.2 a2 a3 k0.corners k0.sdf
  refine ⟨(edgePlane pca cells (ringList g e) c0 s0.2).1, p1, p2, p3, p4, ?_⟩
  intro s hsl
  obtain ⟨c1, c2, c3⟩ := sp s hsl
  have hA : Inv P g (A.foldl (updateOne pca wn wp) cells) := by
    refine foldl_inv (Inv P g) _ _ (fun cs hcs l hl => updateOne_inv pca wn wp hw hcs l (hgood l ?_)) _ h
    rw [hAB]
    exact List.mem_append_left _ hl
  have hgeo : Rel SameGeo cells (A.foldl (updateOne pca wn wp) cells) :=
    foldl_inv (Rel SameGeo cells) _ _ (fun cs hcs l _ => updateOne_geo pca wn wp l cs hcs) _ (Rel.refl (R := SameGeo) (fun _ => ⟨rfl, rfl, rfl⟩) _)
  have hsame : nrmAt (A.foldl (updateOne pca wn wp) cells) (cellNo g s.1) s.2 = nrmAt cells (cellNo g s.1) s.2 :=
    fold_update_other _ _ _ _ _ _ _ (fun l hl => hoth l (Or.inl hl) _ _ c1 c2 c3)
  have hnd : ((ringList g e).map Prod.fst).Nodup := by
    unfold ringList
    rw [List.map_map]
    exact ringSlots_nodup g e he
  have hval : nrmAt (updateHermite pca wn wp g cells) (cellNo g s.1) s.2 = (nrmAt cells (cellNo g s.1) s.2).map (blended wn (edgePlane pca cells (ringList g e) c0 s0.2).1) := by
    unfold updateHermite
    rw [hAB, List.foldl_append, List.foldl_cons, fold_update_other _ _ _ _ _ _ _ (fun l hl => hoth l (Or.inr hl) _ _ c1 c2 c3), ← hsame]
    obtain ⟨c0', hc0', eg⟩ := hgeo.get hc0
    have eplane := edgePlane_geo hgeo pca (ringList g e) c0 c0' eg s0.2
    generalize A.foldl (updateOne pca wn wp) cells = cs at hc0' eplane
    unfold updateOne
    rw [hhead]
    simp only [hc0', eplane]
    split
    · rw [nrmAt_blends _ _ _ _ _ hnd, if_pos (mem_ring (g := g) c2 c3)]
    · rw [nrmAt_blendPos, nrmAt_blends _ _ _ _ _ hnd, if_pos (mem_ring (g := g) c2 c3)]
  obtain ⟨x, v, hx, hv⟩ := slot_some h hs c1 c2 c3
  unfold normalAt
  rw [hval]
  unfold nrmAt
  rw [hx]
  simp only [Option.map_some, Option.getD_some, hv, blended]
  rw [if_pos]
  refine Real.sqrt_pos.mpr ?_
  have : psq (edgePlane pca cells (ringList g e) c0 s0.2).1 = 1 := p1
  rw [this]
  exact one_pos

/-! ### the hypotheses can be met -/

theorem exists_isPca : ∃ pca, IsPca pca := by
  have hc : IsCompact {v : Pt 3 | psq v = 1} := by
    refine (isCompact_closedBall (0 : Pt 3) 1).of_isClosed_subset ?_ ?_
    · refine isClosed_eq ?_ continuous_const
      unfold psq
      fun_prop
    · intro v hv
      rw [mem_closedBall_zero_iff, pi_norm_le_iff_of_nonneg zero_le_one]
      intro i
      have h1 : v i ^ 2 ≤ psq v := Finset.single_le_sum (f := fun i => v i ^ 2) (fun i _ => sq_nonneg (v i)) (Finset.mem_univ i)
      rw [show psq v = 1 from hv] at h1
      rw [Real.norm_eq_abs]
      exact abs_le_one_iff_mul_self_le_one.mpr (by nlinarith)
  have hne : {v : Pt 3 | psq v = 1}.Nonempty := ⟨![1, 0, 0], by simp [psq3]⟩
  have key : ∀ l : List (Pt 3), ∃ q, psq q = 1 ∧ ∀ v, psq v = 1 → (l.map (fun d => pdot q d ^ 2)).sum ≤ (l.map (fun d => pdot v d ^ 2)).sum := by
    intro l
    have hcont : Continuous (fun v : Pt 3 => (l.map (fun d => pdot v d ^ 2)).sum) := by
      induction l with
      | nil => exact continuous_const
      | cons d l ih =>
        simp only [List.map_cons, List.sum_cons, pdot3]
        refine Continuous.add (by fun_prop) ?_
        simp only [pdot3] at ih
        exact ih
    obtain ⟨q, hq, hmin⟩ := hc.exists_isMinOn hne hcont.continuousOn
    exact ⟨q, hq, fun v hv => hmin hv⟩
  choose f hf using key
  exact ⟨f, hf⟩

/-- an edge of the ball grid with a sign change, and the start of a run -/
example (x : Ext) (o : Options) : ∃ e : GEdge, (gridOf ballS ballG 3 3 3 0).Inner e ∧ (gridOf ballS ballG 3 3 3 0).Changes e ∧ 3 ≤ (gridOf ballS ballG 3 3 3 0).num e.ax ∧
    ∃ cells, Reached x o (gridOf ballS ballG 3 3 3 0) 0 cells := by
  refine ⟨⟨0, (0, 1, 1)⟩, by simp [Grid.Inner, gridOf], ?_, by simp [Grid.num, gridOf], _, Reached.start⟩
  right
  simp only [up]
  rw [ball_at _ (by decide), ball_at _ (by decide)]
  norm_num

end

end Gpy.Dual
