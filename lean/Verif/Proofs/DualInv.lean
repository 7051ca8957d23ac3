import Verif.Proofs.DualGrid

/-! The invariant of the cells. -/

set_option autoImplicit false
namespace Gpy.Dual

/-- the grid vertex at a corner of a cell -/
def cv (c : Ijk) (m : ℕ) : Ijk := (c.1 + (off.getD m (0, 0, 0)).1, c.2.1 + (off.getD m (0, 0, 0)).2.1, c.2.2 + (off.getD m (0, 0, 0)).2.2)

/-- the cell as it is generated -/
noncomputable def gen (g : Grid) (c : Ijk) : Cell := genCell g c.1 c.2.1 c.2.2

theorem gen_basic (g : Grid) (c : Ijk) : (gen g c).ix = c.1 ∧ (gen g c).iy = c.2.1 ∧ (gen g c).iz = c.2.2 ∧ (∀ m, (gen g c).sdf m = g.at (cv c m)) ∧
    ∀ m, (gen g c).corners m = g.x (cv c m).1 (cv c m).2.1 (cv c m).2.2 := by
  unfold gen genCell fillHermite
  split_ifs <;> exact ⟨rfl, rfl, rfl, fun m => rfl, fun m => rfl⟩

theorem gen_has (g : Grid) (c : Ijk) : (gen g c).has = true ↔ (∃ m < 8, g.at (cv c m) < 0) ∧ ∃ m < 8, 0 < g.at (cv c m) := by
  have : (gen g c).has = ((List.range 8).any (fun m => decide (g.at (cv c m) < 0)) && (List.range 8).any (fun m => decide (0 < g.at (cv c m)))) := by
    unfold gen genCell fillHermite
    split_ifs <;> rfl
  rw [this]
  simp [List.any_eq_true]

theorem cv_corner (c : Ijk) : (∀ m < 8, ∃ a b d, cv c m = corner c a b d) ∧ ∀ a b d, ∃ m < 8, cv c m = corner c a b d := by
  constructor
  · intro m hm
    interval_cases m
    · exact ⟨0, 0, 0, rfl⟩
    · exact ⟨1, 0, 0, rfl⟩
    · exact ⟨1, 1, 0, rfl⟩
    · exact ⟨0, 1, 0, rfl⟩
    · exact ⟨0, 0, 1, rfl⟩
    · exact ⟨1, 0, 1, rfl⟩
    · exact ⟨1, 1, 1, rfl⟩
    · exact ⟨0, 1, 1, rfl⟩
  · intro a b d
    fin_cases a <;> fin_cases b <;> fin_cases d
    · exact ⟨0, by omega, rfl⟩
    · exact ⟨4, by omega, rfl⟩
    · exact ⟨3, by omega, rfl⟩
    · exact ⟨7, by omega, rfl⟩
    · exact ⟨1, by omega, rfl⟩
    · exact ⟨5, by omega, rfl⟩
    · exact ⟨2, by omega, rfl⟩
    · exact ⟨6, by omega, rfl⟩

theorem gen_active (g : Grid) (c : Ijk) (hc : g.Cell c) : (gen g c).has = true ↔ g.Active c := by
  rw [gen_has]
  obtain ⟨h1, h2⟩ := cv_corner c
  constructor
  · rintro ⟨⟨m, hm, h⟩, m', hm', h'⟩
    obtain ⟨a, b, d, e⟩ := h1 m hm
    obtain ⟨a', b', d', e'⟩ := h1 m' hm'
    exact ⟨hc.1, hc.2.1, hc.2.2, ⟨a, b, d, e ▸ h⟩, a', b', d', e' ▸ h'⟩
  · rintro ⟨-, -, -, ⟨a, b, d, h⟩, a', b', d', h'⟩
    obtain ⟨m, hm, e⟩ := h2 a b d
    obtain ⟨m', hm', e'⟩ := h2 a' b' d'
    exact ⟨⟨m, hm, e ▸ h⟩, m', hm', e' ▸ h'⟩

/-- the corners at the ends of edge `e` -/
def endA (e : ℕ) : ℕ := (edgePairs.getD e (0, 0)).1
def endB (e : ℕ) : ℕ := (edgePairs.getD e (0, 0)).2

theorem gen_slot (g : Grid) (c : Ijk) (e : ℕ) :
    (((gen g c).pos e).isSome = true ↔ (gen g c).has = true ∧ e < 12 ∧ ¬ 0 < g.at (cv c (endA e)) * g.at (cv c (endB e))) ∧ ((gen g c).nrm e).isSome = ((gen g c).pos e).isSome := by
  unfold gen genCell fillHermite
  split_ifs with h
  · simp only [h, true_and]
    constructor
    · split_ifs with h'
      · simp only [Option.isSome_some, true_iff]; exact h'
      · simp only [Option.isSome_none, Bool.false_eq_true, false_iff]; exact h'
    · split_ifs <;> rfl
  · refine ⟨⟨fun h' => by simp at h', fun h' => absurd h'.1 h⟩, rfl⟩

theorem cube_connected (s : ℕ → ℝ) (h : ∀ e < 12, 0 < s (endA e) * s (endB e)) : (∀ m < 8, 0 < s m) ∨ ∀ m < 8, s m < 0 := by
  have h0 := h 0 (by omega)
  have h1 := h 1 (by omega)
  have h2 := h 2 (by omega)
  have h4 := h 4 (by omega)
  have h5 := h 5 (by omega)
  have h6 := h 6 (by omega)
  have h8 := h 8 (by omega)
  simp only [endA, endB, edgePairs, List.getD_cons_zero, List.getD_cons_succ] at h0 h1 h2 h4 h5 h6 h8
  rcases mul_pos_iff.mp h0 with ⟨a0, a1⟩ | ⟨a0, a1⟩
  · left
    have a2 := (mul_pos_iff_of_pos_left a1).mp h1
    have a3 := (mul_pos_iff_of_pos_left a2).mp h2
    have a4 := (mul_pos_iff_of_pos_left a0).mp h8
    have a5 := (mul_pos_iff_of_pos_left a4).mp h4
    have a6 := (mul_pos_iff_of_pos_left a5).mp h5
    have a7 := (mul_pos_iff_of_pos_left a6).mp h6
    intro m hm; interval_cases m <;> assumption
  · right
    have a2 := neg_of_mul_pos_right h1 a1.le
    have a3 := neg_of_mul_pos_right h2 a2.le
    have a4 := neg_of_mul_pos_right h8 a0.le
    have a5 := neg_of_mul_pos_right h4 a4.le
    have a6 := neg_of_mul_pos_right h5 a5.le
    have a7 := neg_of_mul_pos_right h6 a6.le
    intro m hm; interval_cases m <;> assumption

theorem gen_nonempty (g : Grid) (c : Ijk) (h : (gen g c).has = true) : ∃ e < 12, ((gen g c).pos e).isSome = true := by
  by_contra hn
  have h12 : ∀ e < 12, 0 < g.at (cv c (endA e)) * g.at (cv c (endB e)) := by
    intro e he
    by_contra hp
    exact hn ⟨e, he, ((gen_slot g c e).1).mpr ⟨h, he, hp⟩⟩
  obtain ⟨⟨m, hm, hneg⟩, m', hm', hpos⟩ := (gen_has g c).mp h
  rcases cube_connected (fun m => g.at (cv c m)) h12 with h' | h'
  · have := h' m hm; linarith
  · have := h' m' hm'; linarith

/-- what the passes keep of a cell `b`; `P` is a property of the Hermite positions -/
structure Keep (P : Cell → ℕ → Pt 3 → Prop) (b c : Cell) : Prop where
  ix : c.ix = b.ix
  iy : c.iy = b.iy
  iz : c.iz = b.iz
  corners : c.corners = b.corners
  sdf : c.sdf = b.sdf
  has : c.has = b.has
  pos : ∀ e, (c.pos e).isSome = (b.pos e).isSome
  nrm : ∀ e, (c.nrm e).isSome = (b.nrm e).isSome
  sat : ∀ e p, c.pos e = some p → P b e p

/-- the invariant -/
def Inv (P : Cell → ℕ → Pt 3 → Prop) (g : Grid) (cells : List Cell) : Prop := Rel (Keep P) (generateCells g) cells

variable {P : Cell → ℕ → Pt 3 → Prop} {g : Grid} {cells : List Cell}

theorem Inv.get (h : Inv P g cells) (c : Ijk) (hc : g.Cell c) : ∃ x, cells[cellNo g c]? = some x ∧ Keep P (gen g c) x := Rel.get h (gen_get g c hc)

theorem Inv.get' (h : Inv P g cells) (n : ℕ) (x : Cell) (hx : cells[n]? = some x) : ∃ c, g.Cell c ∧ n = cellNo g c ∧ Keep P (gen g c) x := by
  have hn : n < (generateCells g).length := by rw [← h.1]; exact (List.getElem?_eq_some_iff.mp hx).1
  obtain ⟨c, hc, e⟩ := cellNo_surj g n hn
  refine ⟨c, hc, e.symm, ?_⟩
  obtain ⟨y, hy, hk⟩ := h.get c hc
  rw [e, hx] at hy
  cases hy
  exact hk

theorem Inv.map (h : Inv P g cells) (f : Cell → Cell) (hf : ∀ c x, g.Cell c → Keep P (gen g c) x → Keep P (gen g c) (f x)) : Inv P g (cells.map f) := by
  refine Rel.map h f (fun n b x hb hx hk => ?_)
  obtain ⟨c, hc, e, hk'⟩ := Inv.get' h n x hx
  have : gen g c = b := by
    have := gen_get g c hc
    rw [← e, hb] at this
    exact (Option.some.inj this).symm
  rw [← this]
  exact hf c x hc hk'

theorem Inv.modify (h : Inv P g cells) (c : Ijk) (hc : g.Cell c) (f : Cell → Cell) (hf : ∀ x, cells[cellNo g c]? = some x → Keep P (gen g c) x → Keep P (gen g c) (f x)) :
    Inv P g (cells.modify (cellNo g c) f) := by
  refine Rel.modify h _ f (fun b x hb hx hk => ?_)
  rw [gen_get g c hc] at hb
  cases hb
  exact hf x hx hk

/-- a cell with a Hermite position on the edge of the grid between `u` and `u'` -/
def Slot (g : Grid) (u u' : Ijk) (n e : ℕ) : Prop :=
  ∃ c, g.Cell c ∧ n = cellNo g c ∧ e < 12 ∧ ((cv c (endA e) = u ∧ cv c (endB e) = u') ∨ (cv c (endA e) = u' ∧ cv c (endB e) = u)) ∧ ((gen g c).pos e).isSome = true

/-- all entries are slots of one edge -/
def Good (g : Grid) (l : List (ℕ × Option ℕ)) : Prop := ∃ u u', ∀ s ∈ l, ∀ e, s.2 = some e → Slot g u u' s.1 e

theorem cornerOffset_eq : ∀ m < 8, cornerOffset m = (((off.getD m (0, 0, 0)).1 : ℤ), ((off.getD m (0, 0, 0)).2.1 : ℤ), ((off.getD m (0, 0, 0)).2.2 : ℤ)) := by decide

theorem ends_lt : ∀ e < 12, endA e < 8 ∧ endB e < 8 := by decide

theorem cv_of_offset (c u : Ijk) (m : ℕ) (hm : m < 8) (h : ((u.1 : ℤ) - c.1, (u.2.1 : ℤ) - c.2.1, (u.2.2 : ℤ) - c.2.2) = cornerOffset m) : cv c m = u := by
  rw [cornerOffset_eq m hm] at h
  simp only [Prod.mk.injEq] at h
  obtain ⟨h1, h2, h3⟩ := h
  unfold cv
  refine Prod.ext ?_ (Prod.ext ?_ ?_) <;> simp only <;> omega

theorem edgeOfVerts_spec (x : Cell) (c u u' : Ijk) (e : ℕ) (h1 : x.ix = c.1) (h2 : x.iy = c.2.1) (h3 : x.iz = c.2.2) (h : edgeOfVerts x u u' = some e) :
    e < 12 ∧ ((cv c (endA e) = u ∧ cv c (endB e) = u') ∨ (cv c (endA e) = u' ∧ cv c (endB e) = u)) := by
  unfold edgeOfVerts edgeOfOffsets at h
  have hm := List.mem_of_find?_eq_some h
  have hs := List.find?_some h
  have he : e < 12 := by simpa using hm
  refine ⟨he, ?_⟩
  rw [h1, h2, h3] at hs
  have hs := of_decide_eq_true hs
  obtain ⟨ea, eb⟩ := ends_lt e he
  rcases hs with ⟨ha, hb⟩ | ⟨ha, hb⟩
  · exact Or.inl ⟨cv_of_offset c u _ ea ha, cv_of_offset c u' _ eb hb⟩
  · exact Or.inr ⟨cv_of_offset c u' _ ea hb, cv_of_offset c u _ eb ha⟩

theorem slot_prod (g : Grid) (c u u' : Ijk) (e : ℕ) (h : (cv c (endA e) = u ∧ cv c (endB e) = u') ∨ (cv c (endA e) = u' ∧ cv c (endB e) = u)) :
    g.at (cv c (endA e)) * g.at (cv c (endB e)) = g.at u * g.at u' := by
  rcases h with ⟨a, b⟩ | ⟨a, b⟩ <;> rw [a, b]
  ring

theorem processEdge_slots (h : Inv P g cells) (u u' : Ijk) (l : List (ℕ × Option ℕ)) (hl : processEdge g cells u u' = some l) : ∀ s ∈ l, ∀ e, s.2 = some e → Slot g u u' s.1 e := by
  unfold processEdge at hl
  split_ifs at hl with h1
  simp only at hl
  split_ifs at hl with h2
  split at hl
  · exact absurd hl (by simp)
  rename_i cell hcell
  split at hl
  · exact absurd hl (by simp)
  rename_i e he
  split at hl
  · exact absurd hl (by simp)
  rename_i p hp
  split_ifs at hl with h3
  split at hl
  swap
  · exact absurd hl (by simp)
  rename_i a1 a2 a3 ha1 ha2 ha3
  split_ifs at hl with h4
  cases hl
  obtain ⟨hh, hh1, hh2, hh3⟩ := h4
  obtain ⟨c, hc, hn, hk⟩ := h.get' _ _ hcell
  have b := gen_basic g c
  obtain ⟨he12, hends⟩ := edgeOfVerts_spec cell c u u' e (by rw [hk.ix, b.1]) (by rw [hk.iy, b.2.1]) (by rw [hk.iz, b.2.2.1]) he
  have hcross : ¬ 0 < g.at u * g.at u' := by
    have : ((gen g c).pos e).isSome = true := by rw [← hk.pos e, hp]; rfl
    rw [← slot_prod g c u u' e hends]
    exact (((gen_slot g c e).1).mp this).2.2
  have one : ∀ (n : ℕ) (x : Cell), cells[n]? = some x → x.has = true → ∀ e, edgeOfVerts x u u' = some e → Slot g u u' n e := by
    intro n x hx hxh e' he'
    obtain ⟨c', hc', hn', hk'⟩ := h.get' _ _ hx
    have b' := gen_basic g c'
    obtain ⟨he12', hends'⟩ := edgeOfVerts_spec x c' u u' e' (by rw [hk'.ix, b'.1]) (by rw [hk'.iy, b'.2.1]) (by rw [hk'.iz, b'.2.2.1]) he'
    exact ⟨c', hc', hn', he12', hends', ((gen_slot g c' e').1).mpr ⟨by rw [← hk'.has]; exact hxh, he12', by rw [slot_prod g c' u u' e' hends']; exact hcross⟩⟩
  intro s hs e' he'
  simp only [List.mem_cons, List.not_mem_nil, or_false] at hs
  rcases hs with rfl | rfl | rfl | rfl
  · exact one _ _ hcell hh e' he'
  · exact one _ _ ha1 hh1 e' he'
  · exact one _ _ ha2 hh2 e' he'
  · exact one _ _ ha3 hh3 e' he'

theorem processEdge_good (h : Inv P g cells) (u u' : Ijk) (l : List (ℕ × Option ℕ)) (hl : processEdge g cells u u' = some l) : Good g l := ⟨u, u', processEdge_slots h u u' l hl⟩

theorem edgeCells_good (h : Inv P g cells) : ∀ l ∈ edgeCells g cells, Good g l := by
  intro l hl
  obtain ⟨p, -, hp⟩ := List.mem_filterMap.mp hl
  exact processEdge_good h p.1 p.2 l hp

theorem isSome_update {α : Type} (m : ℕ → Option α) (e : ℕ) (x : α) (h : (m e).isSome = true) (e' : ℕ) : (Function.update m e (some x) e').isSome = (m e').isSome := by
  by_cases he : e' = e
  · subst he; simp [h]
  · simp [Function.update_of_ne he]

theorem Keep.setNrm {b c : Cell} (h : Keep P b c) (e : ℕ) (n : Pt 3) (hs : (b.nrm e).isSome = true) : Keep P b { c with nrm := Function.update c.nrm e (some n) } :=
  ⟨h.ix, h.iy, h.iz, h.corners, h.sdf, h.has, h.pos, fun e' => by rw [← h.nrm e']; exact isSome_update c.nrm e n (by rw [h.nrm e]; exact hs) e', h.sat⟩

theorem foldl_inv {α : Type} (Q : List Cell → Prop) (l : List α) (f : List Cell → α → List Cell) (hf : ∀ cs, Q cs → ∀ s ∈ l, Q (f cs s)) : ∀ cs, Q cs → Q (l.foldl f cs) := by
  induction l with
  | nil => exact fun cs h => h
  | cons a l ih =>
    intro cs h
    rw [List.foldl_cons]
    exact ih (fun cs h s hs => hf cs h s (List.mem_cons_of_mem _ hs)) _ (hf cs h a List.mem_cons_self)

theorem setNormal_inv (n : Pt 3) (h : Inv P g cells) {u u' : Ijk} (s : ℕ × Option ℕ) (hs : ∀ e, s.2 = some e → Slot g u u' s.1 e) : Inv P g (setNormal n cells s) := by
  unfold setNormal
  split
  · exact h
  rename_i e he
  obtain ⟨c, hc, hn, -, -, hsl⟩ := hs e he
  rw [hn]
  exact h.modify c hc _ (fun x _ hk => hk.setNrm e n (by rw [(gen_slot g c e).2]; exact hsl))

theorem averageNormals_inv (h : Inv P g cells) : Inv P g (averageNormals g cells) := by
  unfold averageNormals
  refine foldl_inv (Inv P g) _ _ (fun cs hcs l hl => ?_) _ h
  unfold averageOne
  split_ifs
  · exact hcs
  · obtain ⟨u, u', hu⟩ := edgeCells_good h l hl
    exact foldl_inv (Inv P g) _ _ (fun cs hcs s hs => setNormal_inv _ hcs s (hu s hs)) _ hcs

theorem blendNormal_inv (w : ℝ) (n : Pt 3) (h : Inv P g cells) {u u' : Ijk} (s : ℕ × Option ℕ) (hs : ∀ e, s.2 = some e → Slot g u u' s.1 e) : Inv P g (blendNormal w n cells s) := by
  unfold blendNormal
  split
  · exact h
  rename_i e he
  obtain ⟨c, hc, hn, -, -, hsl⟩ := hs e he
  rw [hn]
  refine h.modify c hc _ (fun x _ hk => ?_)
  split
  · exact hk
  · split_ifs
    · exact hk.setNrm e _ (by rw [(gen_slot g c e).2]; exact hsl)
    · exact hk

/-- blending a position on an edge with a point where a plane meets the same edge keeps `P` -/
def Closed (P : Cell → ℕ → Pt 3 → Prop) (w : ℝ) : Prop :=
  ∀ (b b0 : Cell) (e e0 : ℕ) (n m x y : Pt 3),
    ((b.corners (endA e) = b0.corners (endA e0) ∧ b.corners (endB e) = b0.corners (endB e0)) ∨ (b.corners (endA e) = b0.corners (endB e0) ∧ b.corners (endB e) = b0.corners (endA e0))) →
    planeHit b0 e0 n m = some x → P b e y → P b e ((1 - w) • y + w • x)

theorem blendPos_inv (w : ℝ) (hw : Closed P w) (x : Pt 3) (h : Inv P g cells) {u u' : Ijk} (n0 e0 : ℕ) (hs0 : Slot g u u' n0 e0) (c0 : Cell) (hc0 : cells[n0]? = some c0) (c00 : Cell) (hcc : c00.corners = c0.corners)
    (n m : Pt 3) (hx : planeHit c00 e0 n m = some x)
    (s : ℕ × Option ℕ) (hs : ∀ e, s.2 = some e → Slot g u u' s.1 e) : Inv P g (blendPos w x cells s) ∧ ∃ c0', (blendPos w x cells s)[n0]? = some c0' ∧ c0'.corners = c00.corners := by
  have keyI : Inv P g (blendPos w x cells s) := by
    unfold blendPos
    split
    · exact h
    rename_i e he
    obtain ⟨c, hc, hn, he12, hends, hsl⟩ := hs e he
    rw [hn]
    refine h.modify c hc _ (fun y _ hk => ?_)
    have hsome : (y.pos e).isSome = true := by rw [hk.pos e]; exact hsl
    obtain ⟨p, hp⟩ := Option.isSome_iff_exists.mp hsome
    refine ⟨hk.ix, hk.iy, hk.iz, hk.corners, hk.sdf, hk.has, fun e' => by rw [← hk.pos e']; exact isSome_update y.pos e _ hsome e', hk.nrm, ?_⟩
    intro e' p' hp'
    by_cases he' : e' = e
    · subst he'
      simp only [Function.update_self, Option.some.injEq] at hp'
      rw [← hp', hp]
      obtain ⟨c', hc', hn', he12', hends', -⟩ := hs0
      obtain ⟨c0x, hc0x, hk0⟩ := h.get c' hc'
      rw [hn', hc0x] at hc0
      cases hc0
      refine hw (gen g c) c00 e' e0 n m x p ?_ hx (hk.sat e' p hp)
      rw [hcc, hk0.corners]
      simp only [(gen_basic g c).2.2.2.2, (gen_basic g c').2.2.2.2]
      rcases hends with ⟨q1, q2⟩ | ⟨q1, q2⟩ <;> rcases hends' with ⟨q3, q4⟩ | ⟨q3, q4⟩ <;> rw [q1, q2, q3, q4] <;> simp
    · simp only [Function.update_of_ne he'] at hp'
      exact hk.sat e' p' hp'
  refine ⟨keyI, ?_⟩
  obtain ⟨c', hc', hn', -, -, -⟩ := hs0
  obtain ⟨y, hy, hky⟩ := keyI.get c' hc'
  obtain ⟨z, hz, hkz⟩ := h.get c' hc'
  rw [hn', hz] at hc0
  cases hc0
  exact ⟨y, by rw [hn']; exact hy, by rw [hky.corners, hcc, hkz.corners]⟩

theorem updateOne_inv (pca : List (Pt 3) → Pt 3) (wn wp : ℝ) (hw : Closed P wp) (h : Inv P g cells) (l : List (ℕ × Option ℕ)) (hl : Good g l) : Inv P g (updateOne pca wn wp cells l) := by
  obtain ⟨u, u', hu⟩ := hl
  unfold updateOne
  split
  swap
  · exact h
  rename_i ci e0 hhead
  have hmem : (ci, some e0) ∈ l := List.mem_of_mem_head? hhead
  have hslot := hu _ hmem e0 rfl
  split
  · exact h
  rename_i c0 hc0
  simp only
  have hB : Inv P g (l.foldl (blendNormal wn (edgePlane pca cells l c0 e0).1) cells) :=
    foldl_inv (Inv P g) _ _ (fun cs hcs s hs => blendNormal_inv wn _ hcs s (hu s hs)) _ h
  split
  · exact hB
  rename_i x hx
  have hstart : ∃ c0', (l.foldl (blendNormal wn (edgePlane pca cells l c0 e0).1) cells)[ci]? = some c0' ∧ c0'.corners = c0.corners := by
    obtain ⟨c', hc', hn', -⟩ := hslot
    obtain ⟨y, hy, hky⟩ := hB.get c' hc'
    obtain ⟨z, hz, hkz⟩ := h.get c' hc'
    simp only at hn'
    rw [hn', hz] at hc0
    cases hc0
    exact ⟨y, by rw [hn']; exact hy, by rw [hky.corners, hkz.corners]⟩
  exact (foldl_inv (fun cs => Inv P g cs ∧ ∃ c0', cs[ci]? = some c0' ∧ c0'.corners = c0.corners) _ _
    (fun cs hcs s hs => by
      obtain ⟨h1, c0', h2, h3⟩ := hcs
      exact blendPos_inv wp hw x h1 ci e0 hslot c0' h2 c0 h3.symm _ _ hx s (hu s hs)) _ ⟨hB, hstart⟩).1

theorem updateHermite_inv (pca : List (Pt 3) → Pt 3) (wn wp : ℝ) (hw : Closed P wp) (h : Inv P g cells) : Inv P g (updateHermite pca wn wp g cells) := by
  unfold updateHermite
  exact foldl_inv (Inv P g) _ _ (fun cs hcs l hl => updateOne_inv pca wn wp hw hcs l (edgeCells_good h l hl)) _ h

theorem values_ne {m : ℕ → Option (Pt 3)} {e : ℕ} (he : e < 12) (h : (m e).isSome = true) : values m ≠ [] := by
  obtain ⟨p, hp⟩ := Option.isSome_iff_exists.mp h
  have : p ∈ values m := List.mem_filterMap.mpr ⟨e, by simpa using he, hp⟩
  intro h0; rw [h0] at this; simp at this

theorem Keep.values_ne {c : Ijk} {x : Cell} (h : Keep P (gen g c) x) (hh : x.has = true) : values x.pos ≠ [] := by
  obtain ⟨e, he, hs⟩ := gen_nonempty g c (by rw [← h.has]; exact hh)
  exact Dual.values_ne he (by rw [h.pos e]; exact hs)

theorem update_inv (svd : Svd) (h : Inv P g cells) : Inv P g (cells.map (update svd)) := by
  refine h.map _ (fun c x hc hk => ?_)
  unfold update
  by_cases hh : x.has = true
  · have := hk.values_ne hh
    rw [if_neg (by simp [hh, this])]
    exact ⟨hk.ix, hk.iy, hk.iz, hk.corners, hk.sdf, by rw [← hk.has, hh], hk.pos, hk.nrm, hk.sat⟩
  · have hf : x.has = false := by simpa using hh
    rw [if_pos (Or.inl hf)]
    exact ⟨hk.ix, hk.iy, hk.iz, hk.corners, hk.sdf, by rw [← hk.has, hf], hk.pos, hk.nrm, hk.sat⟩

theorem gen_inv (hP : ∀ c e p, g.Cell c → (gen g c).pos e = some p → P (gen g c) e p) : Inv P g (generateCells g) := by
  refine ⟨rfl, fun n b x hb hx => ?_⟩
  rw [hb] at hx
  cases hx
  obtain ⟨c, hc, e⟩ := cellNo_surj g n (List.getElem?_eq_some_iff.mp hb).1
  have := gen_get g c hc
  rw [e, hb] at this
  have : b = gen g c := Option.some.inj this
  subst this
  exact ⟨rfl, rfl, rfl, rfl, rfl, rfl, fun _ => rfl, fun _ => rfl, fun e p hp => hP c e p hc hp⟩

theorem centroid_inv (h : Inv P g cells) : Inv P g (cells.map (fun c => if c.has then { c with vertex := centroid c } else c)) := by
  refine h.map _ (fun c x hc hk => ?_)
  split_ifs
  · exact ⟨hk.ix, hk.iy, hk.iz, hk.corners, hk.sdf, hk.has, hk.pos, hk.nrm, hk.sat⟩
  · exact hk

theorem assignSpheres_inv (shuffle : List ℕ → List ℕ) (sort : List Sphere → List Sphere) (closest : List (Pt 3) → List (ℕ × ℕ × ℕ) → Pt 3 → ℝ × Pt 3) (V : List (Pt 3)) (F : List Quad) (size : ℕ)
    (h : Inv P g cells) : Inv P g (assignSpheres shuffle sort closest g V F size cells) := by
  unfold assignSpheres
  split_ifs
  · exact h
  · simp only
    refine ⟨by simp [h.1], fun n b x hb hx => ?_⟩
    obtain ⟨y, hy, hk⟩ := Rel.get h hb
    rw [List.getElem?_map, List.getElem?_zipIdx, hy] at hx
    simp only [Option.map_some, Option.some.injEq] at hx
    rw [← hx]
    exact ⟨hk.ix, hk.iy, hk.iz, hk.corners, hk.sdf, hk.has, hk.pos, hk.nrm, hk.sat⟩

theorem faceIntersections_inv (w : ℝ) (h : Inv P g cells) : Inv P g (faceIntersections g w cells) := by
  unfold faceIntersections
  refine h.map _ (fun c x hc hk => ?_)
  split_ifs
  · exact ⟨hk.ix, hk.iy, hk.iz, hk.corners, hk.sdf, hk.has, hk.pos, hk.nrm, hk.sat⟩
  · exact hk

theorem innerLoop_keep (svd : Svd) (query : List (Pt 3 × Pt 3 × Pt 3) → Pt 3 → ℕ × Pt 3) (mu dc th : ℝ) (b : Cell) (n : ℕ) : ∀ x, Keep P b x → Keep P b (innerLoop svd query mu dc th n x) := by
  induction n with
  | zero => exact fun x h => h
  | succ n ih =>
    intro x hk
    have h1 : Keep P b (refineVertex query { x with prev := x.vertex }) := by
      unfold refineVertex
      split_ifs
      · exact ⟨hk.ix, hk.iy, hk.iz, hk.corners, hk.sdf, hk.has, hk.pos, hk.nrm, hk.sat⟩
      · exact ⟨hk.ix, hk.iy, hk.iz, hk.corners, hk.sdf, hk.has, hk.pos, hk.nrm, hk.sat⟩
    have h2 : Keep P b (if (refineVertex query { x with prev := x.vertex }).infos = [] then refineVertex query { x with prev := x.vertex }
        else minimizeQef svd mu dc 1 th (refineVertex query { x with prev := x.vertex })) := by
      split_ifs
      · exact h1
      · exact ⟨h1.ix, h1.iy, h1.iz, h1.corners, h1.sdf, h1.has, h1.pos, h1.nrm, h1.sat⟩
    simp only [innerLoop]
    split_ifs at h2 ⊢
    · exact h2
    · exact ih _ h2
    · exact h2
    · exact ih _ h2

theorem outerCells_inv (x : Ext) (o : Options) (hw : Closed P o.posWeight) (n : ℕ) (V : List (Pt 3)) (F : List Quad) (h : Inv P g cells) : Inv P g (outerCells x o g n V F cells) := by
  unfold outerCells
  simp only
  have h1 := faceIntersections_inv o.faceWeight (assignSpheres_inv (x.shuffle n) x.sort x.closest V F o.batch h)
  have h2 : Inv P g (if o.hermite ∧ 0 < n then updateHermite x.pca o.normalWeight o.posWeight g (faceIntersections g o.faceWeight (assignSpheres (x.shuffle n) x.sort x.closest g V F o.batch cells))
      else faceIntersections g o.faceWeight (assignSpheres (x.shuffle n) x.sort x.closest g V F o.batch cells)) := by
    split_ifs
    · exact updateHermite_inv _ _ _ hw h1
    · exact h1
  refine h2.map _ (fun c y hc hk => ?_)
  split_ifs
  · have := innerLoop_keep x.svd x.query o.mu o.dcWeight o.threshold (gen g c) o.inner y hk
    exact ⟨this.ix, this.iy, this.iz, this.corners, this.sdf, this.has, this.pos, this.nrm, this.sat⟩
  · exact hk

theorem firstCells_inv (x : Ext) (hP : ∀ c e p, g.Cell c → (gen g c).pos e = some p → P (gen g c) e p) : Inv P g (firstCells x g) :=
  averageNormals_inv (update_inv x.svd (averageNormals_inv (gen_inv hP)))

/-- every mesh that `contouring` returns is extracted from cells with the invariant -/
theorem contouring_from (x : Ext) (o : Options) (hw : Closed P o.posWeight) (hP : ∀ c e p, g.Cell c → (gen g c).pos e = some p → P (gen g c) e p) (m : List (Pt 3) × List Quad)
    (h : contouring x o g = some m) : ∃ cells, Inv P g cells ∧ extract g cells = some m := by
  have outer : ∀ k n m0 cs, Inv P g cs → (∃ cs0, Inv P g cs0 ∧ extract g cs0 = some m0) → outerLoop x o g k n m0 cs = some m → ∃ cells, Inv P g cells ∧ extract g cells = some m := by
    intro k
    induction k with
    | zero => intro n m0 cs _ h0 hm; simp only [outerLoop, Option.some.injEq] at hm; rw [← hm]; exact h0
    | succ k ih =>
      intro n m0 cs hcs h0 hm
      simp only [outerLoop] at hm
      obtain ⟨m1, hm1, hm2⟩ := Option.bind_eq_some_iff.mp hm
      have hI := outerCells_inv x o hw n m0.1 m0.2 hcs
      exact ih (n + 1) m1 _ hI ⟨_, hI, hm1⟩ hm2
  unfold contouring at h
  simp only at h
  obtain ⟨m0, hm0, hm⟩ := Option.bind_eq_some_iff.mp h
  have hF := firstCells_inv x hP
  have hC := centroid_inv hF
  split_ifs at hm
  · exact ⟨_, hC, hm⟩
  · exact outer _ _ _ _ hC ⟨_, hF, hm0⟩ hm

/-- `contouring` returns if the extraction from cells with the invariant never fails -/
theorem contouring_returns (x : Ext) (o : Options) (hw : Closed P o.posWeight) (hP : ∀ c e p, g.Cell c → (gen g c).pos e = some p → P (gen g c) e p)
    (hE : ∀ cells, Inv P g cells → ∃ m, extract g cells = some m) : ∃ m, contouring x o g = some m := by
  have outer : ∀ k n m0 cs, Inv P g cs → ∃ m, outerLoop x o g k n m0 cs = some m := by
    intro k
    induction k with
    | zero => intro n m0 cs _; exact ⟨m0, rfl⟩
    | succ k ih =>
      intro n m0 cs hcs
      have hI := outerCells_inv x o hw n m0.1 m0.2 hcs
      obtain ⟨m1, hm1⟩ := hE _ hI
      obtain ⟨m, hm⟩ := ih (n + 1) m1 _ hI
      exact ⟨m, by simp only [outerLoop]; rw [hm1]; exact hm⟩
  have hF := firstCells_inv x hP
  have hC := centroid_inv hF
  obtain ⟨m0, hm0⟩ := hE _ hF
  unfold contouring
  simp only
  rw [hm0, Option.bind_some]
  split_ifs
  · exact hE _ hC
  · exact outer _ _ _ _ hC

end Gpy.Dual
