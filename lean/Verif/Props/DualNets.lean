import Verif.Props.DualMesh
import Mathlib.Analysis.Convex.Hull
import Mathlib.Analysis.Convex.Combination

/-!
# C120: dual contouring without outer iterations
-/

set_option autoImplicit false
namespace Gpy.Dual
open Classical

/-! ### specification -/

/-- `e` is an edge of the cell `c` -/
def EdgeOf (c : Ijk) (e : GEdge) : Prop := (∃ a b d, corner c a b d = e.v) ∧ ∃ a b d, corner c a b d = up e.ax e.v

/-- the position of a grid vertex -/
def Grid.pos (g : Grid) (v : Ijk) : Pt 3 := g.x v.1 v.2.1 v.2.2

/-- `p` is a point of the edge where the linear interpolation of the samples is the isovalue, up to `1e-16` -/
def IsCross (g : Grid) (e : GEdge) (p : Pt 3) : Prop :=
  ∃ t : ℝ, 0 ≤ t ∧ t ≤ 1 ∧ p = (1 - t) • g.pos e.v + t • g.pos (up e.ax e.v) ∧ 0 ≤ (1 - t) * g.at e.v + t * g.at (up e.ax e.v) ∧ (1 - t) * g.at e.v + t * g.at (up e.ax e.v) ≤ 1 / 10 ^ 16

/-- `v` is the mean of the crossings of the edges of the cell with a sign change, each counted once -/
def IsMeanCross (g : Grid) (c : Ijk) (v : Pt 3) : Prop :=
  ∃ (L : List GEdge) (ps : List (Pt 3)), L ≠ [] ∧ L.Nodup ∧ (∀ e, e ∈ L ↔ EdgeOf c e ∧ g.Changes e) ∧ List.Forall₂ (IsCross g) L ps ∧ v = (1 / (L.length : ℝ)) • ps.sum

/-! ### proofs -/

/-- the edges of a cell in the numbering of the code -/
def cellEdge (c : Ijk) (e : ℕ) : GEdge :=
  (([(0, 0), (1, 1), (0, 3), (1, 0), (0, 4), (1, 5), (0, 7), (1, 4), (2, 0), (2, 1), (2, 2), (2, 3)] : List (Fin 3 × ℕ)).map (fun p => (⟨p.1, cv c p.2⟩ : GEdge))).getD e ⟨0, (0, 0, 0)⟩

theorem cellEdge_ends (c : Ijk) (e : ℕ) (he : e < 12) : (cv c (endA e) = (cellEdge c e).v ∧ cv c (endB e) = up (cellEdge c e).ax (cellEdge c e).v) ∨ (cv c (endA e) = up (cellEdge c e).ax (cellEdge c e).v ∧ cv c (endB e) = (cellEdge c e).v) := by
  interval_cases e
  · exact Or.inl ⟨rfl, rfl⟩
  · exact Or.inl ⟨rfl, rfl⟩
  · exact Or.inr ⟨rfl, rfl⟩
  · exact Or.inr ⟨rfl, rfl⟩
  · exact Or.inl ⟨rfl, rfl⟩
  · exact Or.inl ⟨rfl, rfl⟩
  · exact Or.inr ⟨rfl, rfl⟩
  · exact Or.inr ⟨rfl, rfl⟩
  · exact Or.inl ⟨rfl, rfl⟩
  · exact Or.inl ⟨rfl, rfl⟩
  · exact Or.inl ⟨rfl, rfl⟩
  · exact Or.inl ⟨rfl, rfl⟩

theorem cellEdge_inj (c : Ijk) (e e' : ℕ) (he : e < 12) (he' : e' < 12) (h : cellEdge c e = cellEdge c e') : e = e' := by
  obtain ⟨i, j, k⟩ := c
  interval_cases e <;> interval_cases e' <;> first | rfl | (simp [cellEdge, cv, off] at h)

theorem edgeOf_iff (c : Ijk) (e : GEdge) : EdgeOf c e ↔ ∃ n < 12, e = cellEdge c n := by
  constructor
  · rintro ⟨⟨a, b, d, h⟩, a', b', d', h'⟩
    obtain ⟨ax, v⟩ := e
    simp only at h h'
    subst h
    obtain ⟨i, j, k⟩ := c
    fin_cases ax <;> fin_cases a <;> fin_cases b <;> fin_cases d <;> simp [corner, up] at h' <;> try omega
    · exact ⟨0, by omega, rfl⟩
    · exact ⟨4, by omega, rfl⟩
    · exact ⟨2, by omega, rfl⟩
    · exact ⟨6, by omega, rfl⟩
    · exact ⟨3, by omega, rfl⟩
    · exact ⟨7, by omega, rfl⟩
    · exact ⟨1, by omega, rfl⟩
    · exact ⟨5, by omega, rfl⟩
    · exact ⟨8, by omega, rfl⟩
    · exact ⟨11, by omega, rfl⟩
    · exact ⟨9, by omega, rfl⟩
    · exact ⟨10, by omega, rfl⟩
  · rintro ⟨n, hn, rfl⟩
    have h1 := (cv_corner c).1 (endA n) (ends_lt n hn).1
    have h2 := (cv_corner c).1 (endB n) (ends_lt n hn).2
    rcases cellEdge_ends c n hn with ⟨q1, q2⟩ | ⟨q1, q2⟩
    · rw [q1] at h1; rw [q2] at h2
      obtain ⟨a, b, d, h1⟩ := h1
      obtain ⟨a', b', d', h2⟩ := h2
      exact ⟨⟨a, b, d, h1.symm⟩, a', b', d', h2.symm⟩
    · rw [q1] at h1; rw [q2] at h2
      obtain ⟨a, b, d, h1⟩ := h1
      obtain ⟨a', b', d', h2⟩ := h2
      exact ⟨⟨a', b', d', h2.symm⟩, a, b, d, h1.symm⟩

/-- no sample equals the isovalue or is less than `1e-16` above it -/
def Clear (g : Grid) (c : Ijk) : Prop := ∀ m < 8, g.at (cv c m) < 0 ∨ 1 / 10 ^ 16 ≤ g.at (cv c m)

theorem lerp_value (fa fb : ℝ) (h : fa * fb < 0) (hb : fb < 0 ∨ 1 / 10 ^ 16 ≤ fb) : (1 - lerpT fa fb) * fa + lerpT fa fb * fb = lerpT fa fb * (1 / 10 ^ 16) := by
  have hne : fa - fb + 1 / 10 ^ 16 ≠ 0 := by
    have : (0 : ℝ) < 1 / 10 ^ 16 := by positivity
    rcases mul_neg_iff.mp h with ⟨h1, h2⟩ | ⟨h1, h2⟩
    · linarith
    · rcases hb with hb | hb
      · linarith
      · intro h0; linarith
  unfold lerpT
  rw [sub_zero]
  have e : fa / (fa - fb + 1 / 10 ^ 16) * (fa - fb + 1 / 10 ^ 16) = fa := div_mul_cancel₀ _ hne
  generalize fa / (fa - fb + 1 / 10 ^ 16) = t at e
  linear_combination -e

theorem gen_cross (g : Grid) (c : Ijk) (hc : Clear g c) (n : ℕ) (hn : n < 12) (p : Pt 3) (h : (gen g c).pos n = some p) : IsCross g (cellEdge c n) p := by
  have hcr := (((gen_slot g c n).1).mp (by rw [h]; rfl)).2.2
  have hpos : (0 : ℝ) < 1 / 10 ^ 16 := by positivity
  have A := hc _ (ends_lt n hn).1
  have B := hc _ (ends_lt n hn).2
  have hneg : g.at (cv c (endA n)) * g.at (cv c (endB n)) < 0 := by
    refine lt_of_le_of_ne (not_lt.mp hcr) (mul_ne_zero ?_ ?_)
    · rcases A with A | A <;> linarith
    · rcases B with B | B <;> linarith
  obtain ⟨t0, t1⟩ := lerp_range _ _ hneg A B
  have hv := lerp_value _ _ hneg B
  have hp := gen_pos g c n p h
  simp only [(gen_basic g c).2.2.2.2] at hp
  have r0 := mul_nonneg t0 hpos.le
  have r1 : lerpT (g.at (cv c (endA n))) (g.at (cv c (endB n))) * (1 / 10 ^ 16) ≤ 1 / 10 ^ 16 := by nlinarith
  change p = (1 - lerpT (g.at (cv c (endA n))) (g.at (cv c (endB n)))) • g.pos (cv c (endA n)) + lerpT (g.at (cv c (endA n))) (g.at (cv c (endB n))) • g.pos (cv c (endB n)) at hp
  generalize lerpT (g.at (cv c (endA n))) (g.at (cv c (endB n))) = t at hp hv t0 t1 r0 r1
  rcases cellEdge_ends c n hn with ⟨q1, q2⟩ | ⟨q1, q2⟩
  · rw [q1, q2] at hp hv
    exact ⟨t, t0, t1, hp, by rw [hv]; exact r0, by rw [hv]; exact r1⟩
  · rw [q1, q2] at hp hv
    refine ⟨1 - t, by linarith, by linarith, ?_, ?_, ?_⟩
    · rw [hp]; funext i; simp only [Pi.add_apply, Pi.smul_apply, smul_eq_mul]; ring
    · linarith
    · linarith

theorem filterMap_map_forall {α β γ : Type} (R : β → γ → Prop) (f : α → Option γ) (k : α → β) : ∀ l : List α, (∀ a ∈ l, ∀ p, f a = some p → R (k a) p) →
    List.Forall₂ R ((l.filter (fun a => (f a).isSome)).map k) (l.filterMap f) := by
  intro l
  induction l with
  | nil => exact fun _ => List.Forall₂.nil
  | cons a l ih =>
    intro h
    have ih' := ih (fun b hb => h b (List.mem_cons_of_mem _ hb))
    cases hfa : f a with
    | none => simp only [List.filter_cons, hfa, Option.isSome_none, Bool.false_eq_true, if_false, List.filterMap_cons]; exact ih'
    | some p => simp only [List.filter_cons, hfa, Option.isSome_some, if_true, List.filterMap_cons, List.map_cons]; exact List.Forall₂.cons (h a List.mem_cons_self p hfa) ih'

theorem centroid_mean (g : Grid) (c : Ijk) (hA : g.Active c) (hc : Clear g c) (y : Cell) (hy : y.pos = (gen g c).pos) : IsMeanCross g c (centroid y) := by
  have hhas := (gen_active g c (active_cell hA)).mpr hA
  obtain ⟨n0, hn0, hs0⟩ := gen_nonempty g c hhas
  have hne := Dual.values_ne hn0 hs0
  have hF := filterMap_map_forall (IsCross g) (gen g c).pos (cellEdge c) (List.range 12) (fun n hn p hp => gen_cross g c hc n (by simpa using hn) p hp)
  refine ⟨((List.range 12).filter (fun n => ((gen g c).pos n).isSome)).map (cellEdge c), values (gen g c).pos, ?_, ?_, fun e => ?_, hF, ?_⟩
  · intro h0
    have := hF.length_eq
    rw [h0] at this
    exact hne (List.length_eq_zero_iff.mp this.symm)
  · refine List.Nodup.map_on ?_ (List.nodup_range.filter _)
    intro a ha b hb hab
    exact cellEdge_inj c a b (by simpa using (List.mem_filter.mp ha).1) (by simpa using (List.mem_filter.mp hb).1) hab
  · rw [edgeOf_iff]
    have key : ∀ n < 12, (((gen g c).pos n).isSome = true ↔ g.Changes (cellEdge c n)) := by
      intro n hn
      rw [(gen_slot g c n).1, changes_iff]
      have hpos : (0 : ℝ) < 1 / 10 ^ 16 := by positivity
      have A : g.at (cv c (endA n)) ≠ 0 := by rcases hc _ (ends_lt n hn).1 with A | A <;> intro h <;> linarith
      have B : g.at (cv c (endB n)) ≠ 0 := by rcases hc _ (ends_lt n hn).2 with A | A <;> intro h <;> linarith
      have e : g.at (cv c (endA n)) * g.at (cv c (endB n)) = g.at (cellEdge c n).v * g.at (up (cellEdge c n).ax (cellEdge c n).v) := by
        rcases cellEdge_ends c n hn with ⟨q1, q2⟩ | ⟨q1, q2⟩ <;> rw [q1, q2]
        rw [mul_comm]
      have AB := mul_ne_zero A B
      rw [e] at AB ⊢
      constructor
      · rintro ⟨-, -, h⟩; exact lt_of_le_of_ne (not_lt.mp h) AB
      · intro h; exact ⟨hhas, hn, not_lt.mpr h.le⟩
    simp only [List.mem_map, List.mem_filter, List.mem_range]
    constructor
    · rintro ⟨n, ⟨hn, hs⟩, rfl⟩; exact ⟨⟨n, hn, rfl⟩, (key n hn).mp hs⟩
    · rintro ⟨⟨n, hn, rfl⟩, hs⟩; exact ⟨n, ⟨hn, (key n hn).mpr hs⟩, rfl⟩
  · unfold centroid
    rw [hy, if_neg hne, hF.length_eq]
    rfl

theorem filter_get {α : Type} (p : α → Bool) : ∀ (l : List α) (n : ℕ) (x : α), l[n]? = some x → p x = true → (l.filter p)[(l.take n).countP p]? = some x := by
  intro l
  induction l with
  | nil => intro n x h; simp at h
  | cons a l ih =>
    intro n x h hp
    cases n with
    | zero => simp at h; subst h; simp [hp]
    | succ n =>
      simp at h
      have := ih n x h hp
      by_cases ha : p a = true
      · simp [ha, this]
      · simp [ha, this]

theorem vertex_at (cells : List Cell) (n : ℕ) (x : Cell) (hx : cells[n]? = some x) (hh : x.has = true) : (collect cells).1.getD (rank cells n) 0 = x.vertex := by
  rw [(collect_spec cells).1, List.getD_eq_getElem?_getD, List.getElem?_map]
  unfold rank
  rw [filter_get (fun c : Cell => c.has) cells n x hx hh]
  rfl

variable (x : Ext) (o : Options) (S : List ℝ) (GV : List (Pt 3)) (nx ny nz : ℕ) (iso : ℝ) (V : List (Pt 3)) (F : List Quad)

/-- C120: without outer iterations every vertex is the mean of the points where the edges of its cell cross the isovalue (linear interpolation, up to `1e-16` in the value) -/
theorem C120_nets (h : dualContouring x o S GV nx ny nz iso = some (V, F)) (ho : o.outer = 0) (hS : ∀ s ∈ S, s < iso ∨ iso + 1 / 10 ^ 16 ≤ s) (hlen : S.length = nx * ny * nz) :
    ∃ num : Ijk → ℕ, Set.BijOn num {c | (gridOf S GV nx ny nz iso).Active c} (Set.Iio V.length) ∧
      (∃ L : List GEdge, L.Nodup ∧ (∀ e, e ∈ L ↔ (gridOf S GV nx ny nz iso).Inner e ∧ (gridOf S GV nx ny nz iso).Changes e) ∧ List.Forall₂ (IsRing num) L F) ∧
      ∀ c, (gridOf S GV nx ny nz iso).Active c → IsMeanCross (gridOf S GV nx ny nz iso) c (V.getD (num c) 0) := by
  have hm := dual_some x o S GV nx ny nz iso V F h
  set g := gridOf S GV nx ny nz iso with hg
  have hI : Inv (fun b e p => b.pos e = some p) g (firstCells x g) := firstCells_inv x (fun c e p _ h => h)
  have hC := centroid_inv hI
  unfold contouring at hm
  simp only at hm
  obtain ⟨m0, -, hm⟩ := Option.bind_eq_some_iff.mp hm
  rw [if_pos ho] at hm
  obtain ⟨hV, L, hn, hL, hF⟩ := extract_rings hC (V, F) hm
  simp only at hV hF
  refine ⟨numOf g _, by rw [hV]; exact num_bij hC, ⟨L, hn, hL, hF.imp (fun e q hq => ?_)⟩, fun c hA => ?_⟩
  · rw [hq]
    split_ifs
    · exact Or.inr rfl
    · exact Or.inl rfl
  have hcl : Clear g c := by
    intro m hm8
    obtain ⟨a, b, d, e⟩ := (cv_corner c).1 m hm8
    have hv : g.Vert (cv c m) := by
      rw [e]
      obtain ⟨h1, h2, h3, -⟩ := hA
      have := a.isLt; have := b.isLt; have := d.isLt
      exact ⟨by simp only [corner]; omega, by simp only [corner]; omega, by simp only [corner]; omega⟩
    show (S.map (fun s => s - iso)).getD _ 0 < 0 ∨ _ ≤ (S.map (fun s => s - iso)).getD _ 0
    have hidx : g.idx (cv c m).1 (cv c m).2.1 (cv c m).2.2 < S.length := by
      rw [hlen]
      obtain ⟨h1, h2, h3⟩ := hv
      show (cv c m).1 + nx * ((cv c m).2.1 + ny * (cv c m).2.2) < nx * ny * nz
      have h1' : (cv c m).1 < nx := h1
      have h2' : (cv c m).2.1 < ny := h2
      have h3' : (cv c m).2.2 < nz := h3
      have e1 : ny * ((cv c m).2.2 + 1) ≤ ny * nz := Nat.mul_le_mul_left _ h3'
      have e2 : nx * ((cv c m).2.1 + ny * (cv c m).2.2 + 1) ≤ nx * (ny * nz) := Nat.mul_le_mul_left _ (by nlinarith)
      nlinarith
    generalize g.idx (cv c m).1 (cv c m).2.1 (cv c m).2.2 = n at hidx
    rw [List.getD_eq_getElem _ _ (by simpa using hidx), List.getElem_map]
    rcases hS _ (List.getElem_mem hidx) with h | h
    · left; linarith
    · right; linarith
  obtain ⟨y, hy, hk⟩ := hI.get c (active_cell hA)
  have hyh : y.has = true := by rw [hk.has]; exact (gen_active g c (active_cell hA)).mpr hA
  have hpos : y.pos = (gen g c).pos := by
    funext e
    cases hp : y.pos e with
    | some p => exact (hk.sat e p hp).symm
    | none =>
      have := hk.pos e
      rw [hp] at this
      exact (Option.isNone_iff_eq_none.mp (by simpa using this.symm)).symm
  have hz : ((firstCells x g).map (fun c => if c.has then { c with vertex := centroid c } else c))[cellNo g c]? = some { y with vertex := centroid y } := by
    rw [List.getElem?_map, hy]; simp [hyh]
  rw [hV]
  unfold numOf
  rw [vertex_at _ _ _ hz hyh]
  exact centroid_mean g c hA hcl y hpos

theorem forall_mem {α β : Type} {R : α → β → Prop} {l : List α} {l' : List β} (h : List.Forall₂ R l l') : ∀ b ∈ l', ∃ a ∈ l, R a b := by
  induction h with
  | nil => intro b hb; simp at hb
  | cons hab _ ih =>
    intro b hb
    rcases List.mem_cons.mp hb with rfl | hb
    · exact ⟨_, List.mem_cons_self, hab⟩
    · obtain ⟨a, ha, hr⟩ := ih b hb
      exact ⟨a, List.mem_cons_of_mem _ ha, hr⟩

theorem mean_mem (s : Set (Pt 3)) (hs : Convex ℝ s) : ∀ l : List (Pt 3), l ≠ [] → (∀ p ∈ l, p ∈ s) → (1 / (l.length : ℝ)) • l.sum ∈ s := by
  intro l
  induction l with
  | nil => intro h; exact absurd rfl h
  | cons a l ih =>
    intro _ hl
    by_cases h0 : l = []
    · subst h0; simpa using hl a List.mem_cons_self
    · have h1 := ih h0 (fun p hp => hl p (List.mem_cons_of_mem _ hp))
      have hn : (0 : ℝ) < l.length := by exact_mod_cast List.length_pos_iff.mpr h0
      have h2 := hs (hl a List.mem_cons_self) h1 (a := 1 / ((l.length : ℝ) + 1)) (b := (l.length : ℝ) / ((l.length : ℝ) + 1)) (by positivity) (by positivity) (by field_simp; ring)
      convert h2 using 1
      rw [List.sum_cons, List.length_cons]
      push_cast
      funext i
      simp only [Pi.add_apply, Pi.smul_apply, smul_eq_mul]
      field_simp

/-- C120: a vertex without outer iterations lies in the convex hull of the corners of its cell -/
theorem C120_inside (g : Grid) (c : Ijk) (v : Pt 3) (h : IsMeanCross g c v) : v ∈ convexHull ℝ {p | ∃ a b d, p = g.pos (corner c a b d)} := by
  obtain ⟨L, ps, hne, -, hmem, hF, rfl⟩ := h
  rw [hF.length_eq]
  refine mean_mem _ (convex_convexHull ℝ _) ps (fun h0 => hne ?_) (fun p hp => ?_)
  · rw [h0] at hF; cases hF; rfl
  · obtain ⟨e, he, t, t0, t1, rfl, -⟩ := forall_mem hF p hp
    obtain ⟨⟨a, b, d, h1⟩, a', b', d', h2⟩ := ((hmem e).mp he).1
    have m1 : g.pos e.v ∈ convexHull ℝ {p | ∃ a b d, p = g.pos (corner c a b d)} := subset_convexHull ℝ _ ⟨a, b, d, by rw [h1]⟩
    have m2 : g.pos (up e.ax e.v) ∈ convexHull ℝ {p | ∃ a b d, p = g.pos (corner c a b d)} := subset_convexHull ℝ _ ⟨a', b', d', by rw [h2]⟩
    exact convex_convexHull ℝ _ m1 m2 (by linarith) t0 (by ring)

/-- C120: for the samples of an affine function the vertices without outer iterations lie on its level set, up to `1e-16` in the value -/
theorem C120_plane (g : Grid) (c : Ijk) (v n : Pt 3) (d : ℝ) (hc : g.Cell c) (hA : ∀ u, g.Vert u → g.at u = pdot n (g.pos u) + d) (h : IsMeanCross g c v) : 0 ≤ pdot n v + d ∧ pdot n v + d ≤ 1 / 10 ^ 16 := by
  obtain ⟨L, ps, hne, -, hmem, hF, rfl⟩ := h
  have hconv : Convex ℝ {p : Pt 3 | 0 ≤ pdot n p + d ∧ pdot n p + d ≤ 1 / 10 ^ 16} := by
    rintro p ⟨p0, p1⟩ q ⟨q0, q1⟩ a b ha hb hab
    have e : pdot n (a • p + b • q) + d = a * (pdot n p + d) + b * (pdot n q + d) := by
      simp only [pdot3, Pi.add_apply, Pi.smul_apply, smul_eq_mul]
      linear_combination (-d) * hab
    change 0 ≤ pdot n (a • p + b • q) + d ∧ pdot n (a • p + b • q) + d ≤ 1 / 10 ^ 16
    rw [e]
    constructor
    · have := mul_nonneg ha p0; have := mul_nonneg hb q0; linarith
    · have h1 := mul_le_mul_of_nonneg_left p1 ha
      have h2 := mul_le_mul_of_nonneg_left q1 hb
      calc a * (pdot n p + d) + b * (pdot n q + d) ≤ a * (1 / 10 ^ 16) + b * (1 / 10 ^ 16) := by linarith
        _ = 1 / 10 ^ 16 := by rw [← add_mul, hab, one_mul]
  rw [hF.length_eq]
  refine mean_mem _ hconv ps (fun h0 => hne ?_) (fun p hp => ?_)
  · rw [h0] at hF; cases hF; rfl
  · obtain ⟨e, he, t, t0, t1, rfl, v0, v1⟩ := forall_mem hF p hp
    obtain ⟨⟨a, b, d', h1⟩, a', b', d'', h2⟩ := ((hmem e).mp he).1
    have vert : ∀ a b d : Fin 2, g.Vert (corner c a b d) := by
      intro a b d
      obtain ⟨k1, k2, k3⟩ := hc
      have := a.isLt; have := b.isLt; have := d.isLt
      exact ⟨by simp only [corner]; omega, by simp only [corner]; omega, by simp only [corner]; omega⟩
    have e1 := hA e.v (by rw [← h1]; exact vert _ _ _)
    have e2 := hA (up e.ax e.v) (by rw [← h2]; exact vert _ _ _)
    have e3 : pdot n ((1 - t) • g.pos e.v + t • g.pos (up e.ax e.v)) + d = (1 - t) * g.at e.v + t * g.at (up e.ax e.v) := by
      rw [e1, e2]; simp only [pdot3, Pi.add_apply, Pi.smul_apply, smul_eq_mul]; ring
    change 0 ≤ pdot n ((1 - t) • g.pos e.v + t • g.pos (up e.ax e.v)) + d ∧ pdot n ((1 - t) • g.pos e.v + t • g.pos (up e.ax e.v)) + d ≤ 1 / 10 ^ 16
    rw [e3]; exact ⟨v0, v1⟩

/-- the hypotheses of `C120_nets` hold for the samples of a small ball, and the mesh has vertices -/
example (hb : 0 < o.batch) (hw : 0 ≤ o.posWeight ∧ o.posWeight ≤ 1) : ∃ V F, dualContouring x o ballS ballG 3 3 3 0 = some (V, F) ∧ (gridOf ballS ballG 3 3 3 0).Active (0, 0, 0) ∧
    (∀ s ∈ ballS, s < 0 ∨ 0 + 1 / 10 ^ 16 ≤ s) ∧ ballS.length = 3 * 3 * 3 := by
  obtain ⟨V, F, h⟩ := C119_returns x o ballS ballG 3 3 3 0 (by norm_num) (by norm_num) (by norm_num) (by simp [ballS]) (by simp [ballG]) hb hw (by
      intro s hs
      obtain ⟨n, -, rfl⟩ := List.mem_map.mp hs
      split_ifs
      · left; norm_num
      · right; norm_num)
  refine ⟨V, F, h, ⟨by simp [gridOf], by simp [gridOf], by simp [gridOf], ⟨1, 1, 1, by rw [ball_at _ (by decide)]; norm_num [corner]⟩, 0, 0, 0, by rw [ball_at _ (by decide)]; norm_num [corner]⟩, ?_, by simp [ballS]⟩
  intro s hs
  obtain ⟨n, -, rfl⟩ := List.mem_map.mp hs
  split_ifs
  · left; norm_num
  · right; norm_num

end Gpy.Dual
