import Verif.Spec.Quadtree
import Verif.Proofs.QuadGraded
import Mathlib.Algebra.Order.Field.Basic
import Mathlib.Tactic.Linarith
import Mathlib.Tactic.FieldSimp

/-! C20–C23: quadtrees and octrees. -/

set_option autoImplicit false
namespace Gpy
open Np

variable {K : Type} [Field K] [LinearOrder K] [IsStrictOrderedRing K] {dim : ℕ}

theorem qinv_init (c0 : Fin dim → K) (w0 : K) : QInv c0 w0 (quadInit c0 w0) (fun _ _ => 0) := by
  have hget : ∀ (i : ℕ) c, (quadInit c0 w0).cells[i]? = some c → i = 0 ∧
      c = { C := c0, W := w0, CH := List.replicate (2 ^ dim) (-1), PAR := -1, D := 1 } := by
    intro i c h
    unfold quadInit at h
    match i with
    | 0 => exact ⟨rfl, (Option.some.inj h).symm⟩
    | i + 1 => simp at h
  exact
    { geom := by
        intro i c h
        obtain ⟨-, rfl⟩ := hget i c h
        refine ⟨le_refl _, by simp, fun j => ?_⟩
        simp
      root := ⟨_, rfl, rfl, rfl, fun _ => rfl⟩
      ch := by
        intro i c h
        obtain ⟨-, rfl⟩ := hget i c h
        exact Or.inl rfl
      par := by
        intro i c h hi
        exact absurd (hget i c h).1 hi
      inj := by
        intro i i' c c' h h' _ _
        rw [(hget i c h).1, (hget i' c' h').1]
      adj_le := by
        intro i i' _ _
        exact Nat.zero_le _
      adj := by
        intro i i' c c' h h' j s hs
        obtain ⟨rfl, rfl⟩ := hget i c h
        obtain ⟨rfl, rfl⟩ := hget i' c' h'
        constructor
        · intro e
          have : (0 : ℕ) = 2 * j.val + 1 + s := e
          omega
        · rintro ⟨h1, -⟩
          exfalso
          interval_cases s <;> simp [upE] at h1 }

theorem top_spec {c0 : Fin dim → K} {w0 : K} (hd : dim = 2 ∨ dim = 3) {graded : Bool} {Q Q' : Quad K dim} {ad : ℕ → Fin dim → ℕ} {ind : ℕ}
    (h : QInv c0 w0 Q ad) (hr : subdivideQuadTop graded Q ind = some Q') :
    ∃ c, Q.cells[ind]? = some c ∧ isLeafCell c = true ∧ (∃ ad', QInv c0 w0 Q' ad') ∧ QExt Q Q' ∧
      (∃ c', Q'.cells[ind]? = some c' ∧ isLeafCell c' = false) ∧
      (∀ i c', Q.cells.length ≤ i → Q'.cells[i]? = some c' → c'.D ≤ c.D + 1) ∧
      (graded = true → PreV Q c.D → ∀ f x, Viol Q' f x → Viol Q f x) := by
  unfold subdivideQuadTop at hr
  cases hc : Q.cells[ind]? with
  | none => rw [hc] at hr; exact absurd hr (by simp)
  | some c =>
    rw [hc] at hr
    simp only [Option.bind_eq_bind, Option.bind_some] at hr
    by_cases hl : isLeafCell c = true
    · obtain ⟨Q1, h1, h2, h3, h4, h5, h6⟩ := subdivideQuad_spec hd graded (c.D + 1) Q ad ind c h hc hl (by omega)
      rw [hr] at h1; cases h1
      exact ⟨c, rfl, hl, h2, h3, h4, h5, h6⟩
    · exfalso
      rw [subdivideQuad] at hr
      have : subdivideOnce Q ind = none := by
        unfold subdivideOnce
        rw [hc]
        simp [hl]
      rw [hc, this] at hr
      simp at hr

theorem reach_inv {c0 : Fin dim → K} {w0 : K} (hd : dim = 2 ∨ dim = 3) {Q : Quad K dim} (h : QuadReach c0 w0 Q) : ∃ ad, QInv c0 w0 Q ad := by
  induction h with
  | init => exact ⟨_, qinv_init c0 w0⟩
  | step Q Q' graded ind _ hr ih =>
    obtain ⟨ad, h⟩ := ih
    obtain ⟨-, -, -, h2, -⟩ := top_spec hd h hr
    exact h2

theorem graded_reach {c0 : Fin dim → K} {w0 : K} {Q : Quad K dim} (h : GradedReach c0 w0 Q) : QuadReach c0 w0 Q := by
  induction h with
  | init => exact QuadReach.init
  | step Q Q' ind _ hr ih => exact QuadReach.step Q Q' true ind ih hr

section geom
variable {c0 : Fin dim → K} {w0 : K} {Q : Quad K dim} {ad : ℕ → Fin dim → ℕ} (h : QInv c0 w0 Q ad)
include h

theorem QInv.lo_eq {i : ℕ} {c : QuadCell K dim} (hc : Q.cells[i]? = some c) (j : Fin dim) :
    c.lo j = c0 j - w0 / 2 + w0 * (ad i j : K) / 2 ^ (c.D - 1) := by
  obtain ⟨h1, h2, h3⟩ := h.geom i c hc
  unfold QuadCell.lo
  rw [h3 j, h2]
  obtain ⟨e, he⟩ := Nat.exists_eq_add_of_le h1
  rw [he, Nat.add_sub_cancel_left, pow_add]
  field_simp
  ring

theorem QInv.hi_eq {i : ℕ} {c : QuadCell K dim} (hc : Q.cells[i]? = some c) (j : Fin dim) :
    c.hi j = c0 j - w0 / 2 + w0 * ((ad i j : K) + 1) / 2 ^ (c.D - 1) := by
  obtain ⟨h1, h2, h3⟩ := h.geom i c hc
  unfold QuadCell.hi
  rw [h3 j, h2]
  obtain ⟨e, he⟩ := Nat.exists_eq_add_of_le h1
  rw [he, Nat.add_sub_cancel_left, pow_add]
  field_simp
  ring

variable (hw : 0 < w0)
include hw

theorem QInv.up_iff {i i' : ℕ} {c c' : QuadCell K dim} (hc : Q.cells[i]? = some c) (hc' : Q.cells[i']? = some c') (j : Fin dim) :
    c.hi j = c'.lo j ↔ upE (c.D - 1) (ad i j) (c'.D - 1) (ad i' j) := by
  rw [h.hi_eq hc, h.lo_eq hc', add_right_inj]
  unfold upE
  rw [div_eq_div_iff (by positivity) (by positivity), mul_assoc, mul_assoc, mul_right_inj' hw.ne']
  constructor
  · intro e; exact_mod_cast e
  · intro e; exact_mod_cast e

theorem QInv.lt_iff {i i' : ℕ} {c c' : QuadCell K dim} (hc : Q.cells[i]? = some c) (hc' : Q.cells[i']? = some c') (j : Fin dim) :
    c.lo j < c'.hi j ↔ ad i j * 2 ^ (c'.D - 1) < (ad i' j + 1) * 2 ^ (c.D - 1) := by
  rw [h.lo_eq hc, h.hi_eq hc', add_lt_add_iff_left, div_lt_div_iff₀ (by positivity) (by positivity), mul_assoc, mul_assoc,
    mul_lt_mul_iff_right₀ hw]
  constructor
  · intro e; exact_mod_cast e
  · intro e; exact_mod_cast e

theorem QInv.ov_iff {i i' : ℕ} {c c' : QuadCell K dim} (hc : Q.cells[i]? = some c) (hc' : Q.cells[i']? = some c') (j : Fin dim) :
    (c.lo j < c'.hi j ∧ c'.lo j < c.hi j) ↔ ovE (c.D - 1) (ad i j) (c'.D - 1) (ad i' j) := by
  rw [h.lt_iff hw hc hc', h.lt_iff hw hc' hc]; rfl

end geom

theorem childless_iff (hd : dim = 2 ∨ dim = 3) {c0 : Fin dim → K} {w0 : K} {Q : Quad K dim} {ad : ℕ → Fin dim → ℕ} (h : QInv c0 w0 Q ad)
    {i : ℕ} {c : QuadCell K dim} (hc : Q.cells[i]? = some c) : c.Childless ↔ isLeafCell c = true := by
  have h2 := two_le_pow hd
  constructor
  · intro hl
    rcases h.ch i c hc with e | ⟨m, e, -⟩
    · exact (isLeaf_iff hd h hc).mpr e
    · exfalso
      have h3 : ((m + 0 : ℕ) : Int) ∈ c.CH := by
        rw [e]
        exact List.mem_of_getElem? (chRow_get m 0 (by omega))
      have := hl _ h3
      omega
  · intro hl x hx
    rw [(isLeaf_iff hd h hc).mp hl] at hx
    exact List.eq_of_mem_replicate hx

/-- C20 (a): the arrays describe a tree.  Row 0 is the root; every other row is one of the children of the row `PAR` points to; a row has no children
or `2^dim` of them, one for every choice of a half of the box along each axis, and these name it as their parent, are one level deeper and
half as wide. -/
theorem C20_tree_structure (hd : dim = 2 ∨ dim = 3) {c0 : Fin dim → K} {w0 : K} {Q : Quad K dim} (h : QuadReach c0 w0 Q) :
    (∃ r, Q.cells[0]? = some r ∧ r.D = 1 ∧ r.PAR = -1 ∧ r.C = c0 ∧ r.W = w0) ∧
    (∀ (i : ℕ) c, Q.cells[i]? = some c → i ≠ 0 →
      ∃ (p : ℕ) (cp : QuadCell K dim), c.PAR = (p : Int) ∧ Q.cells[p]? = some cp ∧ ((i : ℕ) : Int) ∈ cp.CH) ∧
    ∀ (i : ℕ) c, Q.cells[i]? = some c → c.CH.length = 2 ^ dim ∧ (c.Childless ∨
      ((∀ x ∈ c.CH, ∃ (q : ℕ) (cq : QuadCell K dim), x = (q : Int) ∧ Q.cells[q]? = some cq ∧ cq.PAR = (i : Int) ∧ cq.D = c.D + 1 ∧
          cq.W = c.W / 2 ∧ ∀ j, (cq.lo j = c.lo j ∧ cq.hi j = c.C j) ∨ (cq.lo j = c.C j ∧ cq.hi j = c.hi j)) ∧
        ∀ side : Fin dim → Bool, ∃ (q : ℕ) (cq : QuadCell K dim), ((q : ℕ) : Int) ∈ c.CH ∧ Q.cells[q]? = some cq ∧
          ∀ j, if side j then cq.lo j = c.C j ∧ cq.hi j = c.hi j else cq.lo j = c.lo j ∧ cq.hi j = c.C j)) := by
  obtain ⟨ad, h⟩ := reach_inv hd h
  refine ⟨?_, ?_, ?_⟩
  · obtain ⟨r, h1, h2, h3, h4⟩ := h.root
    obtain ⟨-, h5, h6⟩ := h.geom 0 r h1
    refine ⟨r, h1, h2, h3, ?_, ?_⟩
    · funext j
      rw [h6 j, h4 j, h2]; simp
    · rw [h5, h2]; simp
  · intro i c hc hi
    obtain ⟨p, cp, m, k, h1, -, h2, h3, h4, h5, -⟩ := h.par i c hc hi
    refine ⟨p, cp, h1, h2, ?_⟩
    rw [h3, h5]
    exact List.mem_of_getElem? (chRow_get m k h4)
  · intro i c hc
    rcases h.ch i c hc with e | ⟨m, e, -, hm⟩
    · exact ⟨by rw [e]; simp, Or.inl ((childless_iff hd h hc).mpr ((isLeaf_iff hd h hc).mpr e))⟩
    · have hchild : ∀ k < 2 ^ dim, ∃ cq, Q.cells[m + k]? = some cq ∧ cq.PAR = (i : Int) ∧ cq.D = c.D + 1 ∧ cq.W = c.W / 2 ∧
          ∀ j : Fin dim, (kbit k j = 0 → cq.lo j = c.lo j ∧ cq.hi j = c.C j) ∧ (kbit k j = 1 → cq.lo j = c.C j ∧ cq.hi j = c.hi j) := by
        intro k hk
        obtain ⟨cq, h1, h2, h3, h4⟩ := hm k hk
        obtain ⟨hD, hW, hC⟩ := h.geom i c hc
        obtain ⟨hD', hW', hC'⟩ := h.geom _ cq h1
        obtain ⟨e', he'⟩ := Nat.exists_eq_add_of_le hD
        refine ⟨cq, h1, h2, h3, ?_, fun j => ?_⟩
        · rw [hW', hW, h3, he', Nat.add_sub_cancel_left, show 1 + e' + 1 - 1 = e' + 1 by omega, pow_succ]
          field_simp
        · rw [h.lo_eq h1, h.hi_eq h1, h.lo_eq hc, h.hi_eq hc, hC j, h4 j, h3, he', Nat.add_sub_cancel_left,
            show 1 + e' + 1 - 1 = e' + 1 by omega, pow_succ, pow_add]
          constructor
          · intro e0; rw [e0]
            constructor
            · push_cast; field_simp; ring
            · push_cast; field_simp; ring
          · intro e0; rw [e0]
            constructor
            · push_cast; field_simp
            · push_cast; field_simp; ring
      refine ⟨by rw [e]; exact length_chRow m, Or.inr ⟨?_, ?_⟩⟩
      · intro x hx
        rw [e] at hx
        unfold chRow at hx
        rw [List.mem_map] at hx
        obtain ⟨k, hk, rfl⟩ := hx
        rw [List.mem_range] at hk
        obtain ⟨cq, h1, h2, h3, h4, h5⟩ := hchild k hk
        refine ⟨m + k, cq, rfl, h1, h2, h3, h4, fun j => ?_⟩
        have := kbit_lt k j
        rcases (show kbit k j = 0 ∨ kbit k j = 1 by omega) with e0 | e0
        · exact Or.inl ((h5 j).1 e0)
        · exact Or.inr ((h5 j).2 e0)
      · intro side
        obtain ⟨k, hk, hb⟩ := exists_bits hd (fun j => if side j then 1 else 0) (fun j => by split_ifs <;> omega)
        obtain ⟨cq, h1, -, -, -, h5⟩ := hchild k hk
        refine ⟨m + k, cq, ?_, h1, fun j => ?_⟩
        · rw [e]; exact List.mem_of_getElem? (chRow_get m k hk)
        · have := hb j
          split_ifs with hs
          · rw [if_pos hs] at this; exact (h5 j).2 this
          · rw [if_neg hs] at this; exact (h5 j).1 this

/-- a box with children is covered by them -/
theorem cover_children (hd : dim = 2 ∨ dim = 3) {c0 : Fin dim → K} {w0 : K} {Q : Quad K dim} (h : QuadReach c0 w0 Q) {i : ℕ} {c : QuadCell K dim}
    (hc : Q.cells[i]? = some c) (hl : ¬ c.Childless) {p : Fin dim → K} (hp : c.Contains p) :
    ∃ (q : ℕ) (cq : QuadCell K dim), ((q : ℕ) : Int) ∈ c.CH ∧ Q.cells[q]? = some cq ∧ cq.Contains p := by
  obtain ⟨-, h0⟩ := (C20_tree_structure hd h).2.2 i c hc
  rcases h0 with h0 | ⟨-, h0⟩
  · exact absurd h0 hl
  · obtain ⟨q, cq, h1, h2, h3⟩ := h0 (fun j => decide (c.C j ≤ p j))
    refine ⟨q, cq, h1, h2, fun j => ?_⟩
    have h4 := h3 j
    by_cases hs : c.C j ≤ p j
    · rw [if_pos (by simpa using hs)] at h4
      rw [h4.1, h4.2]; exact ⟨hs, (hp j).2⟩
    · rw [if_neg (by simpa using hs)] at h4
      rw [h4.1, h4.2]; exact ⟨(hp j).1, (not_le.mp hs).le⟩

/-- C20 (b): the leaves tile the root box: they lie in it, cover it, and no two of them overlap. -/
theorem C20_leaves_tile (hd : dim = 2 ∨ dim = 3) {c0 : Fin dim → K} {w0 : K} (hw : 0 < w0) {Q : Quad K dim} (h : QuadReach c0 w0 Q) :
    (∀ (i : ℕ) c, Q.cells[i]? = some c → ∀ p, c.Contains p → ∀ j, c0 j - w0 / 2 ≤ p j ∧ p j ≤ c0 j + w0 / 2) ∧
    (∀ p : Fin dim → K, (∀ j, c0 j - w0 / 2 ≤ p j ∧ p j ≤ c0 j + w0 / 2) →
      ∃ (i : ℕ) (c : QuadCell K dim), Q.cells[i]? = some c ∧ c.Childless ∧ c.Contains p) ∧
    ∀ (i i' : ℕ) c c', Q.cells[i]? = some c → Q.cells[i']? = some c' → c.Childless → c'.Childless →
      ∀ p : Fin dim → K, c.Interior p → c'.Interior p → i = i' := by
  obtain ⟨ad, hI⟩ := reach_inv hd h
  refine ⟨?_, ?_, ?_⟩
  · intro i c hc p hp
    -- every cell lies in the root box, by induction on the index
    induction i using Nat.strong_induction_on generalizing c with
    | _ i ih =>
      by_cases hi : i = 0
      · subst hi
        obtain ⟨r, h1, h2, h3, h4, h5⟩ := (C20_tree_structure hd h).1
        rw [hc] at h1; cases h1
        intro j
        have := hp j
        unfold QuadCell.lo QuadCell.hi at this
        rwa [h4, h5] at this
      · obtain ⟨q, cq, m, k, h1, h2, h3, h4, h5, h6, -⟩ := hI.par i c hc hi
        obtain ⟨-, h0⟩ := (C20_tree_structure hd h).2.2 q cq h3
        have hmem : ((i : ℕ) : Int) ∈ cq.CH := by rw [h4, h6]; exact List.mem_of_getElem? (chRow_get m k h5)
        rcases h0 with h0 | ⟨h0, -⟩
        · have := h0 _ hmem; omega
        · obtain ⟨y, cy, hy1, hy2, -, -, -, hy3⟩ := h0 _ hmem
          have hyi : y = i := by omega
          subst hyi
          rw [hc] at hy2; cases hy2
          have hW : 0 < cq.W := by
            rw [(hI.geom q cq h3).2.1]; positivity
          refine ih q h2 cq h3 (fun j => ?_)
          have h7 := hp j
          have e1 : cq.lo j ≤ cq.C j := by unfold QuadCell.lo; linarith
          have e2 : cq.C j ≤ cq.hi j := by unfold QuadCell.hi; linarith
          rcases hy3 j with ⟨e3, e4⟩ | ⟨e3, e4⟩ <;> rw [e3, e4] at h7 <;> constructor <;> linarith [h7.1, h7.2]
  · intro p hp
    obtain ⟨r, h1, h2, h3, h4, h5⟩ := (C20_tree_structure hd h).1
    have key : ∀ (n i : ℕ) (c : QuadCell K dim), Q.cells.length ≤ i + n → Q.cells[i]? = some c → c.Contains p →
        ∃ (i : ℕ) (c : QuadCell K dim), Q.cells[i]? = some c ∧ c.Childless ∧ c.Contains p := by
      intro n
      induction n with
      | zero =>
        intro i c hn hc _
        have := (List.getElem?_eq_some_iff.mp hc).1
        omega
      | succ n ih =>
        intro i c hn hc hp
        by_cases hl : c.Childless
        · exact ⟨i, c, hc, hl, hp⟩
        · obtain ⟨q, cq, g1, g2, g3⟩ := cover_children hd h hc hl hp
          refine ih q cq ?_ g2 g3
          rcases hI.ch i c hc with e | ⟨m, e, him, -⟩
          · exact absurd ((childless_iff hd hI hc).mpr ((isLeaf_iff hd hI hc).mpr e)) hl
          · rw [e] at g1
            unfold chRow at g1
            rw [List.mem_map] at g1
            obtain ⟨k, -, hk⟩ := g1
            omega
    refine key Q.cells.length 0 r (by omega) h1 (fun j => ?_)
    unfold QuadCell.lo QuadCell.hi
    rw [h4, h5]; exact hp j
  · -- overlapping leaves are equal
    have key : ∀ (i i' : ℕ) c c', Q.cells[i]? = some c → Q.cells[i']? = some c' → c.Childless → c.D ≤ c'.D →
        ∀ p : Fin dim → K, c.Interior p → c'.Interior p → i = i' := by
      intro i i' c c' hc hc' hl hD p hp hp'
      have ho : ∀ j, ovE (c'.D - 1) (ad i' j) (c.D - 1) (ad i j) := by
        intro j
        rw [← hI.ov_iff hw hc' hc]
        exact ⟨(hp' j).1.trans (hp j).2, (hp j).1.trans (hp' j).2⟩
      rcases Nat.lt_or_eq_of_le hD with hD | hD
      · exact absurd ho (hI.no_inside hd hc hc' ((childless_iff hd hI hc).mp hl) hD)
      · apply hI.inj i i' c c' hc hc' hD
        intro j
        have := ho j
        have e := ovE_add' (c.D - 1) (ad i j) 0 (ad i' j)
        rw [Nat.add_zero] at e
        rw [← hD, e] at this
        simpa using this.symm
    intro i i' c c' hc hc' hl hl' p hp hp'
    rcases le_total c.D c'.D with hD | hD
    · exact key i i' c c' hc hc' hl hD p hp hp'
    · exact (key i' i c' c hc' hc hl' hD p hp' hp).symm

/-- C20 (c): `subdivide_quad` succeeds on every leaf of every reachable tree (no assertion fails, no index is out of range), gives the leaf
children, keeps the other columns of all old rows, and never removes children. -/
theorem C20_subdivide_succeeds (hd : dim = 2 ∨ dim = 3) {c0 : Fin dim → K} {w0 : K} {Q : Quad K dim} (h : QuadReach c0 w0 Q) (graded : Bool)
    {ind : ℕ} {c : QuadCell K dim} (hc : Q.cells[ind]? = some c) (hl : c.Childless) :
    ∃ Q', subdivideQuadTop graded Q ind = some Q' ∧ (∃ c', Q'.cells[ind]? = some c' ∧ ¬ c'.Childless) ∧
      ∀ (i : ℕ) b, Q.cells[i]? = some b → ∃ b', Q'.cells[i]? = some b' ∧ b'.C = b.C ∧ b'.W = b.W ∧ b'.D = b.D ∧ b'.PAR = b.PAR ∧
        (¬ b.Childless → b'.CH = b.CH) := by
  obtain ⟨ad, hI⟩ := reach_inv hd h
  obtain ⟨Q', h1, ⟨ad', h2⟩, h3, ⟨c', h4, h4'⟩, -⟩ :=
    subdivideQuad_spec hd graded (c.D + 1) Q ad ind c hI hc ((childless_iff hd hI hc).mp hl) (by omega)
  refine ⟨Q', ?_, ⟨c', h4, ?_⟩, ?_⟩
  · unfold subdivideQuadTop
    rw [hc]; exact h1
  · rw [childless_iff hd h2 h4, h4']; simp
  · intro i b hb
    obtain ⟨b', e1, e2, e3, e4, e5, e6⟩ := h3.keep i b hb
    refine ⟨b', e1, e2, e3, e4, e5, fun hn => ?_⟩
    rw [childless_iff hd hI hb] at hn
    rw [e6 (by simpa using hn)]

/-- C20 (d): the recursion of `subdivide_quad` is no deeper than the depth of the cell: a larger bound gives the same result. -/
theorem C20_recursion_depth (graded : Bool) : ∀ (fuel : ℕ) (Q Q' : Quad K dim) (ind : ℕ),
    subdivideQuad graded fuel Q ind = some Q' → subdivideQuad graded (fuel + 1) Q ind = some Q'
  | 0, Q, Q', ind, h => by simp [subdivideQuad] at h
  | fuel + 1, Q, Q', ind, h => by
    rw [subdivideQuad] at h ⊢
    cases hc : Q.cells[ind]? with
    | none => rw [hc] at h; simp at h
    | some c =>
      rw [hc] at h
      cases hQ : subdivideOnce Q ind with
      | none => rw [hQ] at h; simp at h
      | some Q2 =>
        rw [hQ] at h
        simp only [Option.bind_eq_bind, Option.bind_some] at h ⊢
        cases graded with
        | false => exact h
        | true =>
          simp only [if_true] at h ⊢
          have key : ∀ (L : List ℕ) (Qc : Quad K dim), L.foldlM (fun Q' nb => (Q'.cells[nb]?).bind (fun b =>
              if (isLeafCell b && decide (b.D < c.D)) = true then subdivideQuad true fuel Q' nb else some Q')) Qc = some Q' →
              L.foldlM (fun Q' nb => (Q'.cells[nb]?).bind (fun b =>
              if (isLeafCell b && decide (b.D < c.D)) = true then subdivideQuad true (fuel + 1) Q' nb else some Q')) Qc = some Q' := by
            intro L
            induction L with
            | nil => intro Qc h; exact h
            | cons nb L ih =>
              intro Qc h
              rw [List.foldlM_cons, Option.bind_eq_bind, Option.bind_eq_some_iff] at h ⊢
              obtain ⟨Q3, h1, h2⟩ := h
              refine ⟨Q3, ?_, ih Q3 h2⟩
              cases hb : Qc.cells[nb]? with
              | none => rw [hb] at h1; simp at h1
              | some b =>
                rw [hb, Option.bind_some] at h1
                rw [Option.bind_some]
                split_ifs at h1 ⊢ with hcond
                · exact C20_recursion_depth true fuel Qc Q3 nb h1
                · exact h1
          exact key _ _ h

/-- C21: at all times, for any two rows (leaves or not), `A[i,i']` is the code of the direction in which cell `i'` touches cell `i` along a facet of
positive measure, and zero if it does not; and `A[i',i]` is the opposite code. -/
theorem C21_adjacency_codes (hd : dim = 2 ∨ dim = 3) {c0 : Fin dim → K} {w0 : K} (hw : 0 < w0) {Q : Quad K dim} (h : QuadReach c0 w0 Q)
    {i i' : ℕ} {c c' : QuadCell K dim} (hc : Q.cells[i]? = some c) (hc' : Q.cells[i']? = some c') :
    (∀ code, code ≠ 0 → (Q.A i i' = code ↔ Touches c c' code)) ∧
    (Q.A i i' = 0 ↔ ∀ code, ¬ Touches c c' code) ∧
    ∀ j : Fin dim, (Q.A i i' = 2 * j.val + 1 ↔ Q.A i' i = 2 * j.val + 2) := by
  obtain ⟨ad, hI⟩ := reach_inv hd h
  have hz : ∀ (j : Fin dim) (s : ℕ), s < 2 → (adjZ (c.D - 1) (ad i) (c'.D - 1) (ad i') j s ↔
      ((s = 0 ∧ c'.hi j = c.lo j) ∨ (s = 1 ∧ c.hi j = c'.lo j)) ∧ ∀ k, k ≠ j → c.lo k < c'.hi k ∧ c'.lo k < c.hi k) := by
    intro j s hs
    unfold adjZ
    simp only [← hI.ov_iff hw hc hc', hI.up_iff hw hc hc', hI.up_iff hw hc' hc]
    interval_cases s <;> simp
  have hle := hI.adj_le i i' (List.getElem?_eq_some_iff.mp hc).1 (List.getElem?_eq_some_iff.mp hc').1
  have h1 : ∀ code, code ≠ 0 → (Q.A i i' = code ↔ Touches c c' code) := by
    intro code h0
    constructor
    · intro e
      obtain ⟨j, s, hs, e'⟩ := code_dir hle (by omega)
      have := (hz j s hs).mp ((hI.adj i i' c c' hc hc' j s hs).mp e')
      refine ⟨j, ?_, this.2⟩
      rcases this.1 with ⟨e1, e2⟩ | ⟨e1, e2⟩
      · exact Or.inl ⟨by omega, e2⟩
      · exact Or.inr ⟨by omega, e2⟩
    · rintro ⟨j, e1, e2⟩
      rcases e1 with ⟨e1, e3⟩ | ⟨e1, e3⟩
      · rw [e1]
        exact (hI.adj i i' c c' hc hc' j 0 (by omega)).mpr ((hz j 0 (by omega)).mpr ⟨Or.inl ⟨rfl, e3⟩, e2⟩)
      · rw [e1]
        exact (hI.adj i i' c c' hc hc' j 1 (by omega)).mpr ((hz j 1 (by omega)).mpr ⟨Or.inr ⟨rfl, e3⟩, e2⟩)
  refine ⟨h1, ?_, ?_⟩
  · constructor
    · intro e code ht
      by_cases h0 : code = 0
      · obtain ⟨j, e1, -⟩ := ht
        rcases e1 with ⟨e1, -⟩ | ⟨e1, -⟩ <;> omega
      · have := (h1 code h0).mpr ht
        omega
    · intro hn
      by_contra h0
      exact hn _ ((h1 _ h0).mp rfl)
  · intro j
    rw [show 2 * j.val + 1 = 2 * j.val + 1 + 0 by omega, hI.adj i i' c c' hc hc' j 0 (by omega),
      show 2 * j.val + 2 = 2 * j.val + 1 + 1 by omega, hI.adj i' i c' c hc' hc j 1 (by omega), adjZ_symm (by omega)]

theorem graded_noviol {c0 : Fin dim → K} {w0 : K} (hd : dim = 2 ∨ dim = 3) {Q : Quad K dim} (h : GradedReach c0 w0 Q) :
    ∀ f x, ¬ Viol Q f x := by
  induction h with
  | init =>
    rintro f x ⟨cf, cx, -, -, -, -, hA, -⟩
    exact hA rfl
  | step Q Q' ind hQ hr ih =>
    obtain ⟨ad, hI⟩ := reach_inv hd (graded_reach hQ)
    obtain ⟨c, -, -, -, -, -, -, h6⟩ := top_spec hd hI hr
    intro f x hv
    exact ih f x (h6 rfl (fun f x _ _ hv _ _ => absurd hv (ih f x)) f x hv)

/-- C22: in a tree built with `graded=True` two leaves that touch along a facet differ in depth by at most one. -/
theorem C22_graded (hd : dim = 2 ∨ dim = 3) {c0 : Fin dim → K} {w0 : K} (hw : 0 < w0) {Q : Quad K dim} (h : GradedReach c0 w0 Q)
    {i i' : ℕ} {c c' : QuadCell K dim} (hc : Q.cells[i]? = some c) (hc' : Q.cells[i']? = some c') (hl : c.Childless) (hl' : c'.Childless)
    {code : ℕ} (ht : Touches c c' code) : c.D ≤ c'.D + 1 ∧ c'.D ≤ c.D + 1 := by
  have hR := graded_reach h
  obtain ⟨ad, hI⟩ := reach_inv hd hR
  have hA : Q.A i i' ≠ 0 := by
    intro e
    exact ((C21_adjacency_codes hd hw hR hc hc').2.1.mp e) code ht
  rw [childless_iff hd hI hc] at hl
  rw [childless_iff hd hI hc'] at hl'
  constructor
  · by_contra hcon
    exact graded_noviol hd h i i' ⟨c, c', hc, hc', hl, hl', hA, by omega⟩
  · by_contra hcon
    exact graded_noviol hd h i' i ⟨c', c, hc', hc, hl', hl, hI.A_symm hc hc' hA, by omega⟩

/-- The hypotheses are met: three graded calls on the unit square; the third one (on a cell of depth 3) also splits two neighbours of depth 2. -/
def quadDemo : Option (Quad ℚ 2) :=
  ((subdivideQuadTop true (quadInit (fun _ => 1 / 2) 1) 0).bind (fun Q => subdivideQuadTop true Q 1)).bind (fun Q => subdivideQuadTop true Q 8)

example : quadDemo.map (fun Q => Q.cells.map (fun c => c.D)) =
    some [1, 2, 2, 2, 2, 3, 3, 3, 3, 4, 4, 4, 4, 3, 3, 3, 3, 3, 3, 3, 3] := by decide +kernel

example (Q : Quad ℚ 2) (h : quadDemo = some Q) : GradedReach (fun _ => 1 / 2) 1 Q := by
  unfold quadDemo at h
  rw [Option.bind_eq_some_iff] at h
  obtain ⟨Q2, h2, h3⟩ := h
  rw [Option.bind_eq_some_iff] at h2
  obtain ⟨Q1, h1, h2⟩ := h2
  exact .step _ _ 8 (.step _ _ 1 (.step _ _ 0 .init h1) h2) h3

/-- Cell 10 (depth 4) is touched by cell 15 (depth 3) on its right, and does not touch cell 13. -/
example : quadDemo.map (fun Q => (Q.A 10 15, Q.A 15 10, Q.A 10 13)) = some (2, 1, 0) := by decide +kernel

end Gpy
