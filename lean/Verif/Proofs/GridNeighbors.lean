import Verif.Model.GridNeighbors
import Verif.Spec.GridNeighbors
import Mathlib.Tactic.IntervalCases
import Mathlib.Tactic.Ring
import Mathlib.Tactic.Linarith
import Mathlib.Algebra.BigOperators.Group.Finset.Basic
import Mathlib.Algebra.BigOperators.Fin

set_option autoImplicit false
namespace Gpy
open Np Finset Gpy.Spec

/-- the multi-index of a cell -/
def unrZ (gs : List ℕ) (c : ℕ) : List ℤ := (unravelF gs c).map (fun i : ℕ => (i : ℤ))

theorem ravel_ok (gs : List ℕ) : ∀ l : List ℤ, l.length = gs.length → gnOut gs l = false →
    ravelWrapF gs l < gs.prod ∧ unrZ gs (ravelWrapF gs l) = l := by
  induction gs with
  | nil => intro l hl _; cases l <;> simp_all [ravelWrapF, unrZ, unravelF]
  | cons g gs ih =>
    intro l hl ho
    cases l with
    | nil => simp at hl
    | cons i is =>
      simp only [gnOut, Bool.or_eq_false_iff, decide_eq_false_iff_not, not_lt, not_le] at ho
      obtain ⟨⟨h0, h1⟩, ho⟩ := ho
      obtain ⟨r1, r2⟩ := ih is (by simpa using hl) ho
      have hm : i % (g : ℤ) = i := Int.emod_eq_of_lt h0 h1
      obtain ⟨k, rfl⟩ := Int.eq_ofNat_of_zero_le h0
      have hk : k < g := by omega
      simp only [ravelWrapF, hm, Int.toNat_natCast, List.prod_cons]
      constructor
      · calc k + g * ravelWrapF gs is < g + g * ravelWrapF gs is := by omega
          _ = g * (ravelWrapF gs is + 1) := by ring
          _ ≤ g * gs.prod := Nat.mul_le_mul_left _ r1
      · unfold unrZ at r2 ⊢
        simp only [unravelF, List.map_cons]
        rw [Nat.add_mul_mod_self_left, Nat.mod_eq_of_lt hk, Nat.add_mul_div_left _ _ (by omega : 0 < g), Nat.div_eq_of_lt hk, Nat.zero_add, r2]

theorem unr_ok (gs : List ℕ) : ∀ d, d < gs.prod → gnOut gs (unrZ gs d) = false ∧ ravelWrapF gs (unrZ gs d) = d := by
  induction gs with
  | nil => intro d hd; simp at hd; subst hd; exact ⟨rfl, rfl⟩
  | cons g gs ih =>
    intro d hd
    rw [List.prod_cons] at hd
    have hg : 0 < g := by rcases Nat.eq_zero_or_pos g with h | h <;> [simp [h] at hd; exact h]
    obtain ⟨i1, i2⟩ := ih (d / g) (Nat.div_lt_of_lt_mul hd)
    have hm : d % g < g := Nat.mod_lt _ hg
    unfold unrZ at *
    simp only [unravelF, List.map_cons, gnOut, ravelWrapF]
    constructor
    · rw [i1]; simp; omega
    · rw [i2]
      have : ((d % g : ℕ) : ℤ) % (g : ℤ) = ((d % g : ℕ) : ℤ) := Int.emod_eq_of_lt (by omega) (by omega)
      rw [this, Int.toNat_natCast, Nat.mod_add_div]

theorem unr_length (gs : List ℕ) : ∀ c, (unravelF gs c).length = gs.length := by
  induction gs with
  | nil => intro; rfl
  | cons g gs ih => intro c; simp [unravelF, ih]

theorem gnRow_idx (gs : List ℕ) (off : List ℤ) (c : ℕ) :
    List.zipWith (fun (i : ℕ) (o : ℤ) => (i : ℤ) + o) (unravelF gs c) off = List.zipWith (· + ·) (unrZ gs c) off := by
  unfold unrZ; rw [List.zipWith_map_left]

theorem gnRow_spec {gs : List ℕ} {off : List ℤ} (hl : off.length = gs.length) (c d : ℕ) :
    ((gnRow gs off).oob c = false ∧ (gnRow gs off).nb c = d) ↔ d < gs.prod ∧ unrZ gs d = List.zipWith (· + ·) (unrZ gs c) off := by
  unfold gnRow
  simp only [gnRow_idx]
  constructor
  · rintro ⟨h1, h2⟩
    obtain ⟨r1, r2⟩ := ravel_ok gs _ (by simp [unrZ, unr_length, hl]) h1
    rw [h2] at r1 r2
    exact ⟨r1, r2⟩
  · rintro ⟨h1, h2⟩
    obtain ⟨u1, u2⟩ := unr_ok gs d h1
    rw [← h2]
    exact ⟨u1, u2⟩

theorem zipWith_add_inj {a b b' : List ℤ} (h1 : b.length = a.length) (h2 : b'.length = a.length)
    (h : List.zipWith (· + ·) a b = List.zipWith (· + ·) a b') : b = b' := by
  induction a generalizing b b' with
  | nil => cases b <;> cases b' <;> simp_all
  | cons x a ih =>
    cases b with
    | nil => simp at h1
    | cons y b =>
      cases b' with
      | nil => simp at h2
      | cons z b' =>
        simp only [List.zipWith_cons_cons, List.cons.injEq] at h
        rw [ih (by simpa using h1) (by simpa using h2) h.2, show y = z by omega]

/-- the cells listed in column `c` -/
def Rel (rows : List GRow) (c d : ℕ) : Prop := ∃ r ∈ rows, r.oob c = false ∧ r.nb c = d

theorem Rel_step (rows : List GRow) (c d : ℕ) : Rel (gnStep rows) c d ↔ Rel rows c d ∨ ∃ e, Rel rows c e ∧ Rel rows e d := by
  unfold Rel gnStep
  constructor
  · rintro ⟨r, hr, h1, h2⟩
    rw [List.mem_append] at hr
    rcases hr with hr | hr
    · exact Or.inl ⟨r, hr, h1, h2⟩
    · obtain ⟨ri, hi, hr⟩ := List.mem_flatMap.mp hr
      obtain ⟨rk, hk, rfl⟩ := List.mem_map.mp hr
      simp only [Bool.or_eq_false_iff] at h1 h2
      exact Or.inr ⟨ri.nb c, ⟨ri, hi, h1.1, rfl⟩, ⟨rk, hk, h1.2, h2⟩⟩
  · rintro (⟨r, hr, h1, h2⟩ | ⟨e, ⟨ri, hi, h1, rfl⟩, ⟨rk, hk, h3, h4⟩⟩)
    · exact ⟨r, List.mem_append_left _ hr, h1, h2⟩
    · refine ⟨_, List.mem_append_right _ (List.mem_flatMap.mpr ⟨ri, hi, List.mem_map.mpr ⟨rk, hk, rfl⟩⟩), ?_, h4⟩
      simp [h1, h3]

theorem walk_add {R : ℕ → ℕ → Prop} {m n c e d : ℕ} (h1 : Walk R m c e) (h2 : Walk R n e d) : Walk R (m + n) c d := by
  induction m generalizing c with
  | zero => cases h1; simpa using h2
  | succ m ih =>
    obtain ⟨f, hf, h⟩ := h1
    rw [show m + 1 + n = m + n + 1 by omega]
    exact ⟨f, hf, ih h⟩

theorem walk_double {R S : ℕ → ℕ → Prop} (hS : ∀ c d, S c d ↔ R c d ∨ ∃ e, R c e ∧ R e d) (N c d : ℕ) :
    (∃ m, 1 ≤ m ∧ m ≤ N ∧ Walk S m c d) ↔ ∃ k, 1 ≤ k ∧ k ≤ 2 * N ∧ Walk R k c d := by
  constructor
  · rintro ⟨m, h1, h2, hw⟩
    have : ∀ m c, Walk S m c d → ∃ k, m ≤ k ∧ k ≤ 2 * m ∧ Walk R k c d := by
      intro m
      induction m with
      | zero => intro c h; exact ⟨0, le_refl _, by omega, h⟩
      | succ m ih =>
        rintro c ⟨e, he, h⟩
        obtain ⟨k, k1, k2, hk⟩ := ih e h
        rcases (hS c e).mp he with h' | ⟨f, f1, f2⟩
        · exact ⟨k + 1, by omega, by omega, ⟨e, h', hk⟩⟩
        · exact ⟨k + 2, by omega, by omega, ⟨f, f1, ⟨e, f2, hk⟩⟩⟩
    obtain ⟨k, k1, k2, hk⟩ := this m c hw
    exact ⟨k, by omega, by omega, hk⟩
  · rintro ⟨k, h1, h2, hw⟩
    have : ∀ n k, k ≤ n → ∀ c, Walk R k c d → ∃ m, 2 * m ≤ k + 1 ∧ k ≤ 2 * m ∧ Walk S m c d := by
      intro n
      induction n with
      | zero => intro k hk c h; have : k = 0 := by omega
                subst this; exact ⟨0, by omega, by omega, h⟩
      | succ n ih =>
        intro k hk c h
        match k, h with
        | 0, h => exact ⟨0, by omega, by omega, h⟩
        | 1, ⟨e, he, h⟩ => exact ⟨1, by omega, by omega, ⟨e, (hS c e).mpr (Or.inl he), h⟩⟩
        | k + 2, ⟨e, he, f, hf, h⟩ =>
          obtain ⟨m, m1, m2, hm⟩ := ih k (by omega) f h
          exact ⟨m + 1, by omega, by omega, ⟨f, (hS c f).mpr (Or.inr ⟨e, he, hf⟩), hm⟩⟩
    obtain ⟨m, m1, m2, hm⟩ := this k k (le_refl _) c hw
    exact ⟨m, by omega, by omega, hm⟩

theorem Rel_loop (n : ℕ) : ∀ (rows : List GRow) (c d : ℕ),
    Rel (gnLoop n rows) c d ↔ ∃ k, 1 ≤ k ∧ k ≤ 2 ^ n ∧ Walk (Rel rows) k c d := by
  induction n with
  | zero =>
    intro rows c d
    simp only [gnLoop, pow_zero]
    constructor
    · intro h; exact ⟨1, le_refl _, le_refl _, d, h, rfl⟩
    · rintro ⟨k, h1, h2, hw⟩
      have : k = 1 := by omega
      subst this
      obtain ⟨e, he, h⟩ := hw
      cases h; exact he
  | succ n ih =>
    intro rows c d
    simp only [gnLoop]
    rw [ih, walk_double (Rel_step rows), pow_succ, mul_comm]

/-! the offsets -/

theorem offs2_iff (diag self : Bool) (x y : ℤ) : [x, y] ∈ gnOffs2 diag self ↔
    |x| ≤ 1 ∧ |y| ≤ 1 ∧ (diag = true ∨ |x| + |y| ≤ 1) ∧ (self = true ∨ ¬(x = 0 ∧ y = 0)) := by
  by_cases hx : |x| ≤ 1
  · by_cases hy : |y| ≤ 1
    · obtain ⟨x1, x2⟩ := abs_le.mp hx
      obtain ⟨y1, y2⟩ := abs_le.mp hy
      cases diag <;> cases self <;> interval_cases x <;> interval_cases y <;> decide
    · simp only [hy, false_and, and_false, iff_false]
      intro h
      apply hy
      revert h
      cases diag <;> cases self <;> simp [gnOffs2] <;> intro h <;> aesop
  · simp only [hx, false_and, iff_false]
    intro h
    apply hx
    revert h
    cases diag <;> cases self <;> simp [gnOffs2] <;> intro h <;> aesop

theorem offs3_small (diag self : Bool) : ∀ o ∈ gnOffs3 diag self, o.length = 3 ∧ ∀ v ∈ o, |v| ≤ 1 := by
  cases diag <;> cases self <;> decide

theorem offs2_small (diag self : Bool) : ∀ o ∈ gnOffs2 diag self, o.length = 2 ∧ ∀ v ∈ o, |v| ≤ 1 := by
  cases diag <;> cases self <;> decide

theorem offs3_iff (diag self : Bool) (x y z : ℤ) : [x, y, z] ∈ gnOffs3 diag self ↔
    |x| ≤ 1 ∧ |y| ≤ 1 ∧ |z| ≤ 1 ∧ (diag = true ∨ |x| + |y| + |z| ≤ 1) ∧ (self = true ∨ ¬(x = 0 ∧ y = 0 ∧ z = 0)) := by
  by_cases h : |x| ≤ 1 ∧ |y| ≤ 1 ∧ |z| ≤ 1
  · obtain ⟨x1, x2⟩ := abs_le.mp h.1
    obtain ⟨y1, y2⟩ := abs_le.mp h.2.1
    obtain ⟨z1, z2⟩ := abs_le.mp h.2.2
    clear h
    cases diag <;> cases self <;> interval_cases x <;> interval_cases y <;> interval_cases z <;> decide
  · constructor
    · intro h'
      have := (offs3_small diag self _ h').2
      exact absurd ⟨this x (by simp), this y (by simp), this z (by simp)⟩ h
    · rintro ⟨a, b, c, _⟩
      exact absurd ⟨a, b, c⟩ h

theorem unr_inj {gs : List ℕ} {c d : ℕ} (hc : c < gs.prod) (hd : d < gs.prod) (h : unrZ gs c = unrZ gs d) : c = d := by
  rw [← (unr_ok gs c hc).2, ← (unr_ok gs d hd).2, h]

theorem unrZ2 (a b c : ℕ) : unrZ [a, b] c = [cellCoord [a, b] 0 c, cellCoord [a, b] 1 c] := by
  simp [unrZ, unravelF, cellCoord]

theorem unrZ3 (a b e c : ℕ) : unrZ [a, b, e] c = [cellCoord [a, b, e] 0 c, cellCoord [a, b, e] 1 c, cellCoord [a, b, e] 2 c] := by
  simp [unrZ, unravelF, cellCoord, Nat.div_div_eq_div_mul]

theorem Rel_map {gs : List ℕ} {offs : List (List ℤ)} (ho : ∀ o ∈ offs, o.length = gs.length) (c d : ℕ) :
    Rel (offs.map (gnRow gs)) c d ↔ d < gs.prod ∧ List.zipWith (· - ·) (unrZ gs d) (unrZ gs c) ∈ offs := by
  have key : ∀ u v o : List ℤ, u.length = v.length → o.length = v.length → (u = List.zipWith (· + ·) v o ↔ List.zipWith (· - ·) u v = o) := by
    intro u v
    induction v generalizing u with
    | nil => intro o h1 h2; cases u <;> cases o <;> simp_all
    | cons a v ih =>
      intro o h1 h2
      cases u with
      | nil => simp at h1
      | cons b u =>
        cases o with
        | nil => simp at h2
        | cons e o =>
          simp only [List.zipWith_cons_cons, List.cons.injEq]
          rw [ih u o (by simpa using h1) (by simpa using h2)]
          constructor <;> rintro ⟨h, h'⟩ <;> exact ⟨by omega, h'⟩
  have hlen : ∀ c, (unrZ gs c).length = gs.length := by intro c; simp [unrZ, unr_length]
  unfold Rel
  constructor
  · rintro ⟨r, hr, h⟩
    obtain ⟨o, hm, rfl⟩ := List.mem_map.mp hr
    obtain ⟨h1, h2⟩ := (gnRow_spec (ho o hm) c d).mp h
    rw [(key _ _ _ (by rw [hlen, hlen]) (by rw [hlen, ho o hm])).mp h2]
    exact ⟨h1, hm⟩
  · rintro ⟨h1, hm⟩
    refine ⟨_, List.mem_map.mpr ⟨_, hm, rfl⟩, (gnRow_spec (ho _ hm) c d).mpr ⟨h1, ?_⟩⟩
    exact (key _ _ _ (by rw [hlen, hlen]) (by rw [hlen, ho _ hm])).mpr rfl

theorem Rel_nbr2 {a b : ℕ} {diag self : Bool} {c d : ℕ} (hc : c < [a, b].prod) :
    Rel ((gnOffs2 diag self).map (gnRow [a, b])) c d ↔ IsNbr [a, b] diag self c d := by
  rw [Rel_map (gs := [a, b]) (fun o ho => (offs2_small diag self o ho).1)]
  rw [unrZ2, unrZ2]
  simp only [List.zipWith_cons_cons, List.zipWith_nil_left]
  rw [offs2_iff]
  unfold IsNbr
  constructor
  · rintro ⟨h1, h2, h3, h4, h5⟩
    refine ⟨h1, ?_, ?_, ?_⟩
    · intro i hi
      match i, hi with
      | 0, _ => exact h2
      | 1, _ => exact h3
    · simpa [Finset.sum_range_succ] using h4
    · refine h5.imp id ?_
      rintro h rfl
      exact h ⟨by omega, by omega⟩
  · rintro ⟨h1, h2, h3, h4⟩
    refine ⟨h1, h2 0 (by simp), h2 1 (by simp), by simpa [Finset.sum_range_succ] using h3, h4.imp id ?_⟩
    rintro hn ⟨e1, e2⟩
    apply hn
    apply unr_inj h1 hc
    rw [unrZ2, unrZ2, show cellCoord [a, b] 0 d = cellCoord [a, b] 0 c by omega, show cellCoord [a, b] 1 d = cellCoord [a, b] 1 c by omega]

theorem Rel_nbr3 {a b e : ℕ} {diag self : Bool} {c d : ℕ} (hc : c < [a, b, e].prod) :
    Rel ((gnOffs3 diag self).map (gnRow [a, b, e])) c d ↔ IsNbr [a, b, e] diag self c d := by
  rw [Rel_map (gs := [a, b, e]) (fun o ho => (offs3_small diag self o ho).1)]
  rw [unrZ3, unrZ3]
  simp only [List.zipWith_cons_cons, List.zipWith_nil_left]
  rw [offs3_iff]
  unfold IsNbr
  constructor
  · rintro ⟨h1, h2, h3, h3', h4, h5⟩
    refine ⟨h1, ?_, ?_, ?_⟩
    · intro i hi
      match i, hi with
      | 0, _ => exact h2
      | 1, _ => exact h3
      | 2, _ => exact h3'
    · simpa [Finset.sum_range_succ] using h4
    · refine h5.imp id ?_
      rintro h rfl
      exact h ⟨by omega, by omega, by omega⟩
  · rintro ⟨h1, h2, h3, h4⟩
    refine ⟨h1, h2 0 (by simp), h2 1 (by simp), h2 2 (by simp), by simpa [Finset.sum_range_succ] using h3, h4.imp id ?_⟩
    rintro hn ⟨e1, e2, e3⟩
    apply hn
    apply unr_inj h1 hc
    rw [unrZ3, unrZ3, show cellCoord [a, b, e] 0 d = cellCoord [a, b, e] 0 c by omega,
      show cellCoord [a, b, e] 1 d = cellCoord [a, b, e] 1 c by omega, show cellCoord [a, b, e] 2 d = cellCoord [a, b, e] 2 c by omega]

/-- the offsets used -/
def gnOffs (gs : List ℕ) (diag self : Bool) : List (List ℤ) := if gs.length = 2 then gnOffs2 diag self else gnOffs3 diag self

theorem gnOffs_small {gs : List ℕ} (hg : gs.length = 2 ∨ gs.length = 3) (diag self : Bool) :
    ∀ o ∈ gnOffs gs diag self, o.length = gs.length ∧ ∀ v ∈ o, |v| ≤ 1 := by
  unfold gnOffs
  rcases hg with h | h
  · rw [if_pos h, h]; exact offs2_small diag self
  · rw [if_neg (by omega), h]; exact offs3_small diag self

theorem gnOffs_nodup (gs : List ℕ) (diag self : Bool) : (gnOffs gs diag self).Nodup := by
  unfold gnOffs
  split <;> cases diag <;> cases self <;> decide

theorem Rel_nbr {gs : List ℕ} (hg : gs.length = 2 ∨ gs.length = 3) {diag self : Bool} {c d : ℕ} (hc : c < gs.prod) :
    Rel ((gnOffs gs diag self).map (gnRow gs)) c d ↔ IsNbr gs diag self c d := by
  unfold gnOffs
  match gs, hg with
  | [a, b], _ => exact Rel_nbr2 hc
  | [a, b, e], _ => exact Rel_nbr3 hc

theorem Rel_lt {gs : List ℕ} (hg : gs.length = 2 ∨ gs.length = 3) {diag self : Bool} {c d : ℕ}
    (h : Rel ((gnOffs gs diag self).map (gnRow gs)) c d) : d < gs.prod :=
  ((Rel_map (fun o ho => (gnOffs_small hg diag self o ho).1) c d).mp h).1

theorem walk_congr {R S : ℕ → ℕ → Prop} {P : ℕ → Prop} (h1 : ∀ c d, P c → (R c d ↔ S c d)) (h2 : ∀ c d, P c → R c d → P d) :
    ∀ k c d, P c → (Walk R k c d ↔ Walk S k c d) := by
  intro k
  induction k with
  | zero => intro c d _; exact Iff.rfl
  | succ k ih =>
    intro c d hc
    constructor
    · rintro ⟨e, he, h⟩; exact ⟨e, (h1 c e hc).mp he, (ih e d (h2 c e hc he)).mp h⟩
    · rintro ⟨e, he, h⟩
      have he' := (h1 c e hc).mpr he
      exact ⟨e, he', (ih e d (h2 c e hc he')).mpr h⟩

/-- unfolding of the model -/
theorem gridNeighbors_eq {gs : List ℕ} (hg : gs.length = 2 ∨ gs.length = 3) (order : ℕ) (diag self uniq : Bool) :
    gridNeighbors gs order diag self uniq = some
      ((if uniq then (npUniqueIndex ((gnLoop (order - 1) ((gnOffs gs diag self).map (gnRow gs))).map (fun r => r.nb 0))).filterMap
          (fun k => (gnLoop (order - 1) ((gnOffs gs diag self).map (gnRow gs)))[k]?)
        else gnLoop (order - 1) ((gnOffs gs diag self).map (gnRow gs))).map (fun r c => if r.oob c then -1 else (r.nb c : ℤ))) := by
  unfold gridNeighbors gnOffs
  rcases hg with h | h
  · simp only [if_pos h]; rfl
  · simp only [if_neg (show ¬ gs.length = 2 by omega), if_pos h]; rfl

theorem mem_out {rows : List GRow} {c d : ℕ} :
    (d : ℤ) ∈ (rows.map (fun r c => if r.oob c then -1 else (r.nb c : ℤ))).map (fun f => f c) ↔ Rel rows c d := by
  unfold Rel
  rw [List.map_map, List.mem_map]
  constructor
  · rintro ⟨r, hr, h⟩
    simp only [Function.comp_apply] at h
    by_cases ho : r.oob c
    · rw [if_pos ho] at h; omega
    · rw [if_neg ho] at h; exact ⟨r, hr, by simpa using ho, by omega⟩
  · rintro ⟨r, hr, h1, h2⟩
    exact ⟨r, hr, by simp [h1, h2]⟩

theorem uniqueIndex_perm (l : List ℕ) (h : l.Nodup) : (npUniqueIndex l).Perm (List.range l.length) := by
  unfold npUniqueIndex npUnique
  have h1 : (l.dedup.insertionSort (· ≤ ·)).Perm l := by
    rw [h.dedup]; exact List.perm_insertionSort _ _
  refine (h1.map _).trans ?_
  have : l.map (fun x => l.idxOf x) = List.range l.length := by
    apply List.ext_getElem
    · simp
    · intro i h1 h2
      simp only [List.getElem_map, List.getElem_range]
      exact h.idxOf_getElem i _
  rw [this]

theorem select_perm (rows : List GRow) (h : (rows.map (fun r => r.nb 0)).Nodup) :
    ((npUniqueIndex (rows.map (fun r => r.nb 0))).filterMap (fun k => rows[k]?)).Perm rows := by
  have h1 := (uniqueIndex_perm _ h).filterMap (fun k => rows[k]?)
  rw [List.length_map] at h1
  refine h1.trans ?_
  have : (List.range rows.length).filterMap (fun k => rows[k]?) = rows := by
    have e : ∀ l : List GRow, ∀ k, (List.range l.length).filterMap (fun i => (l ++ k)[i]?) = l := by
      intro l
      induction l using List.reverseRecOn with
      | nil => intro k; rfl
      | append_singleton l a ih =>
        intro k
        rw [List.length_append, List.length_singleton, List.range_succ, List.filterMap_append, List.append_assoc, ih]
        simp
    have := e rows []
    simpa using this
  rw [this]

theorem ravel_inj {B : ℤ} (gs : List ℕ) (hg : ∀ g ∈ gs, 2 * B < (g : ℤ)) : ∀ o o' : List ℤ, o.length = gs.length → o'.length = gs.length →
    (∀ v ∈ o, |v| ≤ B) → (∀ v ∈ o', |v| ≤ B) → ravelWrapF gs o = ravelWrapF gs o' → o = o' := by
  induction gs with
  | nil => intro o o' h1 h2 _ _ _; cases o <;> cases o' <;> simp_all
  | cons g gs ih =>
    intro o o' h1 h2 b1 b2 he
    cases o with
    | nil => simp at h1
    | cons i is =>
      cases o' with
      | nil => simp at h2
      | cons j js =>
        have hgB := hg g (by simp)
        have bi := abs_le.mp (b1 i (by simp))
        have bj := abs_le.mp (b2 j (by simp))
        have hg0 : (0 : ℤ) < g := by linarith
        simp only [ravelWrapF] at he
        have m1 := Int.emod_nonneg i hg0.ne'
        have m2 := Int.emod_lt_of_pos i hg0
        have m3 := Int.emod_nonneg j hg0.ne'
        have m4 := Int.emod_lt_of_pos j hg0
        have t1 : (i % (g : ℤ)).toNat < g := by omega
        have t2 : (j % (g : ℤ)).toNat < g := by omega
        have e1 : (i % (g : ℤ)).toNat = (j % (g : ℤ)).toNat := by
          have := congrArg (· % g) he
          simpa [Nat.add_mul_mod_self_left, Nat.mod_eq_of_lt t1, Nat.mod_eq_of_lt t2] using this
        have e2 : ravelWrapF gs is = ravelWrapF gs js := by
          have : g * ravelWrapF gs is = g * ravelWrapF gs js := by omega
          exact Nat.eq_of_mul_eq_mul_left (by omega) this
        have e3 : i % (g : ℤ) = j % (g : ℤ) := by omega
        have e4 : i = j := by
          have : (g : ℤ) ∣ i - j := Int.dvd_of_emod_eq_zero (Int.emod_eq_emod_iff_emod_sub_eq_zero.mp e3)
          obtain ⟨k, hk⟩ := this
          have : k = 0 := by
            by_contra hk0
            rcases lt_or_gt_of_ne hk0 with h | h
            · have : (g : ℤ) * k ≤ (g : ℤ) * (-1) := mul_le_mul_of_nonneg_left (by omega) hg0.le
              linarith
            · have : (g : ℤ) * 1 ≤ (g : ℤ) * k := mul_le_mul_of_nonneg_left (by omega) hg0.le
              linarith
          subst this; omega
        rw [e4, ih (fun g hg' => hg g (by simp [hg'])) is js (by simpa using h1) (by simpa using h2) (fun v hv => b1 v (by simp [hv]))
          (fun v hv => b2 v (by simp [hv])) e2]

theorem unrZ_zero (gs : List ℕ) (o : List ℤ) (h : o.length = gs.length) : List.zipWith (· + ·) (unrZ gs 0) o = o := by
  induction gs generalizing o with
  | nil => cases o <;> simp_all [unrZ, unravelF]
  | cons g gs ih =>
    cases o with
    | nil => simp at h
    | cons i o =>
      have := ih o (by simpa using h)
      unfold unrZ at this ⊢
      simp only [unravelF, List.map_cons, Nat.zero_mod, Nat.zero_div, List.zipWith_cons_cons, this]
      simp

theorem row_nb_zero {gs : List ℕ} {o : List ℤ} (h : o.length = gs.length) : (gnRow gs o).nb 0 = ravelWrapF gs o := by
  unfold gnRow
  simp only [gnRow_idx]
  rw [unrZ_zero gs o h]

end Gpy
