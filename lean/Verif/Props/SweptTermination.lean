import Verif.Props.SweptContinuation
import Mathlib.Data.Finset.Prod
import Mathlib.Order.Interval.Finset.Basic
import Mathlib.Data.Int.Interval
import Mathlib.Data.Prod.Lex
import Mathlib.Order.WellFounded

/-! # C118: the continuation of `swept_volume` comes to an end -/

set_option autoImplicit false
set_option linter.unusedSimpArgs false
set_option linter.unusedVariables false
namespace Gpy.Cont

open Gpy.Descent

noncomputable section
open Classical

/-! ## What gets smaller -/

/-- the number of times a value can still be lowered -/
def pot (B c : ℝ) : ℕ := ⌊(c - B) * 1000⌋₊ + if 0 < c then 1 else 0

theorem pot_mono (B c c' : ℝ) (h : c ≤ c') : pot B c ≤ pot B c' := by
  unfold pot
  have h1 : ⌊(c - B) * 1000⌋₊ ≤ ⌊(c' - B) * 1000⌋₊ := Nat.floor_mono (by linarith)
  have h2 : (if 0 < c then 1 else 0) ≤ (if 0 < c' then 1 else 0) := by
    split_ifs with a b b
    · exact le_rfl
    · exact absurd (a.trans_le h) b
    · simp
    · exact le_rfl
  omega

theorem pot_lt (B x y : ℝ) (hy : B ≤ y) (h : (0 < x ∧ y < 0) ∨ y + 1 / 1000 < x) : pot B y < pot B x := by
  rcases h with ⟨h1, h2⟩ | h
  · unfold pot
    have h3 : ⌊(y - B) * 1000⌋₊ ≤ ⌊(x - B) * 1000⌋₊ := Nat.floor_mono (by linarith)
    rw [if_pos h1, if_neg (by linarith)]
    omega
  · have h1 : pot B y + 1 ≤ pot B (y + 1 / 1000) := by
      unfold pot
      have h3 : ⌊(y + 1 / 1000 - B) * 1000⌋₊ = ⌊(y - B) * 1000⌋₊ + 1 := by
        rw [← Nat.floor_add_one (by nlinarith)]
        congr 1
        ring
      have h2 : (if 0 < y then 1 else 0) ≤ (if 0 < y + 1 / 1000 then 1 else 0) := by
        split_ifs with a b b
        · exact le_rfl
        · exact absurd (by linarith) b
        · simp
        · exact le_rfl
      omega
    exact lt_of_lt_of_le (Nat.lt_of_succ_le h1) (pot_mono B _ _ h.le)

theorem pots_le (B : ℝ) (l l' : List ℝ) (hl : l'.length = l.length) (h : ∀ (j : ℕ) (x : ℝ), l[j]? = some x → ∃ y, l'[j]? = some y ∧ y ≤ x) :
    (l'.map (pot B)).sum ≤ (l.map (pot B)).sum ∧
    ((∃ (j : ℕ) (x y : ℝ), l[j]? = some x ∧ l'[j]? = some y ∧ pot B y < pot B x) → (l'.map (pot B)).sum < (l.map (pot B)).sum) := by
  induction l generalizing l' with
  | nil =>
    have : l' = [] := List.length_eq_zero_iff.mp hl
    subst this
    simp
  | cons a l ih =>
    cases l' with
    | nil => simp at hl
    | cons b l' =>
      have hb : b ≤ a := by
        obtain ⟨y, hy, hle⟩ := h 0 a (by simp)
        simp only [List.getElem?_cons_zero, Option.some.injEq] at hy
        rw [hy]; exact hle
      obtain ⟨i1, i2⟩ := ih l' (by simpa using hl) (by
        intro j x hx
        obtain ⟨y, hy, hle⟩ := h (j + 1) x (by simpa using hx)
        exact ⟨y, by simpa using hy, hle⟩)
      have hp := pot_mono B b a hb
      simp only [List.map_cons, List.sum_cons]
      refine ⟨by omega, ?_⟩
      rintro ⟨j, x, y, hx, hy, hlt⟩
      cases j with
      | zero =>
        simp only [List.getElem?_cons_zero, Option.some.injEq] at hx hy
        subst hx hy
        omega
      | succ j =>
        have := i2 ⟨j, x, y, by simpa using hx, by simpa using hy, hlt⟩
        omega

/-- the weight of an entry of the queue -/
def weight (st : St) (x : Item) : ℕ := if x.corr = none then (if st.visited x.vox = none then 1 else 63) else 7

theorem sum_le_mul {α : Type} (l : List α) (g : α → ℕ) (w : ℕ) (h : ∀ x ∈ l, g x ≤ w) : (l.map g).sum ≤ l.length * w := by
  have := List.sum_le_card_nsmul (l.map g) w (by
    intro y hy
    rw [List.mem_map] at hy
    obtain ⟨x, hx, rfl⟩ := hy
    exact h x hx)
  simpa using this

/-- the measure, to be compared lexicographically -/
def measure (R : Finset Vox) (B : ℝ) (st : St) : ℕ ×ₗ (ℕ ×ₗ ℕ) :=
  toLex ((R.filter (fun v => st.visited v = none)).card, toLex ((st.cs.map (pot B)).sum, (st.stack.map (weight st)).sum))

theorem measure_lt {f : (Fin 3 → ℝ) → ℝ → ℝ} (R : Finset Vox) (B : ℝ) (p0 : Fin 3 → ℝ) (eps : ℝ) (st : St) (it : Item) (st' : St) (hR : it.vox ∈ R)
    (hB : ∀ (j : ℕ) (y : ℝ), st'.cs[j]? = some y → B ≤ y)
    (hmono : ∀ (j : ℕ) (x : ℝ), st.cs[j]? = some x → ∃ y, st'.cs[j]? = some y ∧ y ≤ x)
    (he : Effect f p0 eps st it st') : measure R B st' < measure R B { st with stack := it :: st.stack } := by
  unfold measure
  have hpos : 0 < weight st it := by unfold weight; split_ifs <;> norm_num
  have hw : ∀ x, weight ({ st with stack := it :: st.stack } : St) x = weight st x := fun x => rfl
  rw [Prod.Lex.toLex_lt_toLex]
  rcases he with rfl | ⟨extra, cor, spr, e1, e2, e3, e4, e4', e5, e6, e7, e8, e9⟩
  · right
    refine ⟨rfl, ?_⟩
    rw [Prod.Lex.toLex_lt_toLex]
    right
    refine ⟨rfl, ?_⟩
    simp only [List.map_cons, List.sum_cons, hw]
    have : (st'.stack.map (weight { st' with stack := it :: st'.stack })).sum = (st'.stack.map (weight st')).sum := rfl
    rw [this]
    omega
  rcases e9 with ⟨g1, g2, g3, g4⟩ | ⟨g1, g2, g3⟩
  · left
    apply Finset.card_lt_card
    rw [Finset.ssubset_iff_of_subset]
    · exact ⟨it.vox, by simp [hR, g2], by simp [g4]⟩
    · intro v hv
      simp only [Finset.mem_filter] at hv ⊢
      refine ⟨hv.1, ?_⟩
      by_cases h : v = it.vox
      · rw [h]; exact g2
      · rw [g3 v h] at hv; exact hv.2
  · right
    refine ⟨by simp only [g2], ?_⟩
    rw [Prod.Lex.toLex_lt_toLex]
    obtain ⟨i1, i2⟩ := pots_le B st.cs st'.cs g3 hmono
    by_cases hc : cor = []
    · rcases i1.lt_or_eq with hlt | heq
      · left; exact hlt
      · right
        refine ⟨heq, ?_⟩
        have hw' : ∀ x, weight st' x = weight st x := fun x => by unfold weight; rw [g2]
        have hww : weight st' = weight st := funext hw'
        simp only [e1, hc, List.nil_append, hww, List.map_append, List.sum_append, List.map_cons, List.sum_cons]
        have hsum : (st.stack.map (weight { st with stack := it :: st.stack })).sum = (st.stack.map (weight st)).sum := rfl
        rw [hsum, hw]
        have hs : (spr.map (weight st)).sum ≤ spr.length * 1 := sum_le_mul _ _ _ (by
          intro x hx
          obtain ⟨q1, q2, -⟩ := e7 x hx
          unfold weight
          rw [if_pos q1, if_pos q2])
        have hx : (extra.map (weight st)).sum ≤ extra.length * 7 := sum_le_mul _ _ _ (by
          intro x hx
          unfold weight
          rw [if_neg (e4 x hx)])
        by_cases hcr : it.corr = none
        · have hv : st.visited it.vox ≠ none := fun h => g1 ⟨hcr, h⟩
          have : weight st it = 63 := by unfold weight; rw [if_pos hcr, if_neg hv]
          rw [this]
          omega
        · have : weight st it = 7 := by unfold weight; rw [if_neg hcr]
          rw [this]
          have h0 := e3 hcr
          subst h0
          simp only [List.map_nil, List.sum_nil]
          omega
    · left
      apply i2
      obtain ⟨j, x, y, hx, hy, h⟩ := e5 hc
      exact ⟨j, x, y, hx, hy, pot_lt B x y (hB j y hy) h⟩

/-! ## Where the voxels are -/

theorem near (p0 : Fin 3 → ℝ) (eps M : ℝ) (he : 0 < eps) : ∃ K : ℤ, ∀ (v : Vox) (i : ℕ), i < 8 → (∀ d, |cornerPos p0 eps v i d| ≤ M) → |v.1| ≤ K ∧ |v.2.1| ≤ K ∧ |v.2.2| ≤ K := by
  refine ⟨⌈(M + |p0 0| + |p0 1| + |p0 2|) / eps + 1⌉, ?_⟩
  intro v i hi h
  obtain ⟨s, hs⟩ : ∃ s, cornerSigns[i]? = some s := ⟨cornerSigns[i]'(by simpa [cornerSigns] using hi), List.getElem?_eq_getElem _⟩
  have hs1 : ∀ d, |s d| = 1 := by
    intro d
    unfold cornerSigns at hs
    interval_cases i <;> simp at hs <;> subst hs <;> fin_cases d <;> simp
  rw [cornerPos_signs p0 eps v i hi s hs] at h
  have key : ∀ d, |cast v d| ≤ (M + |p0 0| + |p0 1| + |p0 2|) / eps + 1 := by
    intro d
    have h1 := h d
    simp only at h1
    have h2 : |p0 d| ≤ |p0 0| + |p0 1| + |p0 2| := by
      have a0 := abs_nonneg (p0 0)
      have a1 := abs_nonneg (p0 1)
      have a2 := abs_nonneg (p0 2)
      fin_cases d <;> simp <;> linarith
    have h3 : eps * |cast v d + s d / 2| ≤ M + (|p0 0| + |p0 1| + |p0 2|) := by
      have : eps * |cast v d + s d / 2| = |eps * (cast v d + s d / 2)| := by rw [abs_mul, abs_of_pos he]
      rw [this]
      have h4 : eps * (cast v d + s d / 2) = (p0 d + eps * (cast v d + s d / 2)) - p0 d := by ring
      rw [h4]
      exact (abs_sub _ _).trans (by linarith)
    have h5 : |cast v d + s d / 2| ≤ (M + |p0 0| + |p0 1| + |p0 2|) / eps := by
      rw [le_div_iff₀ he]
      linarith
    have h6 : cast v d = (cast v d + s d / 2) - s d / 2 := by ring
    rw [h6]
    refine (abs_sub _ _).trans ?_
    have : |s d / 2| = 1 / 2 := by rw [abs_div, hs1 d]; norm_num
    linarith
  have up : ∀ z : ℤ, |(z : ℝ)| ≤ (M + |p0 0| + |p0 1| + |p0 2|) / eps + 1 → |z| ≤ ⌈(M + |p0 0| + |p0 1| + |p0 2|) / eps + 1⌉ := by
    intro z hz
    have : ((|z| : ℤ) : ℝ) ≤ (⌈(M + |p0 0| + |p0 1| + |p0 2|) / eps + 1⌉ : ℤ) := by
      push_cast
      exact hz.trans (Int.le_ceil _)
    exact_mod_cast this
  have k0 := key 0
  have k1 := key 1
  have k2 := key 2
  simp only [cast, Matrix.cons_val_zero, Matrix.cons_val_one, Matrix.cons_val] at k0 k1 k2
  exact ⟨up _ k0, up _ k1, up _ k2⟩

/-- the first voxels and a box -/
def region (init : List Vox) (K : ℤ) : Finset Vox := init.toFinset ∪ (Finset.Icc (-(K + 1)) (K + 1) ×ˢ (Finset.Icc (-(K + 1)) (K + 1) ×ˢ Finset.Icc (-(K + 1)) (K + 1)))

theorem mem_region (init : List Vox) (K : ℤ) (v : Vox) : v ∈ region init K ↔ v ∈ init ∨ (|v.1| ≤ K + 1 ∧ |v.2.1| ≤ K + 1 ∧ |v.2.2| ≤ K + 1) := by
  unfold region
  simp only [Finset.mem_union, List.mem_toFinset, Finset.mem_product, Finset.mem_Icc, abs_le]

theorem after_succ (scalar : (Fin 3 → ℝ) → ℝ → List Rec → ℝ × ℝ × List Rec) (p0 : Fin 3 → ℝ) (eps : ℝ) (st : St) (n : ℕ) : after scalar p0 eps st (n + 1) = after scalar p0 eps (step scalar p0 eps st) n := by
  induction n with
  | zero => rfl
  | succ n ih => rw [after, ih]; rfl

theorem ends {f : (Fin 3 → ℝ) → ℝ → ℝ} {scalar : (Fin 3 → ℝ) → ℝ → List Rec → ℝ × ℝ × List Rec} (hs : Sound f scalar) (init : List Vox) (p0 : Fin 3 → ℝ) (eps : ℝ) (he : 0 < eps)
    (B M : ℝ) (hB : ∀ P t, 0 ≤ t → t ≤ 1 → B ≤ f P t) (hM : ∀ P t, 0 ≤ t → t ≤ 1 → (∃ d, M < |P d|) → 0 < f P t)
    (K : ℤ) (hK : ∀ (v : Vox) (i : ℕ), i < 8 → (∀ d, |cornerPos p0 eps v i d| ≤ M) → |v.1| ≤ K ∧ |v.2.1| ≤ K ∧ |v.2.2| ≤ K) :
    ∀ (m : ℕ ×ₗ (ℕ ×ₗ ℕ)) (st : St), measure (region init K) B st = m → Good f init p0 eps st → (∀ x ∈ st.stack, x.vox ∈ region init K) → (∀ v, st.visited v ≠ none → v ∈ region init K) →
      ∃ n, (after scalar p0 eps st n).stack = [] := by
  intro m
  induction m using WellFoundedLT.induction with
  | ind m ih =>
    intro st hm hg hst hvis
    cases h : st.stack with
    | nil => exact ⟨0, h⟩
    | cons it rest =>
      have hste : st = { ({ st with stack := rest } : St) with stack := it :: rest } := by
        cases st
        simp only at h
        subst h
        rfl
      have hstep : step scalar p0 eps st = round scalar p0 eps { st with stack := rest } it := by
        unfold step
        rw [h]
      have hg' := hg
      rw [hste] at hg'
      obtain ⟨g1, g2, g3, g4, g5, g6⟩ := round_spec hs init p0 eps he { st with stack := rest } it hg'
      have hitR : it.vox ∈ region init K := hst it (by rw [h]; simp)
      have hlt := measure_lt (f := f) (region init K) B p0 eps { st with stack := rest } it _ hitR (by
        intro j y hy
        have hjl : j < (round scalar p0 eps { st with stack := rest } it).cv.length := by
          rw [← g1.mesh.len_cs]; exact (List.getElem?_eq_some_iff.mp hy).1
        obtain ⟨t, t0, t1, e⟩ := g1.val j _ y (List.getElem?_eq_getElem hjl) hy
        rw [e]
        exact hB _ t t0 t1) g4 g6
      simp only at hlt
      rw [← hste, hm] at hlt
      have hrest : ∀ x ∈ rest, x.vox ∈ region init K := fun x hx => hst x (by rw [h]; simp [hx])
      have hvis' : ∀ v, (round scalar p0 eps { st with stack := rest } it).visited v ≠ none → v ∈ region init K := by
        intro v hv
        by_cases hve : v = it.vox
        · rw [hve]; exact hitR
        · apply hvis
          rcases g6 with e | ⟨extra, cor, spr, -, -, -, -, -, -, -, -, -, e9⟩
          · rw [e] at hv; exact hv
          · rcases e9 with ⟨-, -, k3, -⟩ | ⟨-, k3, -⟩
            · rw [k3 v hve] at hv; exact hv
            · rw [k3] at hv; exact hv
      obtain ⟨n, hn⟩ := ih _ hlt (round scalar p0 eps { st with stack := rest } it) rfl g1 (by
        rcases g6 with e | ⟨extra, cor, spr, e1, e2, e3, e4, e4', e5, e6, e7, e8, e9⟩
        · rw [e]; exact hrest
        · intro x hx
          by_cases hxs : x ∈ spr
          · obtain ⟨-, -, n, hn, hxv⟩ := e7 x hxs
            obtain ⟨i, hi, t, t0, t1, hle⟩ := e8 (by rintro rfl; simp at hxs)
            have hin : ∀ d, |cornerPos p0 eps it.vox i d| ≤ M := by
              intro d
              by_contra hc
              push Not at hc
              exact absurd (hM _ t t0 t1 ⟨d, hc⟩) (by linarith)
            obtain ⟨k1, k2, k3⟩ := hK it.vox i hi hin
            rw [mem_region]
            right
            have hnf := neighbours_faces n hn
            rw [hxv]
            generalize neighbors.getD n 0 = dd at hnf
            simp only [Prod.fst_add, Prod.snd_add]
            have a1 := abs_nonneg dd.1
            have a2 := abs_nonneg dd.2.1
            have a3 := abs_nonneg dd.2.2
            refine ⟨(abs_add_le _ _).trans (by omega), (abs_add_le _ _).trans (by omega), (abs_add_le _ _).trans (by omega)⟩
          · by_cases hxc : x.corr = none
            · rw [e1, List.mem_append, List.mem_append, List.mem_append] at hx
              rcases hx with hx | hx | hx | hx
              · exact absurd hx hxs
              · exact absurd hxc (e4' x hx)
              · exact absurd hxc (e4 x hx)
              · exact hrest x hx
            · exact hvis' _ (g1.corr x hx hxc)) hvis'
      exact ⟨n + 1, by rw [after_succ, hstep]; exact hn⟩

/-! ## C118 -/

/-- C118.  If the distance is bounded below, and positive at all times outside some box (as it is for a bounded mesh that moves in a bounded region), then the continuation ends: after some number of rounds the queue is empty, and
from then on nothing changes.  This is so for every derivative, right or wrong, every list of seeds, and every cell size. -/
theorem C118_terminates (f gf : (Fin 3 → ℝ) → ℝ → ℝ) (moved : ℝ → ℝ → Prop) (junk : ℝ) (hm : ∀ x, 0 ≤ x → x ≤ 1 → moved x 10000000) (p0 : Fin 3 → ℝ) (eps : ℝ) (he : 0 < eps) (voxels : List Vox) (times : List ℝ)
    (ht : ∀ t ∈ times, 0 ≤ t ∧ t ≤ 1) (B M : ℝ) (hB : ∀ P t, 0 ≤ t → t ≤ 1 → B ≤ f P t) (hM : ∀ P t, 0 ≤ t → t ≤ 1 → (∃ d, M < |P d|) → 0 < f P t) :
    ∃ n, (after (scalarFunc f gf moved junk) p0 eps (start voxels times) n).stack = [] ∧
      ∀ k, after (scalarFunc f gf moved junk) p0 eps (start voxels times) (n + k) = after (scalarFunc f gf moved junk) p0 eps (start voxels times) n := by
  obtain ⟨K, hK⟩ := near p0 eps M he
  have hg := start_good f p0 eps voxels times ht
  obtain ⟨n, hn⟩ := ends (scalarFunc_sound f gf moved junk hm) voxels p0 eps he B M hB hM K hK _ _ rfl hg (by
    intro x hx
    unfold start at hx
    rw [List.mem_reverse, List.mem_map] at hx
    obtain ⟨i, hi, rfl⟩ := hx
    rw [mem_region]
    left
    have hi' := List.mem_range.mp hi
    simp only [List.getD, List.getElem?_eq_getElem hi', Option.getD_some]
    exact List.getElem_mem hi') (by intro v hv; exact absurd rfl hv)
  refine ⟨n, hn, fun k => ?_⟩
  induction k with
  | zero => rfl
  | succ k ih =>
    rw [← Nat.add_assoc, after, ih]
    unfold step
    rw [hn]

/-- C118 (where the cubes are).  Every cube that is not one of the seeds has a face neighbour with a corner that is inside the mesh (or on it) at some time. -/
theorem C118_region (f gf : (Fin 3 → ℝ) → ℝ → ℝ) (moved : ℝ → ℝ → Prop) (junk : ℝ) (hm : ∀ x, 0 ≤ x → x ≤ 1 → moved x 10000000) (p0 : Fin 3 → ℝ) (eps : ℝ) (he : 0 < eps) (voxels : List Vox) (times : List ℝ)
    (ht : ∀ t ∈ times, 0 ≤ t ∧ t ≤ 1) (n : ℕ) (st : St) (hst : st = after (scalarFunc f gf moved junk) p0 eps (start voxels times) n) (v : Vox) (hv : st.visited v ≠ none) :
    v ∈ voxels ∨ ∃ v', FaceNeighbour v' v ∧ ∃ s ∈ cornerSigns, ∃ t, 0 ≤ t ∧ t ≤ 1 ∧ f (fun d => p0 d + eps * (cast v' d + s d / 2)) t ≤ 0 := by
  have key : ∀ n, (∀ v, (after (scalarFunc f gf moved junk) p0 eps (start voxels times) n).visited v ≠ none →
      v ∈ voxels ∨ ∃ v', FaceNeighbour v' v ∧ ∃ i < 8, ∃ t, 0 ≤ t ∧ t ≤ 1 ∧ f (cornerPos p0 eps v' i) t ≤ 0) ∧
      (∀ x ∈ (after (scalarFunc f gf moved junk) p0 eps (start voxels times) n).stack,
      x.vox ∈ voxels ∨ ∃ v', FaceNeighbour v' x.vox ∧ ∃ i < 8, ∃ t, 0 ≤ t ∧ t ≤ 1 ∧ f (cornerPos p0 eps v' i) t ≤ 0) := by
    intro n
    induction n with
    | zero =>
      refine ⟨fun v hv => absurd rfl hv, ?_⟩
      intro x hx
      left
      simp only [after, start] at hx
      rw [List.mem_reverse, List.mem_map] at hx
      obtain ⟨i, hi, rfl⟩ := hx
      have hi' := List.mem_range.mp hi
      simp only [List.getD, List.getElem?_eq_getElem hi', Option.getD_some]
      exact List.getElem_mem hi'
    | succ n ih =>
      have hg := after_good (scalarFunc_sound f gf moved junk hm) p0 eps he voxels times ht n
      rw [after]
      set st := after (scalarFunc f gf moved junk) p0 eps (start voxels times) n
      clear_value st
      obtain ⟨i1, i2⟩ := ih
      unfold step
      cases h : st.stack with
      | nil => simp only; exact ⟨i1, i2⟩
      | cons it rest =>
        have hste : st = { ({ st with stack := rest } : St) with stack := it :: rest } := by
          cases st
          simp only at h
          subst h
          rfl
        simp only
        have hg' := hg
        rw [hste] at hg'
        obtain ⟨g1, -, -, -, -, g6⟩ := round_spec (scalarFunc_sound f gf moved junk hm) voxels p0 eps he { st with stack := rest } it hg'
        set st' := round (scalarFunc f gf moved junk) p0 eps { st with stack := rest } it
        clear_value st'
        have hvis' : ∀ v, st'.visited v ≠ none → v ∈ voxels ∨ ∃ v', FaceNeighbour v' v ∧ ∃ i < 8, ∃ t, 0 ≤ t ∧ t ≤ 1 ∧ f (cornerPos p0 eps v' i) t ≤ 0 := by
          intro v hv
          by_cases hve : v = it.vox
          · rw [hve]; exact i2 it (by rw [h]; simp)
          · apply i1
            rcases g6 with e | ⟨extra, cor, spr, -, -, -, -, -, -, -, -, -, e9⟩
            · rw [e] at hv; exact hv
            · rcases e9 with ⟨-, -, k3, -⟩ | ⟨-, k3, -⟩
              · rw [k3 v hve] at hv; exact hv
              · rw [k3] at hv; exact hv
        refine ⟨hvis', ?_⟩
        intro x hx
        have hold : ∀ x ∈ rest, x.vox ∈ voxels ∨ ∃ v', FaceNeighbour v' x.vox ∧ ∃ i < 8, ∃ t, 0 ≤ t ∧ t ≤ 1 ∧ f (cornerPos p0 eps v' i) t ≤ 0 := fun x hx => i2 x (by rw [h]; simp [hx])
        by_cases hxc : x.corr = none
        · rcases g6 with e | ⟨extra, cor, spr, e1, e2, e3, e4, e4', e5, e6, e7, e8, e9⟩
          · rw [e] at hx; exact hold x hx
          · rw [e1, List.mem_append, List.mem_append, List.mem_append] at hx
            rcases hx with hx | hx | hx | hx
            · obtain ⟨-, -, n, hn, hxv⟩ := e7 x hx
              right
              refine ⟨it.vox, ?_, e8 (by rintro rfl; simp at hx)⟩
              have := neighbours_faces n hn
              unfold FaceNeighbour
              rw [hxv]
              simpa using this
            · exact absurd hxc (e4' x hx)
            · exact absurd hxc (e4 x hx)
            · exact hold x hx
        · exact hvis' _ (g1.corr x hx hxc)
  subst hst
  rcases (key n).1 v hv with h | ⟨v', h1, i, hi, t, t0, t1, h2⟩
  · exact Or.inl h
  · right
    have hs : cornerSigns[i]? = some (cornerSigns[i]'(by simpa [cornerSigns] using hi)) := List.getElem?_eq_getElem _
    refine ⟨v', h1, _, List.mem_of_getElem? hs, t, t0, t1, ?_⟩
    rw [cornerPos_signs p0 eps v' i hi _ hs] at h2
    exact h2

/-- the hypotheses of C118 hold for a ball of radius 1 that moves along the first axis (the distance is positive outside the box of size 3, and at least `-1`) -/
example : (∀ (P : Fin 3 → ℝ) (t : ℝ), 0 ≤ t → t ≤ 1 → -1 ≤ max (|P 0 - t|) (max |P 1| |P 2|) - 1) ∧
    (∀ (P : Fin 3 → ℝ) (t : ℝ), 0 ≤ t → t ≤ 1 → (∃ d, 3 < |P d|) → 0 < max (|P 0 - t|) (max |P 1| |P 2|) - 1) ∧
    (max (|(0 : ℝ) - 0|) (max |0| |0|) - 1 < 0) := by
  refine ⟨?_, ?_, by norm_num⟩
  · intro P t h0 h1
    have : 0 ≤ max (|P 0 - t|) (max |P 1| |P 2|) := (abs_nonneg _).trans (le_max_left _ _)
    linarith
  · rintro P t h0 h1 ⟨d, hd⟩
    have e0 : |P 0 - t| ≤ max (|P 0 - t|) (max |P 1| |P 2|) := le_max_left _ _
    have e1 : |P 1| ≤ max (|P 0 - t|) (max |P 1| |P 2|) := (le_max_left _ _).trans (le_max_right _ _)
    have e2 : |P 2| ≤ max (|P 0 - t|) (max |P 1| |P 2|) := (le_max_right _ _).trans (le_max_right _ _)
    have e3 : |P 0| ≤ |P 0 - t| + 1 := by
      have h : P 0 = (P 0 - t) + t := by ring
      have h2 := abs_add_le (P 0 - t) t
      rw [← h, abs_of_nonneg h0] at h2
      linarith
    fin_cases d <;> simp at hd <;> linarith

end

end Gpy.Cont
