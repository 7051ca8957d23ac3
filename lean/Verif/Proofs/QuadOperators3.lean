import Verif.Proofs.QuadOperators2
import Mathlib.Tactic.LinearCombination
import Mathlib.Tactic.FinCases

set_option autoImplicit false
namespace Gpy
open Np

variable {K : Type} [Field K] [LinearOrder K] [IsStrictOrderedRing K]

theorem lap_tripSum {dim : ℕ} {Q : Quad K dim} {i child : ℕ} {s1 s2 s3 s4 : K × List (ℕ × K)} (h1 : qSide Q child 1 = some s1) (h2 : qSide Q child 2 = some s2)
    (h3 : qSide Q child 3 = some s3) (h4 : qSide Q child 4 = some s4) (hx : lapExtra Q child = true) :
    ∃ t, lapTriplets Q i child = some t ∧ (∀ e ∈ t, e.1 = i) ∧
      (∀ e ∈ t, ∃ p ∈ s1.2 ++ s2.2 ++ s3.2 ++ s4.2, e.2.1 = qCol Q p.1) ∧
      (∀ u, tripSum t u i = -(sideSum Q s1 u / lapDen s1.1 s2.1 + sideSum Q s2 u / lapDen s2.1 s1.1 + sideSum Q s3 u / lapDen s3.1 s4.1 +
        sideSum Q s4 u / lapDen s4.1 s3.1)) := by
  unfold lapTriplets
  simp only [h1, h2, h3, h4, Option.bind_eq_bind, Option.bind_some]
  rw [if_neg (by simp [hx])]
  refine ⟨_, rfl, ?_, ?_, ?_⟩
  · intro e he
    obtain ⟨e', -, rfl⟩ := List.mem_map.mp he
    rfl
  · intro e he
    obtain ⟨e', he', rfl⟩ := List.mem_map.mp he
    unfold qEntries at he'
    rw [List.mem_flatMap] at he'
    obtain ⟨s, hs, h⟩ := he'
    obtain ⟨p, hp, rfl⟩ := List.mem_map.mp h
    refine ⟨p, ?_, rfl⟩
    simp only [List.mem_cons, List.not_mem_nil, or_false] at hs
    simp only [List.mem_append]
    rcases hs with rfl | rfl | rfl | rfl <;> tauto
  · intro u
    simp only [qEntries, List.flatMap_cons, List.flatMap_nil, List.append_nil, List.map_append, List.map_map, Function.comp_def, tripSum_append]
    simp only [if_true, show (2 : ℕ) ≠ 1 by decide, show (3 : ℕ) ≠ 1 by decide, show (3 : ℕ) ≠ 2 by decide, show (4 : ℕ) ≠ 1 by decide, show (4 : ℕ) ≠ 2 by decide,
      show (4 : ℕ) ≠ 3 by decide, if_false]
    rw [tripSum_side_neg, tripSum_side_neg, tripSum_side_neg, tripSum_side_neg]
    simp only [if_true]
    ring

/-! ### Columns -/

theorem mem_qLeaves {dim : ℕ} {Q : Quad K dim} {m : ℕ} : m ∈ qLeaves Q ↔ ∃ c, Q.cells[m]? = some c ∧ isLeafCell c = true := by
  unfold qLeaves
  rw [List.mem_filter, List.mem_range]
  constructor
  · rintro ⟨h, h'⟩
    rw [List.getElem?_eq_getElem h] at h'
    exact ⟨_, List.getElem?_eq_getElem h, by simpa using h'⟩
  · rintro ⟨c, hc, hl⟩
    refine ⟨(List.getElem?_eq_some_iff.mp hc).1, ?_⟩
    simp [hc, hl]

theorem qLeaves_nodup {dim : ℕ} (Q : Quad K dim) : (qLeaves Q).Nodup := List.Nodup.filter _ List.nodup_range

theorem qCol_of {dim : ℕ} {Q : Quad K dim} {r m : ℕ} (h : (qLeaves Q)[r]? = some m) : qCol Q m = r := by
  obtain ⟨hr, rfl⟩ := List.getElem?_eq_some_iff.mp h
  exact (qLeaves_nodup Q).idxOf_getElem r hr

theorem qCol_lt {dim : ℕ} {Q : Quad K dim} {m : ℕ} (h : m ∈ qLeaves Q) : qCol Q m < (qLeaves Q).length := List.idxOf_lt_length_of_mem h

theorem storedAt_get {dim : ℕ} {Q : Quad K dim} (r m : ℕ) (c : QuadCell K dim) (h : (qLeaves Q)[r]? = some m) (hc : Q.cells[m]? = some c) :
    (quadStoredAt Q)[r]? = some c.C := by
  unfold quadStoredAt
  have hf : (qLeaves Q).filterMap (fun i => (Q.cells[i]?).map (fun c => c.C)) = (qLeaves Q).map (fun i => ((Q.cells[i]?).map (fun c => c.C)).getD (fun _ => 0)) := by
    rw [← List.filterMap_eq_map]
    apply List.filterMap_congr
    intro x hx
    obtain ⟨c, hc, -⟩ := mem_qLeaves.mp hx
    simp [hc]
  rw [hf, List.getElem?_map, h]
  simp [hc]

theorem storedAt_length {dim : ℕ} (Q : Quad K dim) : (quadStoredAt Q).length = (qLeaves Q).length := by
  unfold quadStoredAt
  rw [List.length_filterMap_eq_countP, List.countP_eq_length]
  intro x hx
  obtain ⟨c, hc, -⟩ := mem_qLeaves.mp hx
  simp [hc]

theorem sampled_col {dim : ℕ} {Q : Quad K dim} {m : ℕ} {c : QuadCell K dim} (hc : Q.cells[m]? = some c) (hl : isLeafCell c = true) (f : (Fin dim → K) → K) :
    sampled (quadStoredAt Q) f (qCol Q m) = f c.C := by
  have hm : m ∈ qLeaves Q := mem_qLeaves.mpr ⟨c, hc, hl⟩
  have hr : (qLeaves Q)[qCol Q m]? = some m := by
    have := qCol_lt hm
    rw [List.getElem?_eq_getElem this]
    congr 1
    exact List.getElem_idxOf this
  unfold sampled
  rw [storedAt_get _ _ _ hr hc]
  rfl

/-! ### Geometry of one side -/

/-- The sign of a direction. -/
def sgn2 (s : ℕ) : K := if s = 1 then 1 else -1

section geo
variable {c0 : Fin 2 → K} {w0 : K} {Q : Quad K 2} {ad : ℕ → Fin 2 → ℕ} (hw : 0 < w0) (hI : QInv c0 w0 Q ad)
include hw hI

/-- The centre of a neighbour along the axis. -/
theorem axis_dist {i x : ℕ} {c b : QuadCell K 2} (hc : Q.cells[i]? = some c) (hx : Q.cells[x]? = some b) {j : Fin 2} {s : ℕ} (hs : s < 2)
    (hA : Q.A i x = 2 * j.val + 1 + s) : b.C j = c.C j + sgn2 s * ((c.W + b.W) / 2) := by
  have h1 := ((hI.adj i x c b hc hx j s hs).mp hA).1
  unfold sgn2
  split_ifs at h1 ⊢ with hs1
  · rw [← hI.up_iff hw hc hx] at h1
    unfold QuadCell.hi QuadCell.lo at h1
    linarith
  · rw [← hI.up_iff hw hx hc] at h1
    unfold QuadCell.hi QuadCell.lo at h1
    linarith

theorem width_pos {i : ℕ} {c : QuadCell K 2} (hc : Q.cells[i]? = some c) : 0 < c.W := by
  rw [(hI.geom i c hc).2.1]; positivity

omit hw in
/-- The centre of a neighbour of the same size across the axis. -/
theorem cross_same {i x : ℕ} {c b : QuadCell K 2} (hc : Q.cells[i]? = some c) (hx : Q.cells[x]? = some b) {j : Fin 2} {s : ℕ} (hs : s < 2)
    (hA : Q.A i x = 2 * j.val + 1 + s) (hD : b.D = c.D) {o : Fin 2} (ho : o ≠ j) : b.C o = c.C o := by
  have h1 := ((hI.adj i x c b hc hx j s hs).mp hA).2 o ho
  rw [hD, ovE_same] at h1
  rw [(hI.geom i c hc).2.2 o, (hI.geom x b hx).2.2 o, h1, hD]

omit hw in
/-- The centres of two smaller neighbours across the axis. -/
theorem cross_two {i x y : ℕ} {c bx b : QuadCell K 2} (hc : Q.cells[i]? = some c) (hx : Q.cells[x]? = some bx) (hy : Q.cells[y]? = some b) (hxy : x ≠ y) {j : Fin 2} {s : ℕ} (hs : s < 2)
    (hA : Q.A i x = 2 * j.val + 1 + s) (hA' : Q.A i y = 2 * j.val + 1 + s) (hD : bx.D = c.D + 1) (hD' : b.D = c.D + 1) {o : Fin 2} (ho : o ≠ j) :
    bx.C o + b.C o = 2 * c.C o := by
  have hc1 := (hI.geom i c hc).1
  have h1 := (hI.adj i x c bx hc hx j s hs).mp hA
  have h2 := (hI.adj i y c b hc hy j s hs).mp hA'
  have e1 := h1.2 o ho
  have e2 := h2.2 o ho
  rw [hD, show c.D + 1 - 1 = (c.D - 1) + 1 by omega, ovE_add] at e1
  rw [hD', show c.D + 1 - 1 = (c.D - 1) + 1 by omega, ovE_add] at e2
  have hj : ad x j = ad y j := by
    have f1 := h1.1
    have f2 := h2.1
    rw [hD] at f1
    rw [hD'] at f2
    unfold upE at f1 f2
    have hp : 0 < 2 ^ (c.D - 1) := by positivity
    split_ifs at f1 f2
    · have := Nat.eq_of_mul_eq_mul_right hp (f1.symm.trans f2)
      exact this
    · have := Nat.eq_of_mul_eq_mul_right hp (f1.trans f2.symm)
      omega
  have ho' : ad x o ≠ ad y o := by
    intro e
    apply hxy
    refine hI.inj x y bx b hx hy (by omega) (fun i' => ?_)
    by_cases h : i' = j
    · rw [h, hj]
    · have : i' = o := by omega
      rw [this, e]
  have hsum : ad x o + ad y o = 4 * ad i o + 1 := by omega
  have hsumK : (ad x o : K) + ad y o = 4 * ad i o + 1 := by exact_mod_cast hsum
  rw [(hI.geom i c hc).2.2 o, (hI.geom x bx hx).2.2 o, (hI.geom y b hy).2.2 o, hD, hD', pow_succ]
  have hp : (2 : K) ^ c.D ≠ 0 := by positivity
  field_simp
  linear_combination 2 * w0 * hsumK

/-- The mean of an affine function over a non-empty side. -/
theorem side_affine {i : ℕ} {c : QuadCell K 2} (hc : Q.cells[i]? = some c) {j : Fin 2} {s : ℕ} (hs : s < 2) {r : K × List (ℕ × K)}
    (hS : SideSpec Q i c (2 * j.val + 1 + s) r) (hne : r.1 ≠ 0) (a : K) (b : Fin 2 → K)
    (hcond : (∀ o, o ≠ j → b o = 0) ∨ ∀ x cx, Q.cells[x]? = some cx → isLeafCell cx = true → Q.A i x = 2 * j.val + 1 + s → c.D ≤ cx.D) :
    sideSum Q r (sampled (quadStoredAt Q) (affine2 a b)) = affine2 a b c.C + sgn2 s * r.1 * b j := by
  have hsum : ∀ (p : Fin 2 → K) (o : Fin 2), o ≠ j → affine2 a b p = a + b j * p j + b o * p o := by
    intro p o ho
    unfold affine2
    have hjo : (j = 0 ∧ o = 1) ∨ (j = 1 ∧ o = 0) := by omega
    rcases hjo with ⟨e, e'⟩ | ⟨e, e'⟩ <;> rw [e, e'] <;> ring
  obtain ⟨o, ho⟩ : ∃ o : Fin 2, o ≠ j := ⟨1 - j, by omega⟩
  cases hS with
  | empty => exact absurd rfl hne
  | one m bm hm hml hmA hmD _ =>
    unfold sideSum
    simp only [List.map_cons, List.map_nil, List.sum_cons, List.sum_nil]
    rw [sampled_col hm hml, hsum _ o ho, hsum _ o ho, axis_dist hw hI hc hm hs hmA]
    have hz : b o * bm.C o = b o * c.C o := by
      rcases hcond with h | h
      · rw [h o ho]; ring
      · rw [cross_same hI hc hm hs hmA (le_antisymm hmD (h m bm hm hml hmA)) ho]
    rw [hz]; ring
  | two x y bx b' hx hy hxl hyl hxy hxA hyA hxD hyD _ =>
    unfold sideSum
    simp only [List.map_cons, List.map_nil, List.sum_cons, List.sum_nil]
    rw [sampled_col hx hxl, sampled_col hy hyl, hsum _ o ho, hsum _ o ho, hsum _ o ho, axis_dist hw hI hc hx hs hxA, axis_dist hw hI hc hy hs hyA]
    have hWW : bx.W = b'.W := by rw [(hI.geom x bx hx).2.1, (hI.geom y b' hy).2.1, hxD, hyD]
    have hz := cross_two hI hc hx hy hxy hs hxA hyA hxD hyD ho
    rw [hWW]
    linear_combination (1 / 2) * b o * hz

/-- The mean of a constant over a non-empty side; distances are positive. -/
theorem side_const {i : ℕ} {c : QuadCell K 2} (hc : Q.cells[i]? = some c) {code : ℕ} {r : K × List (ℕ × K)} (hS : SideSpec Q i c code r) :
    (r = (0, []) ∧ ∀ x b, Q.cells[x]? = some b → Q.A i x ≠ code) ∨ (0 < r.1 ∧ (∀ a, sideSum Q r (fun _ => a) = a) ∧ ∃ x b, Q.cells[x]? = some b ∧ Q.A i x = code) := by
  cases hS with
  | empty h => exact Or.inl ⟨rfl, h⟩
  | one m bm hm hml hmA hmD _ =>
    right
    have h1 := width_pos hw hI hc
    have h2 := width_pos hw hI hm
    refine ⟨by dsimp only; linarith, fun a => ?_, m, bm, hm, hmA⟩
    simp [sideSum]
  | two x y bx b' hx hy hxl hyl hxy hxA hyA hxD hyD _ =>
    right
    have h1 := width_pos hw hI hc
    have h2 := width_pos hw hI hy
    refine ⟨by dsimp only; linarith, fun a => ?_, x, bx, hx, hxA⟩
    simp [sideSum]
    ring

omit hw in
theorem side_mem {i : ℕ} {c : QuadCell K 2} {code : ℕ} {r : K × List (ℕ × K)} (hS : SideSpec Q i c code r) {e : ℕ × K} (he : e ∈ r.2) :
    e.1 ∈ qLeaves Q ∧ Q.A i e.1 = code ∧ 0 < e.2 := by
  cases hS with
  | empty h => simp at he
  | one m bm hm hml hmA hmD _ =>
    simp only [List.mem_singleton] at he
    subst he
    exact ⟨mem_qLeaves.mpr ⟨_, hm, hml⟩, hmA, one_pos⟩
  | two x y bx b' hx hy hxl hyl hxy hxA hyA hxD hyD _ =>
    simp only [List.mem_cons, List.not_mem_nil, or_false] at he
    rcases he with rfl | rfl
    · exact ⟨mem_qLeaves.mpr ⟨_, hx, hxl⟩, hxA, by norm_num⟩
    · exact ⟨mem_qLeaves.mpr ⟨_, hy, hyl⟩, hyA, by norm_num⟩

omit hw in
/-- A cell other than the root has a sibling on one side of every axis. -/
theorem sibling {i : ℕ} {c : QuadCell K 2} (hc : Q.cells[i]? = some c) (hi : i ≠ 0) (j : Fin 2) :
    ∃ (s x : ℕ) (b : QuadCell K 2), s < 2 ∧ Q.cells[x]? = some b ∧ Q.A i x = 2 * j.val + 1 + s := by
  have hd : (2 : ℕ) = 2 ∨ (2 : ℕ) = 3 := Or.inl rfl
  obtain ⟨p, cp, m, k, -, -, hp, hch, hk, rfl, hDp, hadx⟩ := hI.par i c hc hi
  rcases hI.ch p cp hp with e | ⟨m', e, -, hm'⟩
  · exfalso
    rw [hch] at e
    have h0 : ((m + 0 : ℕ) : Int) ∈ chRow 2 m := List.mem_of_getElem? (chRow_get m 0 (by norm_num))
    rw [e] at h0
    have := List.eq_of_mem_replicate h0
    omega
  · rw [hch] at e
    have := chRow_inj hd e; subst this
    obtain ⟨κ, hκ, hb⟩ := exists_bits hd (fun i' : Fin 2 => if i' = j then 1 - kbit k i' else kbit k i') (fun i' => by
      have := kbit_lt k i'
      split_ifs <;> omega)
    obtain ⟨b, hb1, -, hbD, hbad⟩ := hm' κ hκ
    have hkl := kbit_lt k j
    refine ⟨1 - kbit k j, m + κ, b, by omega, hb1, ?_⟩
    rw [hI.adj (m + k) (m + κ) c b hc hb1 j _ (by omega), hDp, hbD]
    refine ⟨?_, fun o ho => ?_⟩
    · have hbj := hb j
      rw [if_pos rfl] at hbj
      unfold upE
      rw [hadx j, hbad j, hbj]
      have hcases : kbit k j = 0 ∨ kbit k j = 1 := by omega
      rcases hcases with e | e <;> rw [e] <;> simp
    · rw [ovE_same, hadx o, hbad o, hb o, if_neg ho]

end geo
end Gpy
