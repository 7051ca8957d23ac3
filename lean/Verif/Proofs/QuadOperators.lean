import Verif.Model.QuadOperators
import Verif.Props.Quadtree

set_option autoImplicit false
namespace Gpy
open Np

variable {K : Type} [Field K] [LinearOrder K] [IsStrictOrderedRing K] {dim : ℕ}

theorem ovE_same {k a b : ℕ} : ovE k a k b ↔ a = b := by
  have := ovE_add' k b 0 a
  simpa using this

theorem mem_qNbs {Q : Quad K dim} {i j x : ℕ} : x ∈ qNbs Q i j ↔ x < Q.cells.length ∧ Q.A i x = j := by
  simp [qNbs]

theorem qDepth_of {Q : Quad K dim} {x : ℕ} {c : QuadCell K dim} (h : Q.cells[x]? = some c) : qDepth Q x = c.D := by simp [qDepth, h]

theorem qWidth_of {Q : Quad K dim} {x : ℕ} {c : QuadCell K dim} (h : Q.cells[x]? = some c) : qWidth Q x = c.W := by simp [qWidth, h]

theorem qIsLeaf_of {Q : Quad K dim} {x : ℕ} {c : QuadCell K dim} (h : Q.cells[x]? = some c) : qIsLeaf Q x = isLeafCell c := by simp [qIsLeaf, h]

/-- A neighbour with children has a child that is a neighbour. -/
theorem child_touches (hd : dim = 2 ∨ dim = 3) {c0 : Fin dim → K} {w0 : K} {Q : Quad K dim} {ad : ℕ → Fin dim → ℕ} (h : QInv c0 w0 Q ad)
    {i x : ℕ} {c b : QuadCell K dim} (hc : Q.cells[i]? = some c) (hb : Q.cells[x]? = some b) (hl : isLeafCell b = false) {j : Fin dim} {s : ℕ} (hs : s < 2)
    (hA : Q.A i x = 2 * j.val + 1 + s) : ∃ (y : ℕ) (by' : QuadCell K dim), Q.cells[y]? = some by' ∧ by'.D = b.D + 1 ∧ Q.A i y = 2 * j.val + 1 + s := by
  have hadj := (h.adj i x c b hc hb j s hs).mp hA
  have hc1 := (h.geom i c hc).1
  have hb1 := (h.geom x b hb).1
  rcases h.ch x b hb with e | ⟨m, e, -, hm⟩
  · rw [(isLeaf_iff hd h hb).mpr e] at hl; exact absurd hl (by simp)
  · have hbD : b.D + 1 - 1 = (b.D - 1) + 1 := by omega
    by_cases hle : c.D - 1 ≤ b.D - 1
    · obtain ⟨κ, hκ, hbits⟩ := exists_bits hd (fun _ => 1 - s) (fun _ => by omega)
      obtain ⟨c', h1, -, h3, h4⟩ := hm κ hκ
      refine ⟨m + κ, c', h1, h3, (h.adj i _ c c' hc h1 j s hs).mpr ?_⟩
      rw [h3, hbD, show ad (m + κ) = fun i => 2 * ad x i + kbit κ i from funext h4]
      rw [adjZ_child_coarse hs hle (fun i => kbit_lt κ i)]
      exact ⟨hadj, hbits j⟩
    · push Not at hle
      obtain ⟨κ, hκ, hbits⟩ := exists_bits hd (fun i' => if i' = j then 1 - s else ancBit (b.D - 1) (c.D - 1) (ad i i')) (fun i' => by
        split_ifs
        · omega
        · exact ancBit_lt _ _ _)
      obtain ⟨c', h1, -, h3, h4⟩ := hm κ hκ
      refine ⟨m + κ, c', h1, h3, (h.adj i _ c c' hc h1 j s hs).mpr ?_⟩
      rw [h3, hbD, show ad (m + κ) = fun i => 2 * ad x i + kbit κ i from funext h4]
      rw [adjZ_child_fine hs hle (fun i => kbit_lt κ i) ?_]
      · refine ⟨hadj, by rw [hbits j, if_pos rfl], fun i' hi' => ?_⟩
        rw [hbits i', if_neg hi']
      · intro ho
        have h2 := hadj.1
        have h3 := ho j
        unfold upE at h2
        unfold ovE at h3
        split_ifs at h2 <;> omega

/-- What a direction returns. -/
inductive SideSpec (Q : Quad K dim) (i : ℕ) (c : QuadCell K dim) (code : ℕ) : K × List (ℕ × K) → Prop
  | empty : (∀ x b, Q.cells[x]? = some b → ¬ Q.A i x = code) → SideSpec Q i c code (0, [])
  | one (m : ℕ) (b : QuadCell K dim) : Q.cells[m]? = some b → isLeafCell b = true → Q.A i m = code → b.D ≤ c.D →
      (∀ x cx, Q.cells[x]? = some cx → isLeafCell cx = true → Q.A i x = code → x = m) → SideSpec Q i c code ((c.W + b.W) / 2, [(m, 1)])
  | two (x y : ℕ) (bx b : QuadCell K dim) : Q.cells[x]? = some bx → Q.cells[y]? = some b → isLeafCell bx = true → isLeafCell b = true → x ≠ y → Q.A i x = code → Q.A i y = code →
      bx.D = c.D + 1 → b.D = c.D + 1 → (∀ z cz, Q.cells[z]? = some cz → isLeafCell cz = true → Q.A i z = code → z = x ∨ z = y) →
      SideSpec Q i c code ((c.W + b.W) / 2, [(x, 1 / 2), (y, 1 / 2)])

theorem adj_inj {c0 : Fin dim → K} {w0 : K} {Q : Quad K dim} {ad : ℕ → Fin dim → ℕ} (h : QInv c0 w0 Q ad)
    {i x y : ℕ} {c bx b : QuadCell K dim} (hc : Q.cells[i]? = some c) (hx : Q.cells[x]? = some bx) (hy : Q.cells[y]? = some b) {j : Fin dim} {s : ℕ} (hs : s < 2)
    (hAx : Q.A i x = 2 * j.val + 1 + s) (hAy : Q.A i y = 2 * j.val + 1 + s) (hD : bx.D ≤ c.D) (hD' : b.D ≤ bx.D) (hl : isLeafCell b = true) (hd : dim = 2 ∨ dim = 3) : x = y := by
  have h1 := (h.adj i x c bx hc hx j s hs).mp hAx
  have h2 := (h.adj i y c b hc hy j s hs).mp hAy
  have hb1 := (h.geom y b hy).1
  have hov : ∀ i', ovE (bx.D - 1) (ad x i') (b.D - 1) (ad y i') := by
    intro i'
    obtain ⟨p, hp⟩ : ∃ p, bx.D - 1 = (b.D - 1) + p := ⟨bx.D - b.D, by omega⟩
    obtain ⟨q, hq⟩ : ∃ q, c.D - 1 = (bx.D - 1) + q := ⟨c.D - bx.D, by omega⟩
    have hpp : 0 < 2 ^ p := by positivity
    have hqp : 0 < 2 ^ q := by positivity
    rw [hp, ovE_add']
    by_cases hi : i' = j
    · subst hi
      have e1 := h1.1
      have e2 := h2.1
      rw [hq] at e1
      rw [hq, hp, add_assoc] at e2
      interval_cases s
      · simp only [zero_ne_one, if_false] at e1 e2
        rw [upE_add] at e1 e2
        rw [← e1, pow_add, ← mul_assoc] at e2
        have := Nat.eq_of_mul_eq_mul_right hqp e2
        rw [Nat.div_eq_iff hpp]
        constructor
        · have : ad y i' * 2 ^ p + 2 ^ p = ad x i' + 1 := by rw [← this]; ring
          omega
        · have : ad y i' * 2 ^ p + 2 ^ p = ad x i' + 1 := by rw [← this]; ring
          omega
      · simp only [if_true] at e1 e2
        rw [upE_add'] at e1 e2
        rw [e1, pow_add, ← mul_assoc] at e2
        have := Nat.eq_of_mul_eq_mul_right hqp e2
        rw [this, Nat.mul_div_cancel _ hpp]
    · have e1 := h1.2 i' hi
      have e2 := h2.2 i' hi
      rw [hq, ovE_add'] at e1
      rw [hq, hp, add_assoc, ovE_add', pow_add, mul_comm, ← Nat.div_div_eq_div_mul, e1] at e2
      exact e2
  by_cases hlt : b.D < bx.D
  · exact absurd hov (h.no_inside hd hy hx hl hlt)
  · have hDe : bx.D = b.D := by omega
    refine h.inj x y bx b hx hy hDe ?_
    intro i'
    have := hov i'
    rw [hDe, ovE_same] at this
    exact this

/-- the depth-`D+1` neighbours of a leaf come in pairs -/
theorem fine_pair {c0 : Fin 2 → K} {w0 : K} {Q : Quad K 2} {ad : ℕ → Fin 2 → ℕ} (h : QInv c0 w0 Q ad)
    {i x : ℕ} {c b : QuadCell K 2} (hc : Q.cells[i]? = some c) (hx : Q.cells[x]? = some b) {j : Fin 2} {s : ℕ} (hs : s < 2)
    (hA : Q.A i x = 2 * j.val + 1 + s) (hD : b.D = c.D + 1) :
    ∃ (p u v : ℕ) (cp cu cv : QuadCell K 2), Q.cells[p]? = some cp ∧ isLeafCell cp = false ∧ cp.D = c.D ∧ Q.A i p = 2 * j.val + 1 + s ∧
      Q.cells[u]? = some cu ∧ Q.cells[v]? = some cv ∧ u ≠ v ∧ cu.D = c.D + 1 ∧ cv.D = c.D + 1 ∧ Q.A i u = 2 * j.val + 1 + s ∧ Q.A i v = 2 * j.val + 1 + s ∧
      ∀ z cz, Q.cells[z]? = some cz → cz.D = c.D + 1 → Q.A i z = 2 * j.val + 1 + s → z = u ∨ z = v := by
  have hd : (2 : ℕ) = 2 ∨ (2 : ℕ) = 3 := Or.inl rfl
  have hc1 := (h.geom i c hc).1
  have hx0 : x ≠ 0 := by
    rintro rfl
    obtain ⟨r, hr, hr1, -⟩ := h.root
    rw [hr] at hx; cases Option.some.inj hx
    omega
  obtain ⟨p, cp, m, k, -, -, hp, hch, hk, rfl, hDp, hadx⟩ := h.par x b hx hx0
  have hpl : isLeafCell cp = false := by
    rw [← Bool.not_eq_true, isLeaf_iff hd h hp, hch]
    intro e
    have h0 : ((m + 0 : ℕ) : Int) ∈ chRow 2 m := List.mem_of_getElem? (chRow_get m 0 (by norm_num))
    rw [e] at h0
    have := List.eq_of_mem_replicate h0
    omega
  have hpD : cp.D = c.D := by omega
  have hlev : c.D + 1 - 1 = (c.D - 1) + 1 := by omega
  have key : ∀ κ, κ < 2 ^ 2 → ∃ c', Q.cells[m + κ]? = some c' ∧ c'.D = c.D + 1 ∧ (Q.A i (m + κ) = 2 * j.val + 1 + s ↔
      adjZ (c.D - 1) (ad i) (c.D - 1) (ad p) j s ∧ kbit κ j = 1 - s) := by
    intro κ hκ
    rcases h.ch p cp hp with e | ⟨m', e, -, hm'⟩
    · rw [(isLeaf_iff hd h hp).mpr e] at hpl; exact absurd hpl (by simp)
    · rw [hch] at e
      have := chRow_inj hd e; subst this
      obtain ⟨c', h1, -, h3, h4⟩ := hm' κ hκ
      refine ⟨c', h1, by omega, ?_⟩
      rw [h.adj i _ c c' hc h1 j s hs, h3, hpD, hlev, show ad (m + κ) = fun i => 2 * ad p i + kbit κ i from funext h4,
        adjZ_child_coarse hs (le_refl _) (fun i => kbit_lt κ i)]
  obtain ⟨-, -, -, hkey⟩ := key k hk
  have hpadj := (hkey.mp hA).1
  have hAp : Q.A i p = 2 * j.val + 1 + s := by rw [h.adj i p c cp hc hp j s hs, hpD]; exact hpadj
  obtain ⟨κ0, hκ0, hb0⟩ := exists_bits hd (fun i' : Fin 2 => if i' = j then 1 - s else 0) (fun i' => by split_ifs <;> omega)
  obtain ⟨κ1, hκ1, hb1⟩ := exists_bits hd (fun i' : Fin 2 => if i' = j then 1 - s else 1) (fun i' => by split_ifs <;> omega)
  obtain ⟨cu, hu, huD, hu'⟩ := key κ0 hκ0
  obtain ⟨cv, hv, hvD, hv'⟩ := key κ1 hκ1
  obtain ⟨o, ho⟩ : ∃ o : Fin 2, o ≠ j := ⟨1 - j, by omega⟩
  refine ⟨p, m + κ0, m + κ1, cp, cu, cv, hp, hpl, hpD, hAp, hu, hv, ?_, huD, hvD, hu'.mpr ⟨hpadj, by rw [hb0, if_pos rfl]⟩, hv'.mpr ⟨hpadj, by rw [hb1, if_pos rfl]⟩, ?_⟩
  · intro e
    have : κ0 = κ1 := by omega
    subst this
    have e0 := hb0 o
    have e1 := hb1 o
    rw [if_neg ho] at e0 e1
    omega
  · intro z cz hz hzD hzA
    have hz0 : z ≠ 0 := by
      rintro rfl
      obtain ⟨r, hr, hr1, -⟩ := h.root
      rw [hr] at hz; cases Option.some.inj hz
      omega
    obtain ⟨p', cp', m', k', -, -, hp', hch', hk', rfl, hDp', hadz⟩ := h.par z cz hz hz0
    have hzadj := (h.adj i _ c cz hc hz j s hs).mp hzA
    rw [hzD, hlev, show ad (m' + k') = fun i => 2 * ad p' i + kbit k' i from funext hadz, adjZ_child_coarse hs (le_refl _) (fun i => kbit_lt k' i)] at hzadj
    have hpp : p = p' := by
      refine h.inj p p' cp cp' hp hp' (by omega) ?_
      intro i'
      have h1 := hpadj
      have h2 := hzadj.1
      by_cases hi : i' = j
      · subst hi
        have e1 := h1.1
        have e2 := h2.1
        unfold upE at e1 e2
        have hpos : 0 < 2 ^ (c.D - 1) := by positivity
        split_ifs at e1 e2
        · have e1 := Nat.eq_of_mul_eq_mul_right hpos e1
          have e2 := Nat.eq_of_mul_eq_mul_right hpos e2
          omega
        · have e1 := Nat.eq_of_mul_eq_mul_right hpos e1
          have e2 := Nat.eq_of_mul_eq_mul_right hpos e2
          omega
      · have e1 := h1.2 i' hi
        have e2 := h2.2 i' hi
        rw [ovE_same] at e1 e2
        omega
    subst hpp
    rw [hp] at hp'; cases Option.some.inj hp'
    rw [hch] at hch'
    have := chRow_inj hd hch'; subst this
    have hbit : k' = κ0 ∨ k' = κ1 := by
      have hlt := kbit_lt k' o
      have hcases : kbit k' o = 0 ∨ kbit k' o = 1 := by omega
      have hall : ∀ i' : Fin 2, i' = j ∨ i' = o := by
        intro i'; omega
      rcases hcases with e | e
      · left
        refine kbit_ext hd k' κ0 hk' hκ0 (fun i' hi' => ?_)
        rcases hall ⟨i', hi'⟩ with e' | e'
        · have := hzadj.2; have h0 := hb0 j; rw [if_pos rfl] at h0
          rw [← e'] at this h0; rw [this, h0]
        · have h0 := hb0 o; rw [if_neg ho] at h0
          rw [← e'] at e h0; rw [e, h0]
      · right
        refine kbit_ext hd k' κ1 hk' hκ1 (fun i' hi' => ?_)
        rcases hall ⟨i', hi'⟩ with e' | e'
        · have := hzadj.2; have h0 := hb1 j; rw [if_pos rfl] at h0
          rw [← e'] at this h0; rw [this, h0]
        · have h0 := hb1 o; rw [if_neg ho] at h0
          rw [← e'] at e h0; rw [e, h0]
    rcases hbit with rfl | rfl
    · exact Or.inl rfl
    · exact Or.inr rfl

theorem qside_spec {c0 : Fin 2 → K} {w0 : K} {Q : Quad K 2} (hR : GradedReach c0 w0 Q) {i : ℕ} {c : QuadCell K 2} (hc : Q.cells[i]? = some c)
    (hl : isLeafCell c = true) (j : Fin 2) (s : ℕ) (hs : s < 2) : ∃ r, qSide Q i (2 * j.val + 1 + s) = some r ∧ SideSpec Q i c (2 * j.val + 1 + s) r := by
  have hd : (2 : ℕ) = 2 ∨ (2 : ℕ) = 3 := Or.inl rfl
  obtain ⟨ad, h⟩ := reach_inv hd (graded_reach hR)
  generalize hcode : 2 * j.val + 1 + s = code
  have hget : ∀ {x}, x ∈ qNbs Q i code → ∃ b, Q.cells[x]? = some b ∧ Q.A i x = code := by
    intro x hx
    rw [mem_qNbs] at hx
    exact ⟨_, List.getElem?_eq_getElem hx.1, hx.2⟩
  have hmem : ∀ {x b}, Q.cells[x]? = some b → Q.A i x = code → x ∈ qNbs Q i code := fun hx hA => mem_qNbs.mpr ⟨(List.getElem?_eq_some_iff.mp hx).1, hA⟩
  have hgr : ∀ {x b}, Q.cells[x]? = some b → isLeafCell b = true → Q.A i x = code → b.D ≤ c.D + 1 := by
    intro x b hx hbl hA
    by_contra hlt
    push Not at hlt
    exact graded_noviol hd hR x i ⟨b, c, hx, hc, hbl, hl, h.A_symm hc hx (by omega), by omega⟩
  unfold qSide
  cases hm : (qNbs Q i code).argmax (qDepth Q) with
  | none =>
    rw [List.argmax_eq_none] at hm
    refine ⟨_, rfl, SideSpec.empty fun x b hx hA => ?_⟩
    have := hmem hx hA
    rw [hm] at this; simp at this
  | some m =>
    have hmm := List.argmax_mem hm
    obtain ⟨b, hb, hA⟩ := hget hmm
    have hmax : ∀ {x cx}, Q.cells[x]? = some cx → Q.A i x = code → cx.D ≤ b.D := by
      intro x cx hx hAx
      have := List.le_of_mem_argmax (hmem hx hAx) hm
      rwa [qDepth_of hx, qDepth_of hb] at this
    have hleafmax : ∀ {x cx}, Q.cells[x]? = some cx → Q.A i x = code → cx.D = b.D → isLeafCell cx = true := by
      intro x cx hx hAx hD
      by_contra hnl
      rw [Bool.not_eq_true] at hnl
      obtain ⟨y, cy, hy, hyD, hyA⟩ := child_touches hd h hc hx hnl hs (by rw [hcode]; exact hAx)
      rw [hcode] at hyA
      have := hmax hy hyA
      omega
    have hbl := hleafmax hb hA rfl
    dsimp only
    rw [qDepth_of hb, qDepth_of hc]
    by_cases hle : b.D ≤ c.D
    · rw [if_pos hle]
      unfold qSideCoarse
      rw [qIsLeaf_of hb, hbl, if_pos rfl, qWidth_of hc, qWidth_of hb]
      refine ⟨_, rfl, SideSpec.one m b hb hbl hA hle ?_⟩
      intro x cx hx hxl hxA
      exact (adj_inj h hc hb hx hs (by rw [hcode]; exact hA) (by rw [hcode]; exact hxA) hle (hmax hx hxA) hxl hd).symm
    · rw [if_neg hle]
      have hbD : b.D = c.D + 1 := by have := hgr hb hbl hA; omega
      obtain ⟨p, u, v, cp, cu, cv, hp, hpl, hpD, hpA, hu, hv, huv, huD, hvD, huA, hvA, hall⟩ := fine_pair h hc hb hs (by rw [hcode]; exact hA) hbD
      rw [hcode] at hpA huA hvA
      have hul := hleafmax hu huA (by omega)
      have hvl := hleafmax hv hvA (by omega)
      have hnn : ((qNbs Q i code).filter (fun k => qDepth Q k == qDepth Q i + 1)).Perm [u, v] := by
        rw [List.perm_ext_iff_of_nodup]
        · intro z
          rw [List.mem_filter, beq_iff_eq, qDepth_of hc]
          constructor
          · rintro ⟨hz, hzD⟩
            obtain ⟨cz, hcz, hzA⟩ := hget hz
            rw [qDepth_of hcz] at hzD
            have := hall z cz hcz hzD (by rw [hcode]; exact hzA)
            simpa using this
          · intro hz
            simp only [List.mem_cons, List.not_mem_nil, or_false] at hz
            rcases hz with rfl | rfl
            · exact ⟨hmem hu huA, by rw [qDepth_of hu, huD]⟩
            · exact ⟨hmem hv hvA, by rw [qDepth_of hv, hvD]⟩
        · exact (List.nodup_range.filter _).filter _
        · simp [huv]
      have hcov : ∀ z cz, Q.cells[z]? = some cz → isLeafCell cz = true → Q.A i z = code → z = u ∨ z = v := by
        intro z cz hz hzl hzA
        by_cases hzD : cz.D = c.D + 1
        · exact hall z cz hz hzD (by rw [hcode]; exact hzA)
        · have h1 := hgr hz hzl hzA
          have := adj_inj h hc hp hz hs (by rw [hcode]; exact hpA) (by rw [hcode]; exact hzA) (by omega) (by omega) hzl hd
          subst this
          rw [hp] at hz; cases Option.some.inj hz
          rw [hpl] at hzl; exact absurd hzl (by simp)
      have hcases : (qNbs Q i code).filter (fun k => qDepth Q k == qDepth Q i + 1) = [u, v] ∨ (qNbs Q i code).filter (fun k => qDepth Q k == qDepth Q i + 1) = [v, u] := by
        generalize (qNbs Q i code).filter (fun k => qDepth Q k == qDepth Q i + 1) = l at hnn
        have hlen := hnn.length_eq
        match l, hlen with
        | [x, y], _ =>
          have hx : x ∈ [u, v] := hnn.mem_iff.mp (by simp)
          have hy : y ∈ [u, v] := hnn.mem_iff.mp (by simp)
          have hnd := hnn.nodup_iff.mpr (by simp [huv])
          simp only [List.mem_cons, List.not_mem_nil, or_false] at hx hy
          simp only [List.nodup_cons, List.mem_singleton, List.not_mem_nil, not_false_eq_true, List.nodup_nil, and_true] at hnd
          rcases hx with rfl | rfl <;> rcases hy with rfl | rfl
          · exact absurd rfl hnd
          · exact Or.inl rfl
          · exact Or.inr rfl
          · exact absurd rfl hnd
      unfold qSideFine
      rcases hcases with e | e
      · rw [e]
        dsimp only
        rw [qIsLeaf_of hu, qIsLeaf_of hv, hul, hvl, qWidth_of hc, qWidth_of hv]
        exact ⟨_, rfl, SideSpec.two u v cu cv hu hv hul hvl huv huA hvA huD hvD hcov⟩
      · rw [e]
        dsimp only
        rw [qIsLeaf_of hu, qIsLeaf_of hv, hul, hvl, qWidth_of hc, qWidth_of hu]
        exact ⟨_, rfl, SideSpec.two v u cv cu hv hu hvl hul huv.symm hvA huA hvD huD (fun z cz hz hzl hzA => (hcov z cz hz hzl hzA).symm)⟩

end Gpy
