import Verif.Props.Quadtree
import Mathlib.Data.Finset.Card
import Mathlib.Data.List.NodupEquivFin
import Mathlib.Data.Fintype.Pi
import Mathlib.Data.Fintype.BigOperators
import Mathlib.Data.Fintype.Card

/-! C23: `in_quadtree`; C54: `initialize_quadtree`; C55: `quadtree_children`, `quadtree_boundary`. -/

set_option autoImplicit false
namespace Gpy
open Np

variable {K : Type} [Field K] [LinearOrder K] [IsStrictOrderedRing K] {dim : ℕ}

theorem isInQuad_iff (p : Fin dim → K) (c : QuadCell K dim) : isInQuad p c = true ↔ c.Contains p := by
  unfold isInQuad QuadCell.Contains QuadCell.lo QuadCell.hi
  rw [decide_eq_true_eq]
  constructor
  · intro h j
    have := h j
    constructor <;> linarith [this.1, this.2]
  · intro h j
    have := h j
    constructor <;> linarith [this.1, this.2]

theorem nodup_length_le {l : List ℕ} {n : ℕ} (h : l.Nodup) (hl : ∀ x ∈ l, x < n) : l.length ≤ n := by
  have h1 : l.toFinset ⊆ Finset.range n := by
    intro x hx
    rw [List.mem_toFinset] at hx
    exact Finset.mem_range.mpr (hl x hx)
  have h2 := Finset.card_le_card h1
  rwa [List.toFinset_card_of_nodup h, Finset.card_range] at h2

theorem chRow_split (hd : dim = 2 ∨ dim = 3) (m : ℕ) :
    ∃ k4 k8, [0, 1, 2, 3].mapM (fun k : ℕ => (chRow dim m)[k]?) = some k4 ∧
      octRest dim (chRow dim m) = some k8 ∧ k4 ++ k8 = chRow dim m := by
  rcases hd with rfl | rfl
  · exact ⟨_, _, rfl, rfl, rfl⟩
  · exact ⟨_, _, rfl, rfl, rfl⟩

/-- The search keeps the cells that were looked at (`dn`) and the queue (`qs`) duplicate free. -/
theorem inQuadtreeLoop_spec (hd : dim = 2 ∨ dim = 3) {c0 : Fin dim → K} {w0 : K} {Q : Quad K dim} (hR : QuadReach c0 w0 Q) (p : Fin dim → K) :
    ∀ (fuel : ℕ) (dn qs others : List ℕ), (dn ++ qs).Nodup → (∀ x ∈ dn ++ qs, x < Q.cells.length) →
      (∀ x ∈ dn ++ qs, x ≠ 0 → ∀ c, Q.cells[x]? = some c → ∃ q ∈ dn, c.PAR = ((q : ℕ) : Int)) →
      Q.cells.length ≤ fuel + dn.length →
      (∃ x ∈ qs, ∃ c, Q.cells[x]? = some c ∧ c.Contains p) →
      (∀ x ∈ others, ∃ c, Q.cells[x]? = some c ∧ c.Contains p) →
      (∀ x ∈ qs ++ others, x ≠ 0 → ∀ c, Q.cells[x]? = some c → ∃ q ∈ others, c.PAR = ((q : ℕ) : Int)) →
      ∃ (i : ℕ) (others' : List ℕ), inQuadtreeLoop p Q fuel (qs.map (fun k : ℕ => (k : Int))) (others.map (fun k : ℕ => (k : Int))) =
          some ((i : Int), others'.map (fun k : ℕ => (k : Int))) ∧
        (∃ c, Q.cells[i]? = some c ∧ c.Childless ∧ c.Contains p) ∧ i ∈ others' ∧
        (∀ x ∈ others', ∃ c, Q.cells[x]? = some c ∧ c.Contains p) ∧
        (∀ x ∈ others', x ≠ 0 → ∀ c, Q.cells[x]? = some c → ∃ q ∈ others', c.PAR = ((q : ℕ) : Int))
  | 0, dn, qs, others, hN, hlt, hpar, hf, ⟨x, hx, _⟩, ho, hpo => by
    have h1 := nodup_length_le hN hlt
    rw [List.length_append] at h1
    have h2 := List.length_pos_of_mem hx
    omega
  | fuel + 1, dn, [], others, hN, hlt, hpar, hf, ⟨x, hx, _⟩, ho, hpo => by simp at hx
  | fuel + 1, dn, q :: qs, others, hN, hlt, hpar, hf, hex, ho, hpo => by
    obtain ⟨ad, hI⟩ := reach_inv hd hR
    have hqlt : q < Q.cells.length := hlt q (by simp)
    obtain ⟨c, hc⟩ : ∃ c, Q.cells[q]? = some c := ⟨_, List.getElem?_eq_getElem hqlt⟩
    have hN' : ((dn ++ [q]) ++ qs).Nodup := by rw [List.append_assoc]; exact hN
    rw [List.map_cons, inQuadtreeLoop]
    simp only [npGet?_natCast, hc, Option.bind_eq_bind, Option.bind_some]
    by_cases hin : c.Contains p
    · rw [if_pos ((isInQuad_iff p c).mpr hin)]
      by_cases hl : isLeafCell c = true
      · rw [if_pos hl]
        refine ⟨q, others ++ [q], by simp, ⟨c, hc, (childless_iff hd hI hc).mpr hl, hin⟩, by simp, ?_, ?_⟩
        · intro x hx
          rcases List.mem_append.mp hx with hx | hx
          · exact ho x hx
          · rw [List.mem_singleton] at hx; subst hx; exact ⟨c, hc, hin⟩
        · intro x hx h0 cx hcx
          have hm : x ∈ (q :: qs) ++ others := by
            rcases List.mem_append.mp hx with hx | hx
            · simp [hx]
            · rw [List.mem_singleton] at hx; simp [hx]
          obtain ⟨y, hy, e⟩ := hpo x hm h0 cx hcx
          exact ⟨y, by simp [hy], e⟩
      · rw [if_neg hl]
        rcases hI.ch q c hc with e | ⟨m, e, hqm, hm⟩
        · exact absurd ((isLeaf_iff hd hI hc).mpr e) hl
        · obtain ⟨k4, k8, h4, h8, h48⟩ := chRow_split hd m
          rw [e, h4, h8]
          simp only [Option.bind_some]
          have hkids : ∀ x ∈ (List.range (2 ^ dim)).map (fun k => m + k), ∃ c', Q.cells[x]? = some c' ∧ c'.PAR = (q : Int) ∧ x ≠ 0 := by
            intro x hx
            rw [List.mem_map] at hx
            obtain ⟨k, hk, rfl⟩ := hx
            obtain ⟨c', g1, g2, -⟩ := hm k (List.mem_range.mp hk)
            exact ⟨c', g1, g2, by omega⟩
          have hmap : (qs.map (fun k : ℕ => (k : Int)) ++ k4) ++ k8 =
              (qs ++ (List.range (2 ^ dim)).map (fun k => m + k)).map (fun k : ℕ => (k : Int)) := by
            rw [List.append_assoc, h48, List.map_append, List.map_map]; rfl
          have hoth : others.map (fun k : ℕ => (k : Int)) ++ [(q : Int)] = (others ++ [q]).map (fun k : ℕ => (k : Int)) := by simp
          rw [hmap, hoth]
          refine inQuadtreeLoop_spec hd hR p fuel (dn ++ [q]) (qs ++ (List.range (2 ^ dim)).map (fun k => m + k)) (others ++ [q])
            ?_ ?_ ?_ ?_ ?_ ?_ ?_
          · rw [← List.append_assoc, List.nodup_append]
            refine ⟨hN', ?_, ?_⟩
            · exact List.Nodup.map (fun a b hab => by omega) List.nodup_range
            · intro a ha b hb hab
              subst hab
              obtain ⟨c', g1, g2, g3⟩ := hkids a hb
              obtain ⟨y, hy, e2⟩ := hpar a (by simpa using ha) g3 c' g1
              rw [g2] at e2
              have : q = y := by exact_mod_cast e2
              subst this
              rw [List.nodup_append] at hN
              exact hN.2.2 q hy q (by simp) rfl
          · intro x hx
            rw [← List.append_assoc] at hx
            rcases List.mem_append.mp hx with hx | hx
            · exact hlt x (by simpa using hx)
            · obtain ⟨c', g1, -⟩ := hkids x hx
              exact (List.getElem?_eq_some_iff.mp g1).1
          · intro x hx h0 cx hcx
            rw [← List.append_assoc] at hx
            rcases List.mem_append.mp hx with hx | hx
            · obtain ⟨y, hy, e2⟩ := hpar x (by simpa using hx) h0 cx hcx
              exact ⟨y, by simp [hy], e2⟩
            · obtain ⟨c', g1, g2, -⟩ := hkids x hx
              rw [hcx] at g1; cases g1
              exact ⟨q, by simp, g2⟩
          · rw [List.length_append]; simp only [List.length_singleton]; omega
          · have hnc : ¬ c.Childless := by rw [childless_iff hd hI hc]; exact hl
            obtain ⟨x, cx, g1, g2, g3⟩ := cover_children hd hR hc hnc hin
            refine ⟨x, ?_, cx, g2, g3⟩
            rw [e] at g1
            unfold chRow at g1
            rw [List.mem_map] at g1
            obtain ⟨k, hk, hk2⟩ := g1
            rw [List.mem_append]
            right
            rw [List.mem_map]
            exact ⟨k, hk, by exact_mod_cast hk2⟩
          · intro x hx
            rcases List.mem_append.mp hx with hx | hx
            · exact ho x hx
            · rw [List.mem_singleton] at hx; subst hx; exact ⟨c, hc, hin⟩
          · intro x hx h0 cx hcx
            have hcase : x ∈ (q :: qs) ++ others ∨ x ∈ (List.range (2 ^ dim)).map (fun k => m + k) := by
              simp only [List.mem_append, List.mem_cons] at hx ⊢
              rcases hx with (hx | hx) | hx | hx | hx
              · tauto
              · tauto
              · tauto
              · tauto
              · simp at hx
            rcases hcase with hx | hx
            · obtain ⟨y, hy, e2⟩ := hpo x hx h0 cx hcx
              exact ⟨y, by simp [hy], e2⟩
            · obtain ⟨c', g1, g2, -⟩ := hkids x hx
              rw [hcx] at g1; cases g1
              exact ⟨q, by simp, g2⟩
    · rw [if_neg (by rw [isInQuad_iff]; exact hin)]
      refine inQuadtreeLoop_spec hd hR p fuel (dn ++ [q]) qs others hN' ?_ ?_ ?_ ?_ ho ?_
      · intro x hx; exact hlt x (by simpa using hx)
      · intro x hx h0 cx hcx
        obtain ⟨y, hy, e2⟩ := hpar x (by simpa using hx) h0 cx hcx
        exact ⟨y, by simp [hy], e2⟩
      · rw [List.length_append]; simp only [List.length_singleton]; omega
      · obtain ⟨x, hx, cx, g1, g2⟩ := hex
        rcases List.mem_cons.mp hx with rfl | hx
        · rw [hc] at g1; cases g1; exact absurd g2 hin
        · exact ⟨x, hx, cx, g1, g2⟩
      · intro x hx h0 cx hcx
        exact hpo x (by simp only [List.mem_append, List.mem_cons] at hx ⊢; tauto) h0 cx hcx

/-- C23.  For a point of the root box `in_quadtree` returns a childless cell containing the point; the cells of `others` all contain the point, and
with the returned cell they include all its ancestors.  For a point outside it returns `(-1, [])`.  At most as many rounds as there are cells
are needed. -/
theorem C23_in_quadtree (hd : dim = 2 ∨ dim = 3) {c0 : Fin dim → K} {w0 : K} {Q : Quad K dim} (hR : QuadReach c0 w0 Q) (p : Fin dim → K)
    {fuel : ℕ} (hf : Q.cells.length ≤ fuel) :
    ((∀ j, c0 j - w0 / 2 ≤ p j ∧ p j ≤ c0 j + w0 / 2) →
      ∃ (i : ℕ) (others : List ℕ), inQuadtree p Q fuel = some ((i : Int), others.map (fun k : ℕ => (k : Int))) ∧
        (∃ c, Q.cells[i]? = some c ∧ c.Childless ∧ c.Contains p) ∧ i ∈ others ∧
        (∀ x ∈ others, ∃ c, Q.cells[x]? = some c ∧ c.Contains p) ∧
        ∀ x ∈ others, x ≠ 0 → ∀ c, Q.cells[x]? = some c → ∃ q ∈ others, c.PAR = ((q : ℕ) : Int)) ∧
    ((¬ ∀ j, c0 j - w0 / 2 ≤ p j ∧ p j ≤ c0 j + w0 / 2) → inQuadtree p Q fuel = some (-1, [])) := by
  obtain ⟨r, h1, h2, h3, h4, h5⟩ := (C20_tree_structure hd hR).1
  have hlen : 0 < Q.cells.length := (List.getElem?_eq_some_iff.mp h1).1
  have hr : r.Contains p ↔ ∀ j, c0 j - w0 / 2 ≤ p j ∧ p j ≤ c0 j + w0 / 2 := by
    unfold QuadCell.Contains QuadCell.lo QuadCell.hi
    rw [h4, h5]
  constructor
  · intro hp
    obtain ⟨i, others, e, h6⟩ := inQuadtreeLoop_spec hd hR p fuel [] [0] [] (by simp) (by simpa using hlen) (by simp)
      (by simpa using hf) ⟨0, by simp, r, h1, hr.mpr hp⟩ (by simp) (by simp)
    exact ⟨i, others, e, h6⟩
  · intro hp
    unfold inQuadtree
    obtain ⟨f, rfl⟩ : ∃ f, fuel = f + 1 := ⟨fuel - 1, by omega⟩
    rw [inQuadtreeLoop]
    have hg : npGet? Q.cells (0 : Int) = some r := by
      have := npGet?_natCast Q.cells 0
      rw [h1] at this; exact this
    simp only [hg, Option.bind_eq_bind, Option.bind_some]
    rw [if_neg (by rw [isInQuad_iff, hr]; exact hp)]
    cases f <;> rfl

/-! ## `initialize_quadtree` -/

omit [LinearOrder K] [IsStrictOrderedRing K] in
theorem QInv.ad_lt {c0 : Fin dim → K} {w0 : K} {Q : Quad K dim} {ad : ℕ → Fin dim → ℕ} (h : QInv c0 w0 Q ad) {i : ℕ} {c : QuadCell K dim}
    (hc : Q.cells[i]? = some c) (j : Fin dim) : ad i j < 2 ^ (c.D - 1) := by
  have hD := (h.geom i c hc).1
  obtain ⟨p, cp, hp, h1, h2, -⟩ := h.anc (c.D - 1) i c hc (by omega)
  have hp0 : p = 0 := by
    by_contra h0
    obtain ⟨q, cq, -, -, -, -, h4, -, -, -, h5, -⟩ := h.par p cp hp h0
    have := (h.geom q cq h4).1
    omega
  obtain ⟨r, -, -, -, hr⟩ := h.root
  have := h2 j
  rw [hp0, hr j] at this
  have := (Nat.div_eq_zero_iff).mp this.symm
  rcases this with this | this
  · exact absurd this (by positivity)
  · exact this

omit [LinearOrder K] [IsStrictOrderedRing K] in
/-- a tree of bounded depth has a bounded number of cells -/
theorem QInv.card_le {c0 : Fin dim → K} {w0 : K} {Q : Quad K dim} {ad : ℕ → Fin dim → ℕ} (h : QInv c0 w0 Q ad) {M : ℕ}
    (hM : ∀ (i : ℕ) c, Q.cells[i]? = some c → c.D ≤ M) : Q.cells.length ≤ (M + 1) * (2 ^ M) ^ dim := by
  classical
  let f : Fin Q.cells.length → Fin (M + 1) × (Fin dim → Fin (2 ^ M)) := fun i =>
    (⟨(Q.cells[i.val]'i.isLt).D, by
        have := hM i.val _ (List.getElem?_eq_getElem i.isLt); omega⟩,
      fun j => ⟨ad i.val j, by
        have h1 := h.ad_lt (List.getElem?_eq_getElem i.isLt) j
        have h2 := hM i.val _ (List.getElem?_eq_getElem i.isLt)
        exact lt_of_lt_of_le h1 (Nat.pow_le_pow_right (by norm_num) (by omega))⟩)
  have hf : Function.Injective f := by
    intro i i' e
    have e1 := congrArg (fun x => x.1.val) e
    have e2 : ∀ j, ad i.val j = ad i'.val j := fun j => congrArg (fun x => (x.2 j).val) e
    exact Fin.ext (h.inj i.val i'.val _ _ (List.getElem?_eq_getElem i.isLt) (List.getElem?_eq_getElem i'.isLt) e1 e2)
  have := Fintype.card_le_of_injective f hf
  simpa [Fintype.card_prod, Fintype.card_pi] using this

theorem top_none_of_nonleaf {graded : Bool} {Q : Quad K dim} {ind : ℕ} {c : QuadCell K dim} (hc : Q.cells[ind]? = some c)
    (hl : isLeafCell c = true) (hd : dim = 2 ∨ dim = 3) {c0 : Fin dim → K} {w0 : K} (h : QuadReach c0 w0 Q) :
    ∃ Q', subdivideQuadTop graded Q ind = some Q' := by
  obtain ⟨ad, hI⟩ := reach_inv hd h
  obtain ⟨Q', h1, -⟩ := C20_subdivide_succeeds hd h graded hc ((childless_iff hd hI hc).mpr hl)
  exact ⟨Q', h1⟩

theorem quadLoop_done (P : List (Fin dim → K)) (M m : ℕ) (g : Bool) (fuel i : ℕ) (Q : Quad K dim) (h : Q.cells.length ≤ i) :
    quadLoop P M m g fuel i Q = some Q := by
  rw [quadLoop.eq_def]
  simp only [if_pos h]

theorem quadLoop_stuck (P : List (Fin dim → K)) (M m : ℕ) (g : Bool) (i : ℕ) (Q : Quad K dim) (h : ¬ Q.cells.length ≤ i) :
    quadLoop P M m g 0 i Q = none := by
  rw [quadLoop.eq_def]
  simp only [if_neg h]

theorem quadLoop_step (P : List (Fin dim → K)) (M m : ℕ) (g : Bool) (fuel i : ℕ) (Q : Quad K dim) (h : ¬ Q.cells.length ≤ i) :
    quadLoop P M m g (fuel + 1) i Q = (do
      let c ← Q.cells[i]?
      if (decide (c.D < m) || P.any (fun p => isInQuad p c)) && decide (c.D < M) && isLeafCell c then do
        let Q' ← subdivideQuadTop g Q i
        quadLoop P M m g fuel (i + 1) Q'
      else quadLoop P M m g fuel (i + 1) Q) := by
  rw [quadLoop.eq_def]
  simp only [if_neg h]

theorem quadLoop_spec (hd : dim = 2 ∨ dim = 3) {c0 : Fin dim → K} {w0 : K} (P : List (Fin dim → K)) (maxDepth minDepth : ℕ) (graded : Bool)
    (B : ℕ) (hB : B = (max 1 maxDepth + 1) * (2 ^ max 1 maxDepth) ^ dim) :
    ∀ (fuel i : ℕ) (Q : Quad K dim), QuadReach c0 w0 Q → (graded = true → GradedReach c0 w0 Q) →
      (∀ (k : ℕ) c, Q.cells[k]? = some c → c.D ≤ max 1 maxDepth) →
      (∀ k < i, ∀ c, Q.cells[k]? = some c → isLeafCell c = true → c.D < maxDepth → minDepth ≤ c.D ∧ ∀ p ∈ P, ¬ c.Contains p) →
      B ≤ fuel + i →
      ∃ Q', quadLoop P maxDepth minDepth graded fuel i Q = some Q' ∧ QuadReach c0 w0 Q' ∧ (graded = true → GradedReach c0 w0 Q') ∧
        (∀ (k : ℕ) c, Q'.cells[k]? = some c → c.D ≤ max 1 maxDepth) ∧
        (∀ (k : ℕ) c, Q'.cells[k]? = some c → isLeafCell c = true → c.D < maxDepth → minDepth ≤ c.D ∧ ∀ p ∈ P, ¬ c.Contains p) := by
  intro fuel
  induction fuel with
  | zero =>
    intro i Q hR hG hM hdone hf
    obtain ⟨ad, hI⟩ := reach_inv hd hR
    have := hI.card_le hM
    rw [← hB] at this
    refine ⟨Q, ?_, hR, hG, hM, fun k c hk => hdone k ?_ c hk⟩
    · rw [quadLoop_done _ _ _ _ _ _ _ (by omega)]
    · have := (List.getElem?_eq_some_iff.mp hk).1
      omega
  | succ fuel ih =>
    intro i Q hR hG hM hdone hf
    obtain ⟨ad, hI⟩ := reach_inv hd hR
    by_cases hi : Q.cells.length ≤ i
    · refine ⟨Q, ?_, hR, hG, hM, fun k c hk => hdone k ?_ c hk⟩
      · rw [quadLoop_done _ _ _ _ _ _ _ hi]
      · have := (List.getElem?_eq_some_iff.mp hk).1
        omega
    · rw [quadLoop_step _ _ _ _ _ _ _ hi]
      obtain ⟨c, hc⟩ : ∃ c, Q.cells[i]? = some c := ⟨_, List.getElem?_eq_getElem (by omega)⟩
      simp only [hc, Option.bind_eq_bind, Option.bind_some]
      by_cases hcond : ((decide (c.D < minDepth) || P.any (fun p => isInQuad p c)) && decide (c.D < maxDepth) && isLeafCell c) = true
      · rw [if_pos hcond]
        rw [Bool.and_eq_true, Bool.and_eq_true, decide_eq_true_eq] at hcond
        obtain ⟨⟨-, hmax⟩, hl⟩ := hcond
        obtain ⟨Q1, hQ1⟩ := top_none_of_nonleaf (graded := graded) hc hl hd hR
        rw [hQ1, Option.bind_some]
        obtain ⟨c', g1, g2, g3, hE, ⟨ci, g4, g5⟩, g6, -⟩ := top_spec hd hI hQ1
        rw [hc] at g1; cases g1
        refine ih (i + 1) Q1 (QuadReach.step Q Q1 graded i hR hQ1) ?_ ?_ ?_ (by omega)
        · intro hg
          subst hg
          exact GradedReach.step Q Q1 i (hG rfl) hQ1
        · intro k x hk
          by_cases hlt : k < Q.cells.length
          · obtain ⟨x', e1, -, -, e2, -⟩ := hE.keep k _ (List.getElem?_eq_getElem hlt)
            rw [hk] at e1; cases e1
            rw [e2]; exact hM k _ (List.getElem?_eq_getElem hlt)
          · have := g6 k x (by omega) hk
            exact le_trans (by omega) (le_max_right 1 maxDepth)
        · intro k hk x hx hlx hDx
          by_cases hki : k = i
          · subst hki
            rw [g4] at hx; cases hx
            rw [g5] at hlx; exact absurd hlx (by simp)
          · obtain ⟨y, hy⟩ : ∃ y, Q.cells[k]? = some y := ⟨_, List.getElem?_eq_getElem (by omega)⟩
            obtain ⟨x', e1, eC, eW, e2, -, e3⟩ := hE.keep k y hy
            rw [hx] at e1; cases e1
            have hly : isLeafCell y = true := by
              by_contra hcon
              have := e3 (by simpa using hcon)
              rw [this] at hlx
              exact hcon hlx
            obtain ⟨f1, f2⟩ := hdone k (by omega) y hy hly (by omega)
            refine ⟨by omega, fun p hp hcon => f2 p hp ?_⟩
            unfold QuadCell.Contains QuadCell.lo QuadCell.hi at hcon ⊢
            rw [eC, eW] at hcon; exact hcon
      · rw [if_neg hcond]
        refine ih (i + 1) Q hR hG hM ?_ (by omega)
        intro k hk x hx hlx hDx
        by_cases hki : k = i
        · subst hki
          rw [hc] at hx; cases hx
          rw [Bool.and_eq_true, Bool.and_eq_true, decide_eq_true_eq, Bool.or_eq_true, decide_eq_true_eq, List.any_eq_true] at hcond
          push Not at hcond
          have h1 : ¬ (c.D < minDepth ∨ ∃ p ∈ P, isInQuad p c = true) := by
            intro h2
            exact hcond ⟨h2, hDx⟩ hlx
          push Not at h1
          exact ⟨h1.1, fun p hp hcon => h1.2 p hp ((isInQuad_iff p c).mpr hcon)⟩
        · exact hdone k (by omega) x hx hlx hDx

theorem foldl_min_le {α : Type} (f : α → K) : ∀ (l : List α) (a : K), l.foldl (fun acc x => min acc (f x)) a ≤ a ∧
    ∀ x ∈ l, l.foldl (fun acc x => min acc (f x)) a ≤ f x
  | [], a => ⟨le_refl _, by simp⟩
  | y :: l, a => by
    obtain ⟨h1, h2⟩ := foldl_min_le f l (min a (f y))
    refine ⟨h1.trans (min_le_left _ _), fun x hx => ?_⟩
    rcases List.mem_cons.mp hx with rfl | hx
    · exact h1.trans (min_le_right _ _)
    · exact h2 x hx

theorem le_foldl_max {α : Type} (f : α → K) : ∀ (l : List α) (a : K), a ≤ l.foldl (fun acc x => max acc (f x)) a ∧
    ∀ x ∈ l, f x ≤ l.foldl (fun acc x => max acc (f x)) a
  | [], a => ⟨le_refl _, by simp⟩
  | y :: l, a => by
    obtain ⟨h1, h2⟩ := le_foldl_max f l (max a (f y))
    refine ⟨(le_max_left _ _).trans h1, fun x hx => ?_⟩
    rcases List.mem_cons.mp hx with rfl | hx
    · exact (le_max_right _ _).trans h1
    · exact h2 x hx

/-- C54.  `initialize_quadtree(P,max_depth,min_depth,graded)` for nonempty `P`: the loop ends; the result is a tree that arises by subdivisions (all
graded if `graded=True`) from a box that contains all points of `P`; no cell is deeper than `max_depth`; every leaf less deep than `max_depth`
has depth at least `min_depth` and contains no point of `P`.  Hence every point of `P` lies in a leaf of depth exactly `max_depth`. -/
theorem C54_initialize_quadtree [NeZero dim] (hd : dim = 2 ∨ dim = 3) (P : List (Fin dim → K)) (hP : P ≠ []) (maxDepth minDepth : ℕ)
    (hmax : 1 ≤ maxDepth) (graded : Bool) :
    ∃ (c0 : Fin dim → K) (w0 : K) (B : ℕ) (Q : Quad K dim), (∀ p ∈ P, ∀ j, c0 j - w0 / 2 ≤ p j ∧ p j ≤ c0 j + w0 / 2) ∧
      (∀ fuel, B ≤ fuel → initializeQuadtree P maxDepth minDepth graded none none fuel = some Q) ∧
      QuadReach c0 w0 Q ∧ (graded = true → GradedReach c0 w0 Q) ∧
      (∀ (k : ℕ) c, Q.cells[k]? = some c → c.D ≤ maxDepth) ∧
      (∀ (k : ℕ) c, Q.cells[k]? = some c → c.Childless → c.D < maxDepth → minDepth ≤ c.D ∧ ∀ p ∈ P, ¬ c.Contains p) ∧
      (0 < w0 → ∀ p ∈ P, ∃ (k : ℕ) (c : QuadCell K dim), Q.cells[k]? = some c ∧ c.Childless ∧ c.Contains p ∧ c.D = maxDepth) := by
  obtain ⟨p0, P', rfl⟩ : ∃ p0 P', P = p0 :: P' := List.exists_cons_of_ne_nil hP
  obtain ⟨lo, hlo⟩ : ∃ lo, lo = colMin p0 P' := ⟨_, rfl⟩
  obtain ⟨hi, hhi⟩ : ∃ hi, hi = colMax p0 P' := ⟨_, rfl⟩
  obtain ⟨w, hw⟩ : ∃ w, w = (List.finRange dim).foldl (fun acc j => max acc (hi j - lo j)) (hi 0 - lo 0) := ⟨_, rfl⟩
  have hmin : ∀ p ∈ p0 :: P', ∀ j, lo j ≤ p j := by
    intro p hp j
    rw [hlo]
    obtain ⟨h1, h2⟩ := foldl_min_le (fun x : Fin dim → K => x j) P' (p0 j)
    rcases List.mem_cons.mp hp with rfl | hp
    · exact h1
    · exact h2 p hp
  have hmx : ∀ p ∈ p0 :: P', ∀ j, p j ≤ hi j := by
    intro p hp j
    rw [hhi]
    obtain ⟨h1, h2⟩ := le_foldl_max (fun x : Fin dim → K => x j) P' (p0 j)
    rcases List.mem_cons.mp hp with rfl | hp
    · exact h1
    · exact h2 p hp
  have hwj : ∀ j, hi j - lo j ≤ w := by
    intro j
    rw [hw]
    exact (le_foldl_max (fun j => hi j - lo j) (List.finRange dim) (hi 0 - lo 0)).2 j (List.mem_finRange j)
  have hmaxe : max 1 maxDepth = maxDepth := max_eq_right hmax
  have hinit : ∀ (k : ℕ) c, (quadInit (fun j => (lo j + hi j) / 2) w).cells[k]? = some c → c.D = 1 := by
    intro k c hk
    unfold quadInit at hk
    match k with
    | 0 => rw [← (Option.some.inj hk)]
    | k + 1 => simp at hk
  obtain ⟨Q, h1, h2, h3, h4, h5⟩ := quadLoop_spec hd (p0 :: P') maxDepth minDepth graded _ rfl
    ((max 1 maxDepth + 1) * (2 ^ max 1 maxDepth) ^ dim) 0 (quadInit (fun j => (lo j + hi j) / 2) w)
    QuadReach.init (fun _ => GradedReach.init) (fun k c hk => by rw [hinit k c hk]; exact le_max_left _ _) (by simp) (by omega)
  have hbox : ∀ p ∈ p0 :: P', ∀ j, (fun j => (lo j + hi j) / 2) j - w / 2 ≤ p j ∧ p j ≤ (fun j => (lo j + hi j) / 2) j + w / 2 := by
    intro p hp j
    have e1 := hmin p hp j
    have e2 := hmx p hp j
    have e3 := hwj j
    dsimp only
    constructor <;> linarith
  refine ⟨fun j => (lo j + hi j) / 2, w, (max 1 maxDepth + 1) * (2 ^ max 1 maxDepth) ^ dim, Q, hbox, ?_, h2, h3, ?_, ?_, ?_⟩
  · intro fuel hf
    obtain ⟨Q', g1, -⟩ := quadLoop_spec (c0 := fun j => (lo j + hi j) / 2) (w0 := w) hd (p0 :: P') maxDepth minDepth graded _ rfl
      fuel 0 (quadInit (fun j => (lo j + hi j) / 2) w)
      QuadReach.init (fun _ => GradedReach.init) (fun k c hk => by rw [hinit k c hk]; exact le_max_left _ _) (by simp) (by omega)
    have hmono : ∀ (fuel i : ℕ) (Q Q' : Quad K dim), quadLoop (p0 :: P') maxDepth minDepth graded fuel i Q = some Q' →
        quadLoop (p0 :: P') maxDepth minDepth graded (fuel + 1) i Q = some Q' := by
      intro fuel
      induction fuel with
      | zero =>
        intro i Q Q' h
        by_cases hi : Q.cells.length ≤ i
        · rw [quadLoop_done _ _ _ _ _ _ _ hi] at h ⊢; exact h
        · rw [quadLoop_stuck _ _ _ _ _ _ hi] at h; simp at h
      | succ f ih =>
        intro i Q Q' h
        by_cases hi : Q.cells.length ≤ i
        · rw [quadLoop_done _ _ _ _ _ _ _ hi] at h ⊢; exact h
        · rw [quadLoop_step _ _ _ _ _ _ _ hi] at h ⊢
          cases hc : Q.cells[i]? with
          | none => rw [hc] at h; simp at h
          | some c =>
            rw [hc] at h
            simp only [Option.bind_eq_bind, Option.bind_some] at h ⊢
            split_ifs at h ⊢
            · rw [Option.bind_eq_some_iff] at h ⊢
              obtain ⟨Q1, e1, e2⟩ := h
              exact ⟨Q1, e1, ih _ _ _ e2⟩
            · exact ih _ _ _ h
    have hmono' : ∀ n, quadLoop (p0 :: P') maxDepth minDepth graded ((max 1 maxDepth + 1) * (2 ^ max 1 maxDepth) ^ dim + n) 0
        (quadInit (fun j => (lo j + hi j) / 2) w) = some Q := by
      intro n
      induction n with
      | zero => exact h1
      | succ n ih => exact hmono _ _ _ _ ih
    unfold initializeQuadtree
    obtain ⟨n, rfl⟩ := Nat.exists_eq_add_of_le hf
    have := hmono' n
    rw [hw, hlo, hhi] at this
    exact this
  · intro k c hk
    have := h4 k c hk
    rwa [hmaxe] at this
  · intro k c hk hl
    obtain ⟨ad, hI⟩ := reach_inv hd h2
    exact h5 k c hk ((childless_iff hd hI hk).mp hl)
  · intro hw0 p hp
    obtain ⟨k, c, e1, e2, e3⟩ := (C20_leaves_tile hd hw0 h2).2.1 p (hbox p hp)
    refine ⟨k, c, e1, e2, e3, ?_⟩
    obtain ⟨ad, hI⟩ := reach_inv hd h2
    have hle := h4 k c e1
    rw [hmaxe] at hle
    by_contra hne
    exact (h5 k c e1 ((childless_iff hd hI e1).mp e2) (by omega)).2 p hp e3

example : (initializeQuadtree (K := ℚ) (dim := 2) [fun _ => 0, fun _ => 1, fun j => if j = 0 then 1 / 3 else 1 / 5] 3 1 true none none 100).map
    (fun Q => Q.cells.map (fun c => c.D)) = some [1, 2, 2, 2, 2, 3, 3, 3, 3, 3, 3, 3, 3] := by decide +kernel

end Gpy
