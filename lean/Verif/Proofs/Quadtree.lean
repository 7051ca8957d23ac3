import Verif.Proofs.QuadArith
import Mathlib.Tactic.FieldSimp
import Mathlib.Tactic.SplitIfs
import Mathlib.Data.List.GetD

/-! The invariant of the quadtree and its preservation by one subdivision. -/

set_option autoImplicit false
namespace Gpy
open Np

/-- The dyadic box `(l,b)` lies on the side `s` of axis `j` of the dyadic box `(k,a)` and they share a facet of positive measure. -/
def adjZ {dim : ℕ} (k : ℕ) (a : Fin dim → ℕ) (l : ℕ) (b : Fin dim → ℕ) (j : Fin dim) (s : ℕ) : Prop :=
  (if s = 1 then upE k (a j) l (b j) else upE l (b j) k (a j)) ∧ ∀ i, i ≠ j → ovE k (a i) l (b i)

theorem adjZ_symm {dim : ℕ} {k : ℕ} {a : Fin dim → ℕ} {l : ℕ} {b : Fin dim → ℕ} {j : Fin dim} {s : ℕ} (hs : s < 2) :
    adjZ k a l b j s ↔ adjZ l b k a j (1 - s) := by
  unfold adjZ
  have h : ∀ i, ovE k (a i) l (b i) ↔ ovE l (b i) k (a i) := fun i => ovE_symm
  simp only [h]
  interval_cases s <;> simp

theorem adjZ_child_coarse {dim : ℕ} {k : ℕ} {a : Fin dim → ℕ} {l : ℕ} {b β : Fin dim → ℕ} {j : Fin dim} {s : ℕ} (hs : s < 2)
    (h : l ≤ k) (hβ : ∀ i, β i < 2) :
    adjZ l b (k + 1) (fun i => 2 * a i + β i) j s ↔ adjZ l b k a j s ∧ β j = 1 - s := by
  unfold adjZ
  have e : ∀ i, ovE l (b i) (k + 1) (2 * a i + β i) ↔ ovE l (b i) k (a i) := fun i => ov_child_coarse h (hβ i)
  simp only [e]
  interval_cases s
  · simp only [Nat.zero_ne_one, if_false]
    rw [up_child_coarse' h (hβ j)]; tauto
  · simp only [if_true]
    rw [up_child_coarse h (hβ j)]; simp only [Nat.sub_self]; tauto

theorem adjZ_child_fine {dim : ℕ} {k : ℕ} {a : Fin dim → ℕ} {l : ℕ} {b β : Fin dim → ℕ} {j : Fin dim} {s : ℕ} (hs : s < 2)
    (h : k < l) (hβ : ∀ i, β i < 2) (hout : ¬ ∀ i, ovE l (b i) k (a i)) :
    adjZ l b (k + 1) (fun i => 2 * a i + β i) j s ↔
      adjZ l b k a j s ∧ β j = 1 - s ∧ ∀ i, i ≠ j → β i = ancBit k l (b i) := by
  unfold adjZ
  have e : ∀ i, ovE l (b i) (k + 1) (2 * a i + β i) ↔ ovE l (b i) k (a i) ∧ ancBit k l (b i) = β i := fun i => ov_child_fine h (hβ i)
  simp only [e]
  have hj : (∀ i, i ≠ j → ovE l (b i) k (a i)) → ¬ ovE l (b j) k (a j) := by
    intro h1 h2
    apply hout
    intro i
    by_cases hi : i = j
    · rw [hi]; exact h2
    · exact h1 i hi
  constructor
  · rintro ⟨h1, h2⟩
    have h3 : ∀ i, i ≠ j → ovE l (b i) k (a i) := fun i hi => (h2 i hi).1
    have h4 := hj h3
    interval_cases s
    · simp only [Nat.zero_ne_one, if_false] at h1 ⊢
      rw [up_child_fine' h (hβ j)] at h1
      rcases h1 with h1 | h1
      · exact ⟨⟨h1.1, h3⟩, h1.2, fun i hi => ((h2 i hi).2).symm⟩
      · exact absurd h1.2.2 h4
    · simp only [if_true] at h1 ⊢
      rw [up_child_fine h (hβ j)] at h1
      rcases h1 with h1 | h1
      · exact ⟨⟨h1.1, h3⟩, h1.2, fun i hi => ((h2 i hi).2).symm⟩
      · exact absurd h1.2.2 h4
  · rintro ⟨⟨h1, h2⟩, h3, h4⟩
    refine ⟨?_, fun i hi => ⟨h2 i hi, (h4 i hi).symm⟩⟩
    interval_cases s
    · simp only [Nat.zero_ne_one, if_false] at h1 ⊢
      exact (up_child_fine' h (hβ j)).mpr (Or.inl ⟨h1, h3⟩)
    · simp only [if_true] at h1 ⊢
      exact (up_child_fine h (hβ j)).mpr (Or.inl ⟨h1, h3⟩)

theorem adjZ_ancBit {dim : ℕ} {k : ℕ} {a : Fin dim → ℕ} {l : ℕ} {b : Fin dim → ℕ} {j : Fin dim} {s : ℕ} (hs : s < 2)
    (h : k < l) (hA : adjZ l b k a j s) : ancBit k l (b j) = s := by
  have h1 := hA.1
  interval_cases s
  · exact ancBit_up' h (by simpa using h1)
  · exact ancBit_up h (by simpa using h1)

theorem adjZ_sibling {dim : ℕ} {k : ℕ} {a β γ : Fin dim → ℕ} {j : Fin dim} {s : ℕ} (hs : s < 2) (hβ : ∀ i, β i < 2) (hγ : ∀ i, γ i < 2) :
    adjZ (k + 1) (fun i => 2 * a i + β i) (k + 1) (fun i => 2 * a i + γ i) j s ↔
      β j = 1 - s ∧ γ j = s ∧ ∀ i, i ≠ j → β i = γ i := by
  unfold adjZ
  simp only [ov_sibling]
  interval_cases s
  · simp only [Nat.zero_ne_one, if_false]
    rw [up_sibling (hγ j) (hβ j)]; simp only [Nat.sub_zero]; tauto
  · simp only [if_true]
    rw [up_sibling (hβ j) (hγ j)]; simp only [Nat.sub_self]; tauto

/-- the row `[m, m+1, ...]` of children -/
def chRow (dim m : ℕ) : List Int := (List.range (2 ^ dim)).map (fun k : ℕ => ((m + k : ℕ) : Int))

/-- The invariant: every cell is a dyadic box with address `ad` on level `D-1`, and `A` holds the codes of touching boxes. -/
structure QInv {K : Type} [Field K] {dim : ℕ} (c0 : Fin dim → K) (w0 : K) (Q : Quad K dim) (ad : ℕ → Fin dim → ℕ) : Prop where
  geom : ∀ (i : ℕ) c, Q.cells[i]? = some c → 1 ≤ c.D ∧ c.W = w0 / 2 ^ (c.D - 1) ∧
    ∀ j, c.C j = c0 j - w0 / 2 + w0 * (2 * (ad i j : K) + 1) / 2 ^ c.D
  root : ∃ c, Q.cells[0]? = some c ∧ c.D = 1 ∧ c.PAR = -1 ∧ ∀ j, ad 0 j = 0
  ch : ∀ (i : ℕ) c, Q.cells[i]? = some c → c.CH = List.replicate (2 ^ dim) (-1) ∨
    ∃ m, c.CH = chRow dim m ∧ i < m ∧ ∀ k < 2 ^ dim, ∃ c', Q.cells[m + k]? = some c' ∧ c'.PAR = (i : ℕ) ∧ c'.D = c.D + 1 ∧
      ∀ j : Fin dim, ad (m + k) j = 2 * ad i j + kbit k j
  par : ∀ (i : ℕ) c, Q.cells[i]? = some c → i ≠ 0 → ∃ (p : ℕ) (cp : QuadCell K dim) (m k : ℕ), c.PAR = (p : ℕ) ∧ p < i ∧ Q.cells[p]? = some cp ∧
    cp.CH = chRow dim m ∧ k < 2 ^ dim ∧ i = m + k ∧ c.D = cp.D + 1 ∧ ∀ j : Fin dim, ad i j = 2 * ad p j + kbit k j
  inj : ∀ (i i' : ℕ) c c', Q.cells[i]? = some c → Q.cells[i']? = some c' → c.D = c'.D → (∀ j, ad i j = ad i' j) → i = i'
  adj_le : ∀ i i' : ℕ, i < Q.cells.length → i' < Q.cells.length → Q.A i i' ≤ 2 * dim
  adj : ∀ (i i' : ℕ) c c', Q.cells[i]? = some c → Q.cells[i']? = some c' → ∀ (j : Fin dim) (s : ℕ), s < 2 →
    (Q.A i i' = 2 * j.val + 1 + s ↔ adjZ (c.D - 1) (ad i) (c'.D - 1) (ad i') j s)

section
variable {K : Type} [Field K] {dim : ℕ}

theorem two_le_pow (hd : dim = 2 ∨ dim = 3) : 2 ≤ 2 ^ dim := by rcases hd with rfl | rfl <;> norm_num

theorem length_chRow (m : ℕ) : (chRow dim m).length = 2 ^ dim := by simp [chRow]

theorem chRow_get (m k : ℕ) (hk : k < 2 ^ dim) : (chRow dim m)[k]? = some ((m + k : ℕ) : Int) := by
  simp [chRow, hk]

theorem isLeaf_iff {c0 : Fin dim → K} {w0 : K} {Q : Quad K dim} {ad : ℕ → Fin dim → ℕ} (hd : dim = 2 ∨ dim = 3) (h : QInv c0 w0 Q ad)
    {i : ℕ} {c : QuadCell K dim} (hc : Q.cells[i]? = some c) : isLeafCell c = true ↔ c.CH = List.replicate (2 ^ dim) (-1) := by
  have h2 := two_le_pow hd
  rcases h.ch i c hc with e | ⟨m, e, -⟩
  · simp only [e, iff_true]
    unfold isLeafCell
    rw [e, List.getElem?_replicate, if_pos (by omega)]; rfl
  · have h1 : isLeafCell c = false := by
      unfold isLeafCell
      rw [e, chRow_get m 1 (by omega)]
      rw [beq_eq_false_iff_ne]
      intro h
      have := Option.some.inj h
      omega
    rw [h1, e]
    simp only [Bool.false_eq_true, false_iff]
    intro h3
    have h4 : (chRow dim m)[0]? = some (-1) := by
      rw [h3, List.getElem?_replicate, if_pos (by omega)]
    rw [chRow_get m 0 (by omega)] at h4
    have := Option.some.inj h4
    omega

theorem chRow_inj (hd : dim = 2 ∨ dim = 3) {m m' : ℕ} (h : chRow dim m = chRow dim m') : m = m' := by
  have h2 := two_le_pow hd
  have h3 : (chRow dim m)[0]? = (chRow dim m')[0]? := by rw [h]
  rw [chRow_get m 0 (by omega), chRow_get m' 0 (by omega)] at h3
  have := Option.some.inj h3
  omega

/-- the ancestor of a cell on a higher level -/
theorem QInv.anc {c0 : Fin dim → K} {w0 : K} {Q : Quad K dim} {ad : ℕ → Fin dim → ℕ} (h : QInv c0 w0 Q ad) :
    ∀ (m i : ℕ) (c : QuadCell K dim), Q.cells[i]? = some c → m < c.D → ∃ p cp, Q.cells[p]? = some cp ∧ cp.D + m = c.D ∧
      (∀ j, ad p j = ad i j / 2 ^ m) ∧ (0 < m → ∃ m', cp.CH = chRow dim m')
  | 0, i, c, hc, _ => ⟨i, c, hc, rfl, by simp, by simp⟩
  | m + 1, i, c, hc, hm => by
    by_cases hi : i = 0
    · subst hi
      obtain ⟨c', hc', hD, -⟩ := h.root
      rw [hc] at hc'; cases hc'
      omega
    · obtain ⟨p, cp, m', k, -, -, hp, hch, -, -, hD, had⟩ := h.par i c hc hi
      obtain ⟨q, cq, hq, hDq, hadq, hchq⟩ := h.anc m p cp hp (by omega)
      refine ⟨q, cq, hq, by omega, fun j => ?_, fun _ => ?_⟩
      · rw [hadq, had, pow_succ', ← Nat.div_div_eq_div_mul]
        have := kbit_lt k j
        rw [show (2 * ad p j + kbit k j) / 2 = ad p j by omega]
      · by_cases hm0 : 0 < m
        · exact hchq hm0
        · have : m = 0 := by omega
          subst this
          have hqp : q = p := h.inj q p cq cp hq hp (by omega) (fun j => by rw [hadq]; simp)
          subst hqp
          rw [hp] at hq; cases hq
          exact ⟨m', hch⟩

/-- no cell lies strictly inside a leaf -/
theorem QInv.no_inside {c0 : Fin dim → K} {w0 : K} {Q : Quad K dim} {ad : ℕ → Fin dim → ℕ} (hd : dim = 2 ∨ dim = 3) (h : QInv c0 w0 Q ad)
    {i x : ℕ} {c cx : QuadCell K dim} (hc : Q.cells[i]? = some c) (hx : Q.cells[x]? = some cx) (hl : isLeafCell c = true) (hD : c.D < cx.D) :
    ¬ ∀ j, ovE (cx.D - 1) (ad x j) (c.D - 1) (ad i j) := by
  intro ho
  have h1 := (h.geom i c hc).1
  obtain ⟨p, cp, hp, hDp, hadp, hch⟩ := h.anc (cx.D - c.D) x cx hx (by omega)
  have : p = i := by
    refine h.inj p i cp c hp hc (by omega) (fun j => ?_)
    have h2 := ho j
    rw [show cx.D - 1 = (c.D - 1) + (cx.D - c.D) by omega, ovE_add'] at h2
    rw [hadp, h2]
  subst this
  rw [hc] at hp; cases hp
  obtain ⟨m', hm'⟩ := hch (by omega)
  rw [isLeaf_iff hd h hc] at hl
  have h2 := two_le_pow hd
  have h3 : (chRow dim m')[0]? = some (-1) := by
    rw [← hm', hl, List.getElem?_replicate, if_pos (by omega)]
  rw [chRow_get m' 0 (by omega)] at h3
  have := Option.some.inj h3
  omega

theorem ancBit_self (k b : ℕ) : ancBit k (k + 1) b = b % 2 := by unfold ancBit; simp

theorem ancBit_half (k l b : ℕ) (h : k + 1 < l) : ancBit k l b = ancBit k (l - 1) (b / 2) := by
  unfold ancBit
  rw [Nat.div_div_eq_div_mul, ← pow_succ', show l - 1 - (k + 1) + 1 = l - (k + 1) by omega]

/-- the loop that climbs to the ancestor on the level below `d` -/
theorem quadClimb_spec {c0 : Fin dim → K} {w0 : K} {Q : Quad K dim} {ad : ℕ → Fin dim → ℕ} (h : QInv c0 w0 Q ad) {d : ℕ} (hd1 : 1 ≤ d) :
    ∀ (fuel x : ℕ) (c : QuadCell K dim), Q.cells[x]? = some c → d < c.D → c.D ≤ fuel + (d + 1) →
      ∃ (y p : ℕ) (cp : QuadCell K dim) (m wc : ℕ), quadClimb Q.cells d fuel x c.D c.PAR = some (((y : ℕ) : Int), ((p : ℕ) : Int)) ∧ Q.cells[p]? = some cp ∧ cp.D = d ∧
        cp.CH = chRow dim m ∧ y = m + wc ∧ wc < 2 ^ dim ∧ ∀ j : Fin dim, kbit wc j = ancBit (d - 1) (c.D - 1) (ad x j)
  | fuel, x, c, hc, hD, hf => by
    have hx0 : x ≠ 0 := by
      rintro rfl
      obtain ⟨c', hc', hD', -⟩ := h.root
      rw [hc] at hc'; cases hc'
      omega
    obtain ⟨p, cp, m, k, hpar, -, hp, hch, hk, hxm, hDp, had⟩ := h.par x c hc hx0
    by_cases hgt : c.D > d + 1
    · match fuel, hf with
      | 0, hf => omega
      | fuel + 1, hf =>
        obtain ⟨y, p', cp', m', wc, h1, h2, h3, h4, h5, h6, h7⟩ := quadClimb_spec h hd1 fuel p cp hp (by omega) (by omega)
        refine ⟨y, p', cp', m', wc, ?_, h2, h3, h4, h5, h6, fun j => ?_⟩
        · rw [quadClimb.eq_def]
          simp only [if_pos hgt, hpar, npGet?_natCast, hp, Option.bind_eq_bind, Option.bind_some]
          rw [if_neg (by omega)]
          exact h1
        · rw [h7 j, had j]
          rw [ancBit_half (d - 1) (c.D - 1) _ (by omega)]
          have := kbit_lt k j
          rw [show (2 * ad p j + kbit k j) / 2 = ad p j by omega, show c.D - 1 - 1 = cp.D - 1 by omega]
    · refine ⟨x, p, cp, m, k, ?_, hp, by omega, hch, hxm, hk, fun j => ?_⟩
      · rw [quadClimb.eq_def]; simp only [if_neg hgt, hpar]
      · rw [show c.D - 1 = (d - 1) + 1 by omega, ancBit_self, had j]
        have := kbit_lt k j
        omega

theorem filter_chRow (m wc : ℕ) (hw : wc < 2 ^ dim) :
    (List.range (chRow dim m).length).filter (fun k => (chRow dim m)[k]? == some ((m + wc : ℕ) : Int)) = [wc] := by
  rw [length_chRow]
  have h1 : (List.range (2 ^ dim)).filter (fun k => (chRow dim m)[k]? == some ((m + wc : ℕ) : Int)) =
      (List.range (2 ^ dim)).filter (fun k => k == wc) := by
    apply List.filter_congr
    intro k hk
    rw [List.mem_range] at hk
    rw [chRow_get m k hk, Bool.eq_iff_iff, beq_iff_eq, beq_iff_eq, Option.some_inj]
    omega
  rw [h1, List.filter_beq, List.count_eq_one_of_mem List.nodup_range (List.mem_range.mpr hw)]
  rfl

/-- The columns that a neighbour adds: exactly the children it touches. -/
theorem quadRect_spec {c0 : Fin dim → K} {w0 : K} {Q : Quad K dim} {ad : ℕ → Fin dim → ℕ} (hd : dim = 2 ∨ dim = 3) (h : QInv c0 w0 Q ad)
    {ind nb : ℕ} {c b : QuadCell K dim} (hc : Q.cells[ind]? = some c) (hb : Q.cells[nb]? = some b) (hl : isLeafCell c = true)
    {j : Fin dim} {s : ℕ} (hs : s < 2) (hA : Q.A nb ind = 2 * j.val + 1 + s) :
    ∃ I, quadRect Q.cells c.D nb (Q.A nb ind) = some I ∧ ∀ k < 2 ^ dim,
      (adjZ (b.D - 1) (ad nb) c.D (fun i : Fin dim => 2 * ad ind i + kbit k i) j s → I.count k = 1) ∧
      (¬ adjZ (b.D - 1) (ad nb) c.D (fun i : Fin dim => 2 * ad ind i + kbit k i) j s → I.count k = 0) := by
  have hadj : adjZ (b.D - 1) (ad nb) (c.D - 1) (ad ind) j s := (h.adj nb ind b c hb hc j s hs).mp hA
  have hc1 := (h.geom ind c hc).1
  have hb1 := (h.geom nb b hb).1
  have hcD : c.D = (c.D - 1) + 1 := by omega
  unfold quadRect
  simp only [hb, Option.bind_eq_bind, Option.bind_some]
  by_cases hle : b.D ≤ c.D
  · rw [if_pos hle, hA]
    obtain ⟨r, hr, hcount⟩ := lookupA_spec hd j.val s j.isLt hs
    rw [hr]
    refine ⟨_, rfl, fun k hk => ?_⟩
    have e : adjZ (b.D - 1) (ad nb) c.D (fun i : Fin dim => 2 * ad ind i + kbit k i) j s ↔ kbit k j = 1 - s := by
      conv_lhs => rw [hcD]
      rw [adjZ_child_coarse hs (by omega) (fun i => kbit_lt k i)]
      exact ⟨fun h => h.2, fun h => ⟨hadj, h⟩⟩
    rw [e, hcount k hk]
    constructor
    · intro h; rw [if_pos h]
    · intro h; rw [if_neg h]
  · rw [if_neg hle, hA]
    obtain ⟨y, p, cp, m, wc, h1, h2, h3, h4, h5, h6, h7⟩ := quadClimb_spec h hc1 b.D nb b hb (by omega) (by omega)
    rw [h1]
    simp only [Option.bind_some, npGet?_natCast, h2, h4]
    subst h5
    rw [filter_chRow m wc h6]
    simp only
    rw [if_neg (by omega)]
    have hwj : kbit wc j = s := by rw [h7 j]; exact adjZ_ancBit hs (by omega) hadj
    obtain ⟨k0, hk0, hk0lt, hbits⟩ := lookupB_spec hd j.val s wc j.isLt hs h6 hwj
    rw [hk0]
    refine ⟨_, rfl, fun k hk => ?_⟩
    have e : adjZ (b.D - 1) (ad nb) c.D (fun i : Fin dim => 2 * ad ind i + kbit k i) j s ↔ k = k0 := by
      conv_lhs => rw [hcD]
      rw [adjZ_child_fine hs (by omega) (fun i => kbit_lt k i) (h.no_inside hd hc hb hl (by omega))]
      constructor
      · rintro ⟨-, h8, h9⟩
        apply kbit_ext hd k k0 hk hk0lt
        intro i hi
        rw [hbits i hi]
        split_ifs with hij
        · subst hij; exact h8
        · rw [h9 ⟨i, hi⟩ (fun he => hij (congrArg Fin.val he))]; exact (h7 ⟨i, hi⟩).symm
      · rintro rfl
        refine ⟨hadj, ?_, fun i hi => ?_⟩
        · rw [hbits j j.isLt, if_pos rfl]
        · rw [hbits i i.isLt, if_neg (fun he => hi (Fin.ext he)), h7]
    rw [e]
    constructor
    · rintro rfl; simp
    · intro h; rw [List.count_eq_zero]; simpa using h

/-- the rows after subdividing the cell `ind` -/
def subCells (Q : Quad K dim) (ind : ℕ) (c : QuadCell K dim) : List (QuadCell K dim) :=
  Q.cells.set ind { c with CH := chRow dim Q.cells.length } ++ (List.range (2 ^ dim)).map (quadChild c ind)

/-- the addresses after subdividing the cell `ind` -/
def subAd (n : ℕ) (ad : ℕ → Fin dim → ℕ) (ind : ℕ) : ℕ → Fin dim → ℕ :=
  fun i j => if i < n then ad i j else 2 * ad ind j + kbit (i - n) j

theorem subCells_get {Q : Quad K dim} {ind : ℕ} {c : QuadCell K dim} (hc : Q.cells[ind]? = some c) {i : ℕ} {x : QuadCell K dim} :
    (subCells Q ind c)[i]? = some x ↔ (i < Q.cells.length ∧ i ≠ ind ∧ Q.cells[i]? = some x) ∨
      (i < Q.cells.length ∧ i = ind ∧ x = { c with CH := chRow dim Q.cells.length }) ∨
      (Q.cells.length ≤ i ∧ i - Q.cells.length < 2 ^ dim ∧ x = quadChild c ind (i - Q.cells.length)) := by
  have hlt : ind < Q.cells.length := by
    rw [List.getElem?_eq_some_iff] at hc; exact hc.1
  unfold subCells
  by_cases hi : i < Q.cells.length
  · rw [List.getElem?_append_left (by simpa using hi), List.getElem?_set]
    by_cases he : ind = i
    · subst he
      simp only [if_true, hi, true_and, ne_eq, not_true_eq_false, false_and, false_or, Option.some_inj]
      constructor
      · intro h; exact Or.inl h.symm
      · rintro (h | h)
        · exact h.symm
        · omega
    · rw [if_neg he]
      constructor
      · intro h; exact Or.inl ⟨hi, fun h => he h.symm, h⟩
      · rintro (h | h | h)
        · exact h.2.2
        · exact absurd h.2.1.symm he
        · omega
  · rw [List.getElem?_append_right (by simpa using hi), List.length_set]
    constructor
    · intro h
      right; right
      by_cases hk : i - Q.cells.length < 2 ^ dim
      · rw [List.getElem?_map, List.getElem?_range hk] at h
        exact ⟨by omega, hk, (Option.some.inj h).symm⟩
      · rw [List.getElem?_eq_none (by simpa using hk)] at h
        exact absurd h (by simp)
    · rintro (h | h | h)
      · omega
      · omega
      · rw [List.getElem?_map, List.getElem?_range h.2.1, h.2.2]; rfl

theorem rectGet_spec {c0 : Fin dim → K} {w0 : K} {Q : Quad K dim} {ad : ℕ → Fin dim → ℕ} (hd : dim = 2 ∨ dim = 3) (h : QInv c0 w0 Q ad)
    {ind : ℕ} {c : QuadCell K dim} (hc : Q.cells[ind]? = some c) (hl : isLeafCell c = true) :
    ∃ trips, (quadNeighbors Q.A Q.cells.length ind).mapM (fun nb =>
        (quadRect Q.cells c.D nb (Q.A nb ind)).map (fun I => (nb, I, Q.A nb ind))) = some trips ∧
      ∀ (x : ℕ) (b : QuadCell K dim), Q.cells[x]? = some b → ∀ k < 2 ^ dim, rectGet trips x k ≤ 2 * dim ∧ ∀ (j : Fin dim) (s : ℕ), s < 2 →
        (rectGet trips x k = 2 * j.val + 1 + s ↔ adjZ (b.D - 1) (ad x) c.D (fun i : Fin dim => 2 * ad ind i + kbit k i) j s) := by
  have hcode : ∀ a, a ≤ 2 * dim → a ≠ 0 → ∃ (j : Fin dim) (s : ℕ), s < 2 ∧ a = 2 * j.val + 1 + s := by
    intro a h1 h2
    exact ⟨⟨(a - 1) / 2, by omega⟩, (a - 1) % 2, by omega, by simp only; omega⟩
  have hmem : ∀ nb ∈ quadNeighbors Q.A Q.cells.length ind, ∃ b, Q.cells[nb]? = some b ∧ Q.A nb ind ≠ 0 := by
    intro nb hnb
    unfold quadNeighbors at hnb
    rw [List.mem_filter, List.mem_range] at hnb
    exact ⟨Q.cells[nb], List.getElem?_eq_getElem hnb.1, by simpa using hnb.2⟩
  have hsome : ∀ nb, nb ∈ quadNeighbors Q.A Q.cells.length ind → quadRect Q.cells c.D nb (Q.A nb ind) =
      some ((quadRect Q.cells c.D nb (Q.A nb ind)).getD []) := by
    intro nb hnb
    obtain ⟨b, hb, h0⟩ := hmem nb hnb
    obtain ⟨j, s, hs, hA⟩ := hcode _ (h.adj_le nb ind (List.getElem?_eq_some_iff.mp hb).1 (List.getElem?_eq_some_iff.mp hc).1) h0
    obtain ⟨I, hI, -⟩ := quadRect_spec hd h hc hb hl hs hA
    rw [hI]; rfl
  let G : ℕ → List ℕ := fun nb => (quadRect Q.cells c.D nb (Q.A nb ind)).getD []
  refine ⟨(quadNeighbors Q.A Q.cells.length ind).map (fun nb => (nb, G nb, Q.A nb ind)), ?_, ?_⟩
  · apply mapM_eq_some_map
    intro nb hnb
    rw [hsome nb hnb]; rfl
  · intro x b hb k hk
    have hxlt : x < Q.cells.length := (List.getElem?_eq_some_iff.mp hb).1
    have hval : rectGet ((quadNeighbors Q.A Q.cells.length ind).map (fun nb => (nb, G nb, Q.A nb ind))) x k =
        if Q.A x ind = 0 then 0 else (G x).count k * Q.A x ind := by
      unfold rectGet
      rw [List.filter_map, List.map_map]
      have h1 : (quadNeighbors Q.A Q.cells.length ind).filter ((fun t : ℕ × List ℕ × ℕ => t.1 == x) ∘ fun nb => (nb, G nb, Q.A nb ind)) =
          (quadNeighbors Q.A Q.cells.length ind).filter (fun nb => nb == x) := rfl
      rw [h1, List.filter_beq]
      split_ifs with h0
      · rw [List.count_eq_zero_of_not_mem]
        · rfl
        · unfold quadNeighbors
          rw [List.mem_filter]
          simp [h0]
      · rw [List.count_eq_one_of_mem]
        · simp
        · unfold quadNeighbors
          exact List.Nodup.filter _ List.nodup_range
        · unfold quadNeighbors
          rw [List.mem_filter, List.mem_range]
          exact ⟨hxlt, by simpa using h0⟩
    rw [hval]
    have hc1 := (h.geom ind c hc).1
    have hcD : c.D = (c.D - 1) + 1 := by omega
    -- touching a child implies touching the cell
    have hup : ∀ (j : Fin dim) (s : ℕ), s < 2 → adjZ (b.D - 1) (ad x) c.D (fun i : Fin dim => 2 * ad ind i + kbit k i) j s →
        Q.A x ind = 2 * j.val + 1 + s := by
      intro j s hs ha
      rw [h.adj x ind b c hb hc j s hs]
      rw [hcD] at ha
      by_cases hle : b.D ≤ c.D
      · exact ((adjZ_child_coarse hs (by omega) (fun i => kbit_lt k i)).mp ha).1
      · exact ((adjZ_child_fine hs (by have := (h.geom x b hb).1; omega) (fun i => kbit_lt k i)
          (h.no_inside hd hc hb hl (by omega))).mp ha).1
    split_ifs with h0
    · refine ⟨by omega, fun j s hs => ⟨fun e => by omega, fun ha => ?_⟩⟩
      rw [← hup j s hs ha, h0]
    · obtain ⟨j0, s0, hs0, hA0⟩ := hcode _ (h.adj_le x ind hxlt (List.getElem?_eq_some_iff.mp hc).1) h0
      obtain ⟨I, hI, hIc⟩ := quadRect_spec hd h hc hb hl hs0 hA0
      have hG : G x = I := by show (quadRect Q.cells c.D x (Q.A x ind)).getD [] = I; rw [hI]; rfl
      rw [hG]
      obtain ⟨hy, hn⟩ := hIc k hk
      by_cases ha : adjZ (b.D - 1) (ad x) c.D (fun i : Fin dim => 2 * ad ind i + kbit k i) j0 s0
      · rw [hy ha, Nat.one_mul]
        refine ⟨h.adj_le x ind hxlt (List.getElem?_eq_some_iff.mp hc).1, fun j s hs => ⟨fun e => ?_, fun ha' => hup j s hs ha'⟩⟩
        have : j = j0 ∧ s = s0 := ⟨Fin.ext (by omega), by omega⟩
        rw [this.1, this.2]; exact ha
      · rw [hn ha, Nat.zero_mul]
        refine ⟨by omega, fun j s hs => ⟨fun e => by omega, fun ha' => ?_⟩⟩
        have e := hup j s hs ha'
        have : j = j0 ∧ s = s0 := ⟨Fin.ext (by omega), by omega⟩
        rw [this.1, this.2] at ha'; exact absurd ha' ha

theorem oppCode_le (hd : dim = 2 ∨ dim = 3) (a : ℕ) (ha : a ≤ 2 * dim) : oppCode a ≤ 2 * dim := by
  rcases hd with rfl | rfl <;> interval_cases a <;> decide

theorem oppCode_iff (hd : dim = 2 ∨ dim = 3) (a : ℕ) (ha : a ≤ 2 * dim) (j s : ℕ) (hj : j < dim) (hs : s < 2) :
    oppCode a = 2 * j + 1 + s ↔ a = 2 * j + 1 + (1 - s) := by
  rcases hd with rfl | rfl <;> interval_cases a <;> interval_cases j <;> interval_cases s <;> decide

/-- One subdivision keeps the invariant. -/
theorem subdivideOnce_spec [CharZero K] {c0 : Fin dim → K} {w0 : K} {Q : Quad K dim} {ad : ℕ → Fin dim → ℕ} (hd : dim = 2 ∨ dim = 3)
    (h : QInv c0 w0 Q ad) {ind : ℕ} {c : QuadCell K dim} (hc : Q.cells[ind]? = some c) (hl : isLeafCell c = true) :
    ∃ Q', subdivideOnce Q ind = some Q' ∧ Q'.cells = subCells Q ind c ∧
      (∀ i i', i < Q.cells.length → i' < Q.cells.length → Q'.A i i' = Q.A i i') ∧
      QInv c0 w0 Q' (subAd Q.cells.length ad ind) := by
  obtain ⟨trips, htr, hrect⟩ := rectGet_spec hd h hc hl
  obtain ⟨n, hn⟩ : ∃ n, n = Q.cells.length := ⟨_, rfl⟩
  have hind : ind < n := by rw [hn]; exact (List.getElem?_eq_some_iff.mp hc).1
  obtain ⟨hc1, hcW, hcC⟩ := h.geom ind c hc
  have hpow := two_le_pow hd
  let A' : ℕ → ℕ → ℕ := fun i j =>
      if i < n then (if j < n then Q.A i j else rectGet trips i (j - n))
      else (if j < n then oppCode (rectGet trips j (i - n)) else squareMat dim (i - n) (j - n))
  refine ⟨⟨subCells Q ind c, fun i j =>
      if i < Q.cells.length then (if j < Q.cells.length then Q.A i j else rectGet trips i (j - Q.cells.length))
      else (if j < Q.cells.length then oppCode (rectGet trips j (i - Q.cells.length)) else squareMat dim (i - Q.cells.length) (j - Q.cells.length))⟩,
    ?_, rfl, ?_, ?_⟩
  · unfold subdivideOnce
    simp only [hc, Option.bind_eq_bind, Option.bind_some, hl, not_true_eq_false, if_false, htr]
    rfl
  · intro i i' hi hi'
    simp only [hi, hi', if_true]
  have hget : ∀ (i : ℕ) (x : QuadCell K dim), (subCells Q ind c)[i]? = some x →
      (i < n ∧ i ≠ ind ∧ Q.cells[i]? = some x) ∨ (i < n ∧ i = ind ∧ x = { c with CH := chRow dim n }) ∨
      (∃ k < 2 ^ dim, i = n + k ∧ x = quadChild c ind k) := by
    intro i x hx
    rcases (subCells_get hc).mp hx with h1 | h1 | h1
    · exact Or.inl (by rw [hn]; exact h1)
    · exact Or.inr (Or.inl (by rw [hn]; exact h1))
    · exact Or.inr (Or.inr ⟨i - n, by rw [hn]; exact h1.2.1, by omega, by rw [hn]; exact h1.2.2⟩)
  -- an old cell, possibly with its new children
  have hold : ∀ (i : ℕ) (x : QuadCell K dim), i < n → (subCells Q ind c)[i]? = some x →
      ∃ y, Q.cells[i]? = some y ∧ y.C = x.C ∧ y.W = x.W ∧ y.D = x.D ∧ y.PAR = x.PAR ∧ (i ≠ ind → y = x) ∧ (i = ind → x.CH = chRow dim n) := by
    intro i x hi hx
    rcases hget i x hx with h1 | h1 | ⟨k, -, h1, -⟩
    · exact ⟨x, h1.2.2, rfl, rfl, rfl, rfl, fun _ => rfl, fun e => absurd e h1.2.1⟩
    · obtain ⟨-, rfl, rfl⟩ := h1
      exact ⟨c, hc, rfl, rfl, rfl, rfl, fun e => absurd rfl e, fun _ => rfl⟩
    · omega
  have hnew : ∀ k < 2 ^ dim, (subCells Q ind c)[n + k]? = some (quadChild c ind k) := by
    intro k hk
    rw [subCells_get hc]
    right; right
    rw [← hn]
    exact ⟨by omega, by omega, by rw [Nat.add_sub_cancel_left]⟩
  have hpar' : (subCells Q ind c)[ind]? = some { c with CH := chRow dim n } := by
    rw [subCells_get hc]
    right; left
    rw [← hn]
    exact ⟨hind, rfl, rfl⟩
  have hkeep : ∀ (i : ℕ) (x : QuadCell K dim), Q.cells[i]? = some x → i ≠ ind → (subCells Q ind c)[i]? = some x := by
    intro i x hx hi
    rw [subCells_get hc]
    exact Or.inl ⟨(List.getElem?_eq_some_iff.mp hx).1, hi, hx⟩
  have hkeep' : ∀ (i : ℕ) (x : QuadCell K dim), Q.cells[i]? = some x → ∃ y, (subCells Q ind c)[i]? = some y ∧ y.PAR = x.PAR ∧ y.D = x.D := by
    intro i x hx
    by_cases hi : i = ind
    · subst hi
      rw [hc] at hx; cases hx
      exact ⟨_, hpar', rfl, rfl⟩
    · exact ⟨x, hkeep i x hx hi, rfl, rfl⟩
  have adOld : ∀ i, i < n → ∀ j, subAd n ad ind i j = ad i j := by
    intro i hi j; unfold subAd; rw [if_pos hi]
  have adNew : ∀ k, ∀ j, subAd n ad ind (n + k) j = 2 * ad ind j + kbit k j := by
    intro k j; unfold subAd; rw [if_neg (by omega), Nat.add_sub_cancel_left]
  have lt_of : ∀ (i : ℕ) (x : QuadCell K dim), Q.cells[i]? = some x → i < n := by
    intro i x hx; rw [hn]; exact (List.getElem?_eq_some_iff.mp hx).1
  have hlen : (subCells Q ind c).length = n + 2 ^ dim := by
    unfold subCells; simp [hn]
  rw [← hn]
  have adjOld : ∀ (i i' : ℕ) (x x' : QuadCell K dim), Q.cells[i]? = some x → Q.cells[i']? = some x' → ∀ (j : Fin dim) (s : ℕ), s < 2 →
      (Q.A i i' = 2 * j.val + 1 + s ↔ adjZ (x.D - 1) (subAd n ad ind i) (x'.D - 1) (subAd n ad ind i') j s) := by
    intro i i' x x' hx hx' j s hs
    rw [h.adj i i' x x' hx hx' j s hs]
    have e1 : subAd n ad ind i = ad i := funext (adOld i (lt_of i x hx))
    have e2 : subAd n ad ind i' = ad i' := funext (adOld i' (lt_of i' x' hx'))
    rw [e1, e2]
  have eNew : ∀ k, subAd n ad ind (n + k) = fun j => 2 * ad ind j + kbit k j := fun k => funext (adNew k)
  have eD : ∀ k, (quadChild c ind k).D - 1 = c.D := fun k => rfl
  exact
    { geom := by
        intro i x hx
        rcases hget i x hx with h1 | h1 | ⟨k, hk, rfl, rfl⟩
        · have := h.geom i x h1.2.2
          exact ⟨this.1, this.2.1, fun j => by rw [adOld i h1.1]; exact this.2.2 j⟩
        · obtain ⟨-, rfl, rfl⟩ := h1
          exact ⟨hc1, hcW, fun j => by rw [adOld i hind]; exact hcC j⟩
        · refine ⟨?_, ?_, fun j => ?_⟩
          · show 1 ≤ c.D + 1; omega
          · show 1 / 2 * c.W = w0 / 2 ^ (c.D + 1 - 1)
            rw [hcW, Nat.add_sub_cancel]
            obtain ⟨e, he⟩ := Nat.exists_eq_add_of_le hc1
            rw [he, Nat.add_sub_cancel_left, pow_add]
            field_simp
          · show c.C j + 1 / 4 * c.W * ((((quadOffsets dim).getD k []).getD j 0 : Int) : K) = _
            rw [quadOffsets_spec hd k j hk j.isLt, hcW, hcC j, adNew]
            show _ = c0 j - w0 / 2 + w0 * (2 * ((2 * ad ind j + kbit k j : ℕ) : K) + 1) / 2 ^ (c.D + 1)
            obtain ⟨e, he⟩ := Nat.exists_eq_add_of_le hc1
            rw [he, Nat.add_sub_cancel_left, pow_add, pow_add, pow_add]
            push_cast
            field_simp
            ring
      root := by
        obtain ⟨r, hr, hr1, hr2, hr3⟩ := h.root
        obtain ⟨y, hy, hy1, hy2⟩ := hkeep' 0 r hr
        exact ⟨y, hy, by omega, by rw [hy1, hr2], fun j => by rw [adOld 0 (by omega)]; exact hr3 j⟩
      ch := by
        intro i x hx
        rcases hget i x hx with h1 | h1 | ⟨k, hk, rfl, rfl⟩
        · rcases h.ch i x h1.2.2 with h2 | ⟨m, h2, him, h3⟩
          · exact Or.inl h2
          · refine Or.inr ⟨m, h2, him, fun k hk => ?_⟩
            obtain ⟨c', h4, h5, h6, h7⟩ := h3 k hk
            obtain ⟨y, hy, hy1, hy2⟩ := hkeep' _ c' h4
            exact ⟨y, hy, by rw [hy1, h5], by rw [hy2, h6], fun j => by
              rw [adOld _ (lt_of _ _ h4), adOld i h1.1]; exact h7 j⟩
        · obtain ⟨-, rfl, rfl⟩ := h1
          refine Or.inr ⟨n, rfl, hind, fun k hk => ⟨_, hnew k hk, rfl, rfl, fun j => ?_⟩⟩
          rw [adNew, adOld i hind]
        · exact Or.inl rfl
      par := by
        intro i x hx hi0
        rcases hget i x hx with h1 | h1 | ⟨k, hk, rfl, rfl⟩
        · obtain ⟨p, cp, m, k, h2, h3, h4, h5, h6, h7, h8, h9⟩ := h.par i x h1.2.2 hi0
          have hpi : p ≠ ind := by
            rintro rfl
            rw [hc] at h4; cases h4
            rw [isLeaf_iff hd h hc] at hl
            have e3 : (chRow dim m)[0]? = some (-1) := by
              rw [← h5, hl, List.getElem?_replicate, if_pos (by omega)]
            rw [chRow_get m 0 (by omega)] at e3
            have := Option.some.inj e3
            omega
          exact ⟨p, cp, m, k, h2, h3, hkeep p cp h4 hpi, h5, h6, h7, h8, fun j => by
            rw [adOld i h1.1, adOld p (lt_of p cp h4)]; exact h9 j⟩
        · obtain ⟨-, rfl, rfl⟩ := h1
          obtain ⟨p, cp, m, k, h2, h3, h4, h5, h6, h7, h8, h9⟩ := h.par i c hc hi0
          exact ⟨p, cp, m, k, h2, h3, hkeep p cp h4 (by omega), h5, h6, h7, h8, fun j => by
            rw [adOld i hind, adOld p (lt_of p cp h4)]; exact h9 j⟩
        · exact ⟨ind, _, n, k, rfl, by omega, hpar', rfl, hk, rfl, rfl, fun j => by rw [adNew, adOld ind hind]⟩
      inj := by
        -- a new cell is different from all old ones
        have hcross : ∀ (i : ℕ) (x : QuadCell K dim) (k : ℕ), k < 2 ^ dim → Q.cells[i]? = some x → x.D = c.D + 1 →
            (∀ j, ad i j = 2 * ad ind j + kbit k j) → False := by
          intro i x k hk hx hD ha
          apply h.no_inside hd hc hx hl (by omega)
          intro j
          rw [show x.D - 1 = (c.D - 1) + 1 by omega, ovE_add', ha j]
          have := kbit_lt k j
          omega
        intro i i' x x' hx hx' hD ha
        by_cases hi : i < n <;> by_cases hi' : i' < n
        · obtain ⟨y, hy, -, -, hyD, -⟩ := hold i x hi hx
          obtain ⟨y', hy', -, -, hyD', -⟩ := hold i' x' hi' hx'
          exact h.inj i i' y y' hy hy' (by omega) (fun j => by
            have := ha j; rwa [adOld i hi, adOld i' hi'] at this)
        · obtain ⟨y, hy, -, -, hyD, -⟩ := hold i x hi hx
          rcases hget i' x' hx' with h1 | h1 | ⟨k, hk, rfl, rfl⟩
          · omega
          · omega
          · exact (hcross i y k hk hy (by rw [hyD, hD]; rfl) (fun j => by
              have := ha j; rwa [adOld i hi, adNew] at this)).elim
        · obtain ⟨y, hy, -, -, hyD, -⟩ := hold i' x' hi' hx'
          rcases hget i x hx with h1 | h1 | ⟨k, hk, rfl, rfl⟩
          · omega
          · omega
          · exact (hcross i' y k hk hy (by rw [hyD, ← hD]; rfl) (fun j => by
              have := ha j; rw [adOld i' hi', adNew] at this; exact this.symm)).elim
        · rcases hget i x hx with h1 | h1 | ⟨k, hk, rfl, rfl⟩
          · omega
          · omega
          · rcases hget i' x' hx' with h1 | h1 | ⟨k', hk', rfl, rfl⟩
            · omega
            · omega
            · have : k = k' := by
                apply kbit_ext hd k k' hk hk'
                intro j hj
                have := ha ⟨j, hj⟩
                rw [adNew, adNew] at this
                simp only at this
                omega
              rw [this]
      adj_le := by
        intro i i' hi hi'
        rw [hlen] at hi hi'
        show (if i < n then (if i' < n then Q.A i i' else rectGet trips i (i' - n))
          else (if i' < n then oppCode (rectGet trips i' (i - n)) else squareMat dim (i - n) (i' - n))) ≤ 2 * dim
        split_ifs with h1 h2 h2
        · exact h.adj_le i i' (by omega) (by omega)
        · exact (hrect i Q.cells[i] (List.getElem?_eq_getElem (by omega)) (i' - n) (by omega)).1
        · exact oppCode_le hd _ (hrect i' Q.cells[i'] (List.getElem?_eq_getElem (by omega)) (i - n) (by omega)).1
        · exact squareMat_range hd _ _ (by omega) (by omega)
      adj := by
        intro i i' x x' hx hx' j s hs
        show (if i < n then (if i' < n then Q.A i i' else rectGet trips i (i' - n))
          else (if i' < n then oppCode (rectGet trips i' (i - n)) else squareMat dim (i - n) (i' - n))) = _ ↔ _
        by_cases hi : i < n <;> by_cases hi' : i' < n
        · obtain ⟨y, hy, -, -, hyD, -⟩ := hold i x hi hx
          obtain ⟨y', hy', -, -, hyD', -⟩ := hold i' x' hi' hx'
          rw [if_pos hi, if_pos hi', adjOld i i' y y' hy hy' j s hs, hyD, hyD']
        · obtain ⟨y, hy, -, -, hyD, -⟩ := hold i x hi hx
          rcases hget i' x' hx' with h1 | h1 | ⟨k, hk, rfl, rfl⟩
          · omega
          · omega
          · rw [if_pos hi, if_neg hi', Nat.add_sub_cancel_left, (hrect i y hy k hk).2 j s hs, eNew, eD, hyD]
            have e1 : subAd n ad ind i = ad i := funext (adOld i hi)
            rw [e1]
        · obtain ⟨y, hy, -, -, hyD, -⟩ := hold i' x' hi' hx'
          rcases hget i x hx with h1 | h1 | ⟨k, hk, rfl, rfl⟩
          · omega
          · omega
          · rw [if_neg hi, if_pos hi', Nat.add_sub_cancel_left, oppCode_iff hd _ (hrect i' y hy k hk).1 j s j.isLt hs,
              (hrect i' y hy k hk).2 j (1 - s) (by omega), eNew, eD, adjZ_symm (by omega), hyD]
            have e1 : subAd n ad ind i' = ad i' := funext (adOld i' hi')
            rw [e1, show 1 - (1 - s) = s by omega]
        · rcases hget i x hx with h1 | h1 | ⟨k, hk, rfl, rfl⟩
          · omega
          · omega
          · rcases hget i' x' hx' with h1 | h1 | ⟨k', hk', rfl, rfl⟩
            · omega
            · omega
            · rw [if_neg hi, if_neg hi', Nat.add_sub_cancel_left, Nat.add_sub_cancel_left, squareMat_spec hd k k' hk hk' j s j.isLt hs,
                eNew, eNew, eD, eD]
              have hcD : c.D = (c.D - 1) + 1 := by omega
              rw [hcD, adjZ_sibling hs (fun i => kbit_lt k i) (fun i => kbit_lt k' i)]
              constructor
              · rintro ⟨h2, h3, h4⟩
                exact ⟨h2, h3, fun i hi => h4 i i.isLt (fun e => hi (Fin.ext e))⟩
              · rintro ⟨h2, h3, h4⟩
                exact ⟨h2, h3, fun i hi hij => h4 ⟨i, hi⟩ (fun e => hij (congrArg Fin.val e))⟩ }

end
end Gpy
