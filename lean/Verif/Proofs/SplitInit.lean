import Verif.Proofs.SplitInv
import Verif.Spec.EdgeMap

/-! From the specification of the edge data structure to the invariant and back. -/

set_option autoImplicit false
namespace Gpy

theorem undir_iff (a b c d : ℕ) : Undir (⟨a, b⟩ : Edge) ⟨c, d⟩ ↔ (c = a ∧ d = b) ∨ (c = b ∧ d = a) := by
  unfold Undir Edge.flip; simp only [Edge.mk.injEq]

section
variable {S : SplitState} {m n : ℕ}

theorem side_fin (F : ℕ → ℕ → ℕ) (f : ℕ) (c : Fin 3) :
    (⟨F f 0, F f 1, F f 2⟩ : Tri).side c = ⟨F f ((c.val + 1) % 3), F f ((c.val + 2) % 3)⟩ := by
  match c with
  | 0 => rfl
  | 1 => rfl
  | 2 => rfl

/-- the side at corner `c` -/
theorem mem_sides_triList (F : IMat) (e : Edge) :
    e ∈ sides (triList F) ↔ ∃ f < F.rows, ∃ c < 3, e = ⟨F.val f ((c + 1) % 3), F.val f ((c + 2) % 3)⟩ := by
  unfold sides triList
  simp only [List.mem_flatMap, List.mem_map, List.mem_range, List.mem_cons, List.not_mem_nil, or_false]
  constructor
  · rintro ⟨t, ⟨f, hf, rfl⟩, h⟩
    rcases h with rfl | rfl | rfl
    · exact ⟨f, hf, 0, by omega, side_fin F.val f 0⟩
    · exact ⟨f, hf, 1, by omega, side_fin F.val f 1⟩
    · exact ⟨f, hf, 2, by omega, side_fin F.val f 2⟩
  · rintro ⟨f, hf, c, hc, rfl⟩
    refine ⟨_, ⟨f, hf, rfl⟩, ?_⟩
    have : c = 0 ∨ c = 1 ∨ c = 2 := by omega
    rcases this with rfl | rfl | rfl
    · left; rfl
    · right; left; rfl
    · right; right; rfl

theorem nodup_sides_triList (F : IMat) : (sides (triList F)).Nodup ↔
    ∀ f < F.rows, ∀ c < 3, ∀ f' < F.rows, ∀ c' < 3, F.val f ((c + 1) % 3) = F.val f' ((c' + 1) % 3) → F.val f ((c + 2) % 3) = F.val f' ((c' + 2) % 3) →
      f = f' ∧ c = c' := by
  unfold sides triList
  rw [List.nodup_flatMap]
  constructor
  · rintro ⟨h1, h2⟩ f hf c hc f' hf' c' hc' e1 e2
    rw [List.pairwise_map] at h2
    have hmem : ∀ (g d : ℕ), d < 3 → (⟨F.val g ((d + 1) % 3), F.val g ((d + 2) % 3)⟩ : Edge) ∈
        [(⟨F.val g 0, F.val g 1, F.val g 2⟩ : Tri).side 0, (⟨F.val g 0, F.val g 1, F.val g 2⟩ : Tri).side 1, (⟨F.val g 0, F.val g 1, F.val g 2⟩ : Tri).side 2] := by
      intro g d hd
      have : d = 0 ∨ d = 1 ∨ d = 2 := by omega
      rcases this with rfl | rfl | rfl <;> simp [Tri.side]
    by_cases hff : f = f'
    · subst hff
      refine ⟨rfl, ?_⟩
      have := h1 _ (List.mem_map.mpr ⟨f, List.mem_range.mpr hf, rfl⟩)
      simp only [List.nodup_cons, List.mem_cons, List.not_mem_nil, or_false, not_or, Tri.side, Edge.mk.injEq] at this
      have h3 : c = 0 ∨ c = 1 ∨ c = 2 := by omega
      have h3' : c' = 0 ∨ c' = 1 ∨ c' = 2 := by omega
      rcases h3 with rfl | rfl | rfl <;> rcases h3' with rfl | rfl | rfl <;> simp at e1 e2 <;> simp_all
    · exfalso
      have key : ∀ g g' : ℕ, g < g' → g' < F.rows → ∀ d < 3, ∀ d' < 3, F.val g ((d + 1) % 3) = F.val g' ((d' + 1) % 3) →
          F.val g ((d + 2) % 3) = F.val g' ((d' + 2) % 3) → False := by
        intro g g' hg hg' d hd d' hd' e1 e2
        have hp := (List.pairwise_iff_getElem.mp h2) g g' (by simp; omega) (by simpa using hg') hg
        simp only [List.getElem_range, Function.onFun] at hp
        have m1 := hmem g d hd
        have m2 := hmem g' d' hd'
        rw [← e1, ← e2] at m2
        exact hp m1 m2
      rcases Nat.lt_or_gt_of_ne hff with hlt | hlt
      · exact key f f' hlt hf' c hc c' hc' e1 e2
      · exact key f' f hlt hf c' hc' c hc e1.symm e2.symm
  · intro h
    constructor
    · intro t ht
      obtain ⟨f, hf, rfl⟩ := List.mem_map.mp ht
      rw [List.mem_range] at hf
      have a := h f hf 0 (by omega) f hf 1 (by omega)
      have b := h f hf 0 (by omega) f hf 2 (by omega)
      have c := h f hf 1 (by omega) f hf 2 (by omega)
      simp at a b c
      simp only [List.nodup_cons, List.mem_cons, List.not_mem_nil, or_false, not_or, Tri.side, Edge.mk.injEq, List.nodup_nil, not_false_eq_true, and_true]
      refine ⟨⟨fun x => a x.1 x.2, fun x => b x.1 x.2⟩, fun x => c x.1 x.2⟩
    · rw [List.pairwise_map, List.pairwise_iff_getElem]
      intro i j hi hj hij
      simp only [List.getElem_range, Function.onFun]
      simp only [List.length_range] at hi hj
      intro e m1 m2
      simp only [List.mem_cons, List.not_mem_nil, or_false] at m1 m2
      have m1' : ∃ c < 3, e = ⟨F.val i ((c + 1) % 3), F.val i ((c + 2) % 3)⟩ := by
        rcases m1 with rfl | rfl | rfl
        · exact ⟨0, by omega, rfl⟩
        · exact ⟨1, by omega, rfl⟩
        · exact ⟨2, by omega, rfl⟩
      have m2' : ∃ c < 3, e = ⟨F.val j ((c + 1) % 3), F.val j ((c + 2) % 3)⟩ := by
        rcases m2 with rfl | rfl | rfl
        · exact ⟨0, by omega, rfl⟩
        · exact ⟨1, by omega, rfl⟩
        · exact ⟨2, by omega, rfl⟩
      obtain ⟨c, hc, rfl⟩ := m1'
      obtain ⟨c', hc', he⟩ := m2'
      simp only [Edge.mk.injEq] at he
      have := (h i hi c hc j hj c' hc' he.1 he.2).1
      omega

theorem noTwin_triList (F : IMat) : NoTwin (triList F) ↔ ∀ f < F.rows, ∀ g < F.rows, f ≠ g →
    ¬ SameCorners ⟨F.val f 0, F.val f 1, F.val f 2⟩ ⟨F.val g 0, F.val g 1, F.val g 2⟩ := by
  unfold NoTwin triList
  rw [List.pairwise_map, List.pairwise_iff_getElem]
  constructor
  · intro h f hf g hg hne
    rcases Nat.lt_or_gt_of_ne hne with hlt | hlt
    · have := h f g (by simpa using hf) (by simpa using hg) hlt
      simpa using this
    · have := h g f (by simpa using hg) (by simpa using hf) hlt
      simp only [List.getElem_range] at this
      exact fun hs => this (fun v => (hs v).symm)
  · intro h i j hi hj hij
    simp only [List.getElem_range]
    exact h i (by simpa using hi) j (by simpa using hj) (by omega)

theorem nondeg_triList (F : IMat) : (∀ t ∈ triList F, t.a ≠ t.b ∧ t.b ≠ t.c ∧ t.c ≠ t.a) ↔ ∀ f < F.rows, ∀ c < 3, F.val f c ≠ F.val f ((c + 1) % 3) := by
  unfold triList
  simp only [List.mem_map, List.mem_range, forall_exists_index, and_imp, forall_apply_eq_imp_iff₂]
  constructor
  · intro h f hf c hc
    obtain ⟨x, y, z⟩ := h f hf
    have : c = 0 ∨ c = 1 ∨ c = 2 := by omega
    rcases this with rfl | rfl | rfl
    · exact x
    · exact y
    · exact z
  · intro h f hf
    exact ⟨h f hf 0 (by omega), h f hf 1 (by omega), h f hf 2 (by omega)⟩

theorem inRange_triList (F : IMat) (n : ℕ) : InRange (triList F) n ↔ ∀ f < F.rows, ∀ c < 3, F.val f c < n := by
  unfold InRange triList
  simp only [List.mem_map, List.mem_range, forall_exists_index, and_imp, forall_apply_eq_imp_iff₂]
  constructor
  · intro h f hf c hc
    obtain ⟨x, y, z⟩ := h f hf
    have : c = 0 ∨ c = 1 ∨ c = 2 := by omega
    rcases this with rfl | rfl | rfl <;> assumption
  · intro h f hf
    exact ⟨h f hf 0 (by omega), h f hf 1 (by omega), h f hf 2 (by omega)⟩

theorem sameCorners_cyc {F : ℕ → ℕ → ℕ} {f g c d : ℕ} (hc : c < 3) (hd : d < 3) (h0 : F f c = F g d) (h1 : F f ((c + 1) % 3) = F g ((d + 2) % 3))
    (h2 : F f ((c + 2) % 3) = F g ((d + 1) % 3)) : SameCorners ⟨F f 0, F f 1, F f 2⟩ ⟨F g 0, F g 1, F g 2⟩ := by
  intro v
  have h3 : c = 0 ∨ c = 1 ∨ c = 2 := by omega
  have h3' : d = 0 ∨ d = 1 ∨ d = 2 := by omega
  rcases h3 with rfl | rfl | rfl <;> rcases h3' with rfl | rfl | rfl <;> simp at h0 h1 h2 ⊢ <;> rw [h0, h1, h2] <;> tauto

/-- the invariant holds at the start -/
theorem sinv_of_spec (h : IsEdgeMap S) (hm : ClosedOriented S.V.size (triList S.F)) (hh : S.V.size ≤ S.high.size) (hl : S.V.size ≤ S.low.size) :
    SInv S.F.rows S.F.rows S.uE.rows S.V.size S := by
  have hnd := (nodup_sides_triList S.F).mp hm.manifold.1
  have hdeg := (nondeg_triList S.F).mp hm.manifold.2
  have hrg := (inRange_triList S.F _).mp hm.range
  have htw := (noTwin_triList S.F).mp hm.simple
  set m := S.F.rows with hmdef
  have ixb : ∀ f c, f < m → c < 3 → f + c * m < 3 * m := by
    intro f c hf hc
    have : c * m ≤ 2 * m := Nat.mul_le_mul_right m (by omega)
    omega
  have hE : ∀ f < m, ∀ c < 3, S.E.val (f + c * m) 0 = S.F.val f ((c + 1) % 3) ∧ S.E.val (f + c * m) 1 = S.F.val f ((c + 2) % 3) := by
    intro f hf c hc
    have := h.side f hf ⟨c, hc⟩
    rw [side_fin] at this
    simp only [edgeRow, Edge.mk.injEq] at this
    exact this
  have dec : ∀ x < 3 * m, ∃ f c, f < m ∧ c < 3 ∧ x = f + c * m := by
    intro x hx
    have hm0 : 0 < m := by omega
    refine ⟨x % m, x / m, Nat.mod_lt _ hm0, ?_, ?_⟩
    · rw [Nat.div_lt_iff_lt_mul hm0]; exact hx
    · rw [Nat.mul_comm]; exact (Nat.mod_add_div x m).symm
  have hue : ∀ f < m, ∀ c < 3,
    (S.uE.val (S.EMAP.val (f + c * m)) 0 = S.F.val f ((c + 1) % 3) ∧ S.uE.val (S.EMAP.val (f + c * m)) 1 = S.F.val f ((c + 2) % 3)) ∨
    (S.uE.val (S.EMAP.val (f + c * m)) 0 = S.F.val f ((c + 2) % 3) ∧ S.uE.val (S.EMAP.val (f + c * m)) 1 = S.F.val f ((c + 1) % 3)) := by
    intro f hf c hc
    have := (h.lab _ (ixb f c hf hc)).2
    unfold edgeRow at this
    rw [undir_iff, (hE f hf c hc).1, (hE f hf c hc).2] at this
    exact this
  have huq : ∀ u < S.uE.rows, ∀ u' < S.uE.rows, (S.uE.val u 0 = S.uE.val u' 0 ∧ S.uE.val u 1 = S.uE.val u' 1) ∨
    (S.uE.val u 0 = S.uE.val u' 1 ∧ S.uE.val u 1 = S.uE.val u' 0) → u = u' := by
    intro u hu u' hu' he
    refine h.uniq u hu u' hu' ?_
    unfold edgeRow
    rw [undir_iff]
    rcases he with ⟨x, y⟩ | ⟨x, y⟩
    · left; exact ⟨x.symm, y.symm⟩
    · right; exact ⟨y.symm, x.symm⟩
  -- the twin of a side
  have twin : ∀ f < m, ∀ c < 3, ∃ g d, g < m ∧ d < 3 ∧ S.F.val g ((d + 1) % 3) = S.F.val f ((c + 2) % 3) ∧ S.F.val g ((d + 2) % 3) = S.F.val f ((c + 1) % 3) := by
    intro f hf c hc
    have := hm.closed _ ((mem_sides_triList S.F _).mpr ⟨f, hf, c, hc, rfl⟩)
    obtain ⟨g, hg, d, hd, he⟩ := (mem_sides_triList S.F _).mp this
    simp only [Edge.flip, Edge.mk.injEq] at he
    exact ⟨g, d, hg, hd, he.1.symm, he.2.symm⟩
  have hem : ∀ f < m, ∀ c < 3, ∃ g d, g < m ∧ d < 3 ∧ g ≠ f ∧ S.EMAP.val (f + c * m) < S.uE.rows ∧ S.EMAP.val (g + d * m) = S.EMAP.val (f + c * m) ∧
    (S.uE2E.val (S.EMAP.val (f + c * m)) = [f + c * m, g + d * m] ∨ S.uE2E.val (S.EMAP.val (f + c * m)) = [g + d * m, f + c * m]) ∧
    S.F.val g ((d + 1) % 3) = S.F.val f ((c + 2) % 3) ∧ S.F.val g ((d + 2) % 3) = S.F.val f ((c + 1) % 3) ∧ S.F.val g d ≠ S.F.val f c := by
    intro f hf c hc
    obtain ⟨g, d, hg, hd, t1, t2⟩ := twin f hf c hc
    have D0 := hdeg f hf c hc
    have D1 := hdeg f hf _ (Cyc.mk' c hc).l1
    have D2 := hdeg f hf _ (Cyc.mk' c hc).l2
    rw [(Cyc.mk' c hc).s11] at D1
    rw [(Cyc.mk' c hc).s21] at D2
    have hgf : g ≠ f := by
      rintro rfl
      rcases (Cyc.mk' c hc).cases d hd with rfl | rfl | rfl
      · exact D1 t2.symm
      · rw [(Cyc.mk' c hc).s12, (Cyc.mk' c hc).s11] at *
        exact D0 t2
      · rw [(Cyc.mk' c hc).s21, (Cyc.mk' c hc).s22] at *
        exact D2 t1.symm
    have hl := (h.lab _ (ixb f c hf hc)).1
    have hl' := (h.lab _ (ixb g d hg hd)).1
    have hlab : S.EMAP.val (g + d * m) = S.EMAP.val (f + c * m) := by
      refine huq _ hl' _ hl ?_
      have x := hue f hf c hc
      have y := hue g hg d hd
      rw [t1, t2] at y
      rcases x with ⟨x1, x2⟩ | ⟨x1, x2⟩ <;> rcases y with ⟨y1, y2⟩ | ⟨y1, y2⟩ <;> rw [x1, x2, y1, y2] <;> simp
    refine ⟨g, d, hg, hd, hgf, hl, hlab, ?_, t1, t2, ?_⟩
    · obtain ⟨o1, o2, o3⟩ := h.occ _ hl
      set u := S.EMAP.val (f + c * m) with hu
      have hne : f + c * m ≠ g + d * m := fun he => hgf ((hix_inj hf hg).mp he).1.symm
      have in1 : f + c * m ∈ S.uE2E.val u := (o3 _).mpr ⟨ixb f c hf hc, rfl⟩
      have in2 : g + d * m ∈ S.uE2E.val u := (o3 _).mpr ⟨ixb g d hg hd, hlab⟩
      have only : ∀ x ∈ S.uE2E.val u, x = f + c * m ∨ x = g + d * m := by
        intro x hx
        obtain ⟨hx1, hx2⟩ := (o3 x).mp hx
        obtain ⟨f', c', hf', hc', rfl⟩ := dec x hx1
        have x := hue f hf c hc
        have y := hue f' hf' c' hc'
        rw [hx2] at y
        have : (S.F.val f ((c + 1) % 3) = S.F.val f' ((c' + 1) % 3) ∧ S.F.val f ((c + 2) % 3) = S.F.val f' ((c' + 2) % 3)) ∨
            (S.F.val g ((d + 1) % 3) = S.F.val f' ((c' + 1) % 3) ∧ S.F.val g ((d + 2) % 3) = S.F.val f' ((c' + 2) % 3)) := by
          rw [t1, t2]
          rw [← hu] at x
          rcases x with ⟨x1, x2⟩ | ⟨x1, x2⟩ <;> rcases y with ⟨y1, y2⟩ | ⟨y1, y2⟩ <;> rw [x1] at y1 <;> rw [x2] at y2 <;> simp [y1, y2]
        rcases this with ⟨e1, e2⟩ | ⟨e1, e2⟩
        · left
          obtain ⟨rfl, rfl⟩ := hnd f hf c hc f' hf' c' hc' e1 e2; rfl
        · right
          obtain ⟨rfl, rfl⟩ := hnd g hg d hd f' hf' c' hc' e1 e2; rfl
      revert o1 in1 in2 only
      generalize S.uE2E.val u = l
      intro o1 in1 in2 only
      have hl2 : l.toFinset = {f + c * m, g + d * m} := by
        ext x
        simp only [List.mem_toFinset, Finset.mem_insert, Finset.mem_singleton]
        exact ⟨only x, fun h => by rcases h with rfl | rfl <;> assumption⟩
      have hlen : l.length = 2 := by
        rw [← List.toFinset_card_of_nodup o1, hl2, Finset.card_pair hne]
      obtain ⟨x, y, rfl⟩ := List.length_eq_two.mp hlen
      simp only [List.mem_cons, List.not_mem_nil, or_false] at in1 in2
      rcases in1 with e | e <;> rcases in2 with e' | e'
      · exact absurd (e.trans e'.symm) hne
      · left; rw [e, e']
      · right; rw [e, e']
      · exact absurd (e.trans e'.symm) hne
    · intro he
      exact htw f hf g hg hgf.symm (sameCorners_cyc hc hd he.symm t2.symm t1.symm)
  refine ⟨le_refl _, rfl, h.fcols, h.erows, h.ecols, h.esize, le_refl _, h.ucols, le_of_eq h.psize.symm, ?_, le_refl _, hh, hl, hE, hem, hue, ?_, huq,
    fun f hf c hc => ⟨hrg f hf c hc, hdeg f hf c hc⟩⟩
  · intro u hu
    rw [h.psize] at hu
    obtain ⟨o1, o2, o3⟩ := h.occ u hu
    obtain ⟨x, hx⟩ := List.exists_mem_of_ne_nil _ o2
    obtain ⟨hx1, hx2⟩ := (o3 x).mp hx
    obtain ⟨f, c, hf, hc, rfl⟩ := dec x hx1
    obtain ⟨g, d, _, _, _, _, _, hp, _⟩ := hem f hf c hc
    rw [hx2] at hp
    rcases hp with hp | hp <;> rw [hp] <;> rfl
  · intro u hu
    obtain ⟨o1, o2, o3⟩ := h.occ u hu
    obtain ⟨x, hx⟩ := List.exists_mem_of_ne_nil _ o2
    obtain ⟨hx1, hx2⟩ := (o3 x).mp hx
    obtain ⟨f, c, hf, hc, rfl⟩ := dec x hx1
    exact ⟨f, c, hf, hc, hx2⟩

/-- the invariant is the specification -/
theorem spec_of_sinv {N K nv : ℕ} (h : SInv N N K nv S) (hK : S.uE.rows = K) (hP : S.uE2E.size = K) :
    IsEdgeMap S ∧ ClosedOriented nv (triList S.F) := by
  have hN := h.fr
  subst hN
  subst hK
  set m := S.F.rows with hmdef
  have ixb : ∀ f c, f < m → c < 3 → f + c * m < 3 * m := by
    intro f c hf hc
    have : c * m ≤ 2 * m := Nat.mul_le_mul_right m (by omega)
    omega
  have dec : ∀ x < 3 * m, ∃ f c, f < m ∧ c < 3 ∧ x = f + c * m := by
    intro x hx
    have hm0 : 0 < m := by omega
    refine ⟨x % m, x / m, Nat.mod_lt _ hm0, ?_, ?_⟩
    · rw [Nat.div_lt_iff_lt_mul hm0]; exact hx
    · rw [Nat.mul_comm]; exact (Nat.mod_add_div x m).symm
  have hnd : ∀ f < m, ∀ c < 3, ∀ f' < m, ∀ c' < 3, S.F.val f ((c + 1) % 3) = S.F.val f' ((c' + 1) % 3) → S.F.val f ((c + 2) % 3) = S.F.val f' ((c' + 2) % 3) →
      f = f' ∧ c = c' := by
    intro f hf c hc f' hf' c' hc' e1 e2
    have hlab : S.EMAP.val (f' + c' * m) = S.EMAP.val (f + c * m) := by
      refine h.huq _ (h.lab_lt hf' hc') _ (h.lab_lt hf hc) ?_
      have x := h.hue f hf c hc
      have y := h.hue f' hf' c' hc'
      rw [← e1, ← e2] at y
      rcases x with ⟨x1, x2⟩ | ⟨x1, x2⟩ <;> rcases y with ⟨y1, y2⟩ | ⟨y1, y2⟩ <;> rw [x1, x2, y1, y2] <;> simp
    obtain ⟨x, y, hxy, hne, ho⟩ := h.pair_of hf' hc' hlab
    obtain ⟨g, d, hg, hd, hgf, hlt, hl, hpr, t1, t2, t3⟩ := h.hem f hf c hc
    have : f' + c' * m = f + c * m ∨ f' + c' * m = g + d * m := by
      rcases hpr with hp | hp <;> rw [hp] at hxy <;> simp only [List.cons.injEq, and_true] at hxy <;> obtain ⟨rfl, rfl⟩ := hxy <;> tauto
    rcases this with e | e
    · have := (hix_inj hf' hf).mp e
      exact ⟨this.1.symm, this.2.symm⟩
    · exfalso
      obtain ⟨rfl, rfl⟩ := (hix_inj hf' hg).mp e
      have D1 := (h.hd f hf _ (Cyc.mk' c hc).l1).2
      rw [(Cyc.mk' c hc).s11] at D1
      exact D1 (e1.trans t1)
  constructor
  · refine ⟨h.fc, h.er, h.ec, h.mr, h.uc, hP, ?_, ?_, ?_, ?_⟩
    · intro f hf c
      rw [side_fin]
      unfold edgeRow
      rw [(h.hE f hf c.val c.isLt).1, (h.hE f hf c.val c.isLt).2]
    · intro x hx
      obtain ⟨f, c, hf, hc, rfl⟩ := dec x hx
      refine ⟨h.lab_lt hf hc, ?_⟩
      unfold edgeRow
      rw [undir_iff, (h.hE f hf c hc).1, (h.hE f hf c hc).2]
      exact h.hue f hf c hc
    · intro u hu u' hu' he
      unfold edgeRow at he
      rw [undir_iff] at he
      refine h.huq u hu u' hu' ?_
      rcases he with ⟨x, y⟩ | ⟨x, y⟩
      · left; exact ⟨x.symm, y.symm⟩
      · right; exact ⟨y.symm, x.symm⟩
    · intro u hu
      obtain ⟨f, c, hf, hc, rfl⟩ := h.hP u hu
      obtain ⟨g, d, hg, hd, hgf, hlt, hl, hpr, t1, t2, t3⟩ := h.hem f hf c hc
      have hne : f + c * m ≠ g + d * m := fun he => hgf ((hix_inj hf hg).mp he).1.symm
      have only : ∀ x < 3 * m, S.EMAP.val x = S.EMAP.val (f + c * m) → x = f + c * m ∨ x = g + d * m := by
        intro x hx he
        obtain ⟨f', c', hf', hc', rfl⟩ := dec x hx
        obtain ⟨x, y, hxy, _, ho⟩ := h.pair_of hf' hc' he
        rcases hpr with hp | hp <;> rw [hp] at hxy <;> simp only [List.cons.injEq, and_true] at hxy <;> obtain ⟨rfl, rfl⟩ := hxy <;> tauto
      have i1 := ixb f c hf hc
      have i2 := ixb g d hg hd
      rcases hpr with hp | hp <;> rw [hp]
      · refine ⟨by simp [hne], by simp, ?_⟩
        intro x
        simp only [List.mem_cons, List.not_mem_nil, or_false]
        constructor
        · rintro (rfl | rfl)
          · exact ⟨i1, rfl⟩
          · exact ⟨i2, hl⟩
        · rintro ⟨a, b⟩; exact only x a b
      · refine ⟨by simp [hne.symm], by simp, ?_⟩
        intro x
        simp only [List.mem_cons, List.not_mem_nil, or_false]
        constructor
        · rintro (rfl | rfl)
          · exact ⟨i2, hl⟩
          · exact ⟨i1, rfl⟩
        · rintro ⟨a, b⟩; exact (only x a b).symm
  · refine ⟨⟨(nodup_sides_triList S.F).mpr hnd, (nondeg_triList S.F).mpr (fun f hf c hc => (h.hd f hf c hc).2)⟩, ?_, ?_,
      (inRange_triList S.F nv).mpr (fun f hf c hc => (h.hd f hf c hc).1)⟩
    · intro e he
      obtain ⟨f, hf, c, hc, rfl⟩ := (mem_sides_triList S.F e).mp he
      obtain ⟨g, d, hg, hd, hgf, hlt, hl, hpr, t1, t2, t3⟩ := h.hem f hf c hc
      exact (mem_sides_triList S.F _).mpr ⟨g, hg, d, hd, by rw [t1, t2]; rfl⟩
    · rw [noTwin_triList]
      intro f hf g hg hne hs
      -- two triangles with the same corners share a side in one or the other direction
      have N0 := (h.hd f hf 0 (by omega)).2
      have N1 := (h.hd f hf 1 (by omega)).2
      have N2 := (h.hd f hf 2 (by omega)).2
      have M0 := (h.hd g hg 0 (by omega)).2
      have M1 := (h.hd g hg 1 (by omega)).2
      have M2 := (h.hd g hg 2 (by omega)).2
      simp only [Nat.reduceAdd, Nat.reduceMod] at N0 N1 N2 M0 M1 M2
      have a0 := (hs (S.F.val f 0)).mp (Or.inl rfl)
      have a1 := (hs (S.F.val f 1)).mp (Or.inr (Or.inl rfl))
      have a2 := (hs (S.F.val f 2)).mp (Or.inr (Or.inr rfl))
      simp only at a0 a1 a2
      have same : ∀ d < 3, S.F.val f 0 = S.F.val g d → S.F.val f 1 = S.F.val g ((d + 1) % 3) → False := by
        intro d hd e0 e1
        have := (hnd f hf 2 (by omega) g hg ((d + 2) % 3) (by omega) (by
          rw [(Cyc.mk' d hd).s21]; exact e0) (by rw [(Cyc.mk' d hd).s22]; exact e1)).1
        exact hne this
      have opp : ∀ d < 3, S.F.val f 0 = S.F.val g d → S.F.val f 1 = S.F.val g ((d + 2) % 3) → S.F.val f 2 = S.F.val g ((d + 1) % 3) → False := by
        intro d hd e0 e1 e2
        obtain ⟨g', d', hg', hd', _, _, _, _, t1, t2, t3⟩ := h.hem f hf 0 (by omega)
        simp only [Nat.zero_add, Nat.reduceMod] at t1 t2
        obtain ⟨rfl, rfl⟩ := hnd g' hg' d' hd' g hg d hd (by rw [t1]; exact e2) (by rw [t2]; exact e1)
        exact t3 e0.symm
      have s0 := same 0 (by omega)
      have s1 := same 1 (by omega)
      have s2 := same 2 (by omega)
      have o0 := opp 0 (by omega)
      have o1 := opp 1 (by omega)
      have o2 := opp 2 (by omega)
      simp only [Nat.reduceAdd, Nat.reduceMod, Nat.zero_add] at s0 s1 s2 o0 o1 o2
      rcases a0 with a0 | a0 | a0 <;> rcases a1 with a1 | a1 | a1 <;> rcases a2 with a2 | a2 | a2 <;>
        first
          | exact s0 a0 a1
          | exact s1 a0 a1
          | exact s2 a0 a1
          | exact o0 a0 a1 a2
          | exact o1 a0 a1 a2
          | exact o2 a0 a1 a2
          | exact N0 (a0.trans a1.symm)
          | exact N1 (a1.trans a2.symm)
          | exact N2 (a2.trans a0.symm)
end
end Gpy
