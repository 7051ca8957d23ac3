import Verif.Proofs.Equalize

/-! An implementation of the edge data structure and of the flip: the contracts are satisfiable. -/

set_option autoImplicit false
namespace Gpy

/-- number of the edge of the list `uE` on which `e` lies -/
def edgeNo (uE : IMat) (e : Edge) : ℕ := ((List.range uE.rows).find? (fun u => decide (Undir e (edgeRow uE u)))).getD 0

/-- the side number `h` of the faces -/
def sideNo (F : IMat) (h : ℕ) : Edge := ⟨F.val (h % F.rows) ((h / F.rows + 1) % 3), F.val (h % F.rows) ((h / F.rows + 2) % 3)⟩

/-- The edge data structure for given faces and a given list of edges. -/
def buildMap (S : SplitState) (F uE : IMat) : SplitState := { S with
  F := F
  uE := uE
  E := ⟨3 * F.rows, 2, fun h j => if j = 0 then (sideNo F h).s else (sideNo F h).t⟩
  EMAP := ⟨3 * F.rows, fun h => edgeNo uE (sideNo F h)⟩
  uE2E := ⟨uE.rows, fun u => (List.range (3 * F.rows)).filter (fun h => edgeNo uE (sideNo F h) = u)⟩ }

theorem edgeNo_spec {uE : IMat} {e : Edge} (h : ∃ u < uE.rows, Undir e (edgeRow uE u)) : edgeNo uE e < uE.rows ∧ Undir e (edgeRow uE (edgeNo uE e)) := by
  unfold edgeNo
  obtain ⟨u, hu, he⟩ := h
  cases hf : (List.range uE.rows).find? (fun u => decide (Undir e (edgeRow uE u))) with
  | none =>
    rw [List.find?_eq_none] at hf
    have := hf u (List.mem_range.mpr hu)
    simp [he] at this
  | some w =>
    have h1 := List.mem_of_find?_eq_some hf
    have h2 := List.find?_some hf
    exact ⟨List.mem_range.mp h1, by simpa using h2⟩

theorem sideNo_mem {F : IMat} {h : ℕ} (hh : h < 3 * F.rows) : sideNo F h ∈ sides (triList F) := by
  have hm0 : 0 < F.rows := by omega
  exact (mem_sides_triList F _).mpr ⟨_, Nat.mod_lt _ hm0, _, by rw [Nat.div_lt_iff_lt_mul hm0]; exact hh, rfl⟩

theorem sideNo_ix {F : IMat} {f c : ℕ} (hf : f < F.rows) : sideNo F (f + c * F.rows) = ⟨F.val f ((c + 1) % 3), F.val f ((c + 2) % 3)⟩ := by
  unfold sideNo
  rw [Nat.add_mul_mod_self_right, Nat.mod_eq_of_lt hf, Nat.add_mul_div_right _ _ (by omega), Nat.div_eq_of_lt hf, Nat.zero_add]

theorem buildMap_isEdgeMap (S : SplitState) (F uE : IMat) (hF : F.cols = 3) (hU : uE.cols = 2)
    (huniq : ∀ u < uE.rows, ∀ u' < uE.rows, Undir (edgeRow uE u) (edgeRow uE u') → u = u')
    (hcover : ∀ e ∈ sides (triList F), ∃ u < uE.rows, Undir e (edgeRow uE u))
    (hused : ∀ u < uE.rows, ∃ e ∈ sides (triList F), Undir e (edgeRow uE u)) : IsEdgeMap (buildMap S F uE) := by
  have key : ∀ h < 3 * F.rows, edgeNo uE (sideNo F h) < uE.rows ∧ Undir (sideNo F h) (edgeRow uE (edgeNo uE (sideNo F h))) :=
    fun h hh => edgeNo_spec (hcover _ (sideNo_mem hh))
  have er : ∀ h, edgeRow (buildMap S F uE).E h = sideNo F h := by intro h; simp [edgeRow, buildMap]
  refine ⟨hF, rfl, rfl, rfl, hU, rfl, ?_, ?_, huniq, ?_⟩
  · intro f hf c
    rw [er]
    exact (sideNo_ix (F := F) hf).trans (side_fin F.val f c).symm
  · intro h hh
    rw [er]
    exact key h hh
  · intro u hu
    refine ⟨List.nodup_range.filter _, ?_, ?_⟩
    · obtain ⟨e, he, hue⟩ := hused u hu
      obtain ⟨f, hf, c, hc, rfl⟩ := (mem_sides_triList F e).mp he
      have hix : f + c * F.rows < 3 * F.rows := by
        have : c * F.rows ≤ 2 * F.rows := Nat.mul_le_mul_right _ (by omega)
        omega
      have hs := sideNo_ix (F := F) (c := c) hf
      obtain ⟨k1, k2⟩ := key _ hix
      have : edgeNo uE (sideNo F (f + c * F.rows)) = u := by
        refine huniq _ k1 _ hu ?_
        rw [hs] at k2 ⊢
        exact k2.symm'.trans' hue
      intro hnil
      have hmem : f + c * F.rows ∈ (buildMap S F uE).uE2E.val u := by
        simp only [buildMap, List.mem_filter, List.mem_range, decide_eq_true_eq]
        exact ⟨hix, this⟩
      rw [hnil] at hmem
      simp at hmem
    · intro h
      simp only [buildMap, List.mem_filter, List.mem_range, decide_eq_true_eq]

/-- set a row of three integers -/
def IMat.setTri (A : IMat) (i : ℕ) (t : Tri) : IMat := ⟨A.rows, A.cols, Function.update A.val i (fun c => if c = 0 then t.a else if c = 1 then t.b else t.c)⟩

/-- set a row of two integers -/
def IMat.setEdge (A : IMat) (i : ℕ) (e : Edge) : IMat := ⟨A.rows, A.cols, Function.update A.val i (fun c => if c = 0 then e.s else e.t)⟩

theorem triList_setTri (A : IMat) (i : ℕ) (t : Tri) : triList (A.setTri i t) = (triList A).set i t := by
  unfold triList IMat.setTri
  apply List.ext_getElem
  · simp
  · intro j h1 h2
    simp only [List.getElem_map, List.getElem_range, List.getElem_set]
    by_cases h : i = j
    · subst h; simp
    · rw [if_neg h]
      simp [Function.update_of_ne (Ne.symm h)]

/-- A flip that rebuilds the whole data structure. -/
def rebuildFlip (S : SplitState) (u : ℕ) : Option SplitState :=
  match S.uE2E.val u with
  | [e0, e1] =>
    let m := S.F.rows
    let v1 := S.F.val (e0 % m) ((e0 / m + 1) % 3)
    let v2 := S.F.val (e0 % m) ((e0 / m + 2) % 3)
    let v4 := S.F.val (e0 % m) (e0 / m)
    let v3 := S.F.val (e1 % m) (e1 / m)
    some (buildMap S ((S.F.setTri (e0 % m) ⟨v1, v3, v4⟩).setTri (e1 % m) ⟨v2, v4, v3⟩) (S.uE.setEdge u ⟨v3, v4⟩))
  | _ => none

/-- The contract of `igl::flip_edge` is satisfiable. -/
theorem rebuildFlip_spec : FlipSpec rebuildFlip := by
  intro S u e0 e1 v1 v2 v3 v4 hS hM hu hp h1 h2 h4 h3 hne hnew
  obtain ⟨e0', e1', v1', v2', v3', v4', t⟩ := twoSides hS hM hu (by rw [hp]; rfl)
  have hpp := t.pair
  rw [hp] at hpp
  obtain ⟨rfl, rfl⟩ : e0 = e0' ∧ e1 = e1' := by simpa using hpp
  have z1 := t.r1; have z2 := t.r2; have z3 := t.r3; have z4 := t.r4
  rw [h1] at z1; rw [h2] at z2; rw [h3] at z3; rw [h4] at z4
  subst z1 z2 z3 z4
  have hF := t.isFlip
  have hT : triList ((S.F.setTri (e0 % S.F.rows) ⟨v1, v3, v4⟩).setTri (e1 % S.F.rows) ⟨v2, v4, v3⟩) =
      ((triList S.F).set (e0 % S.F.rows) ⟨v1, v3, v4⟩).set (e1 % S.F.rows) ⟨v2, v4, v3⟩ := by rw [triList_setTri, triList_setTri]
  rw [← hT] at hF
  have er : ∀ u', edgeRow (S.uE.setEdge u ⟨v3, v4⟩) u' = if u' = u then ⟨v3, v4⟩ else edgeRow S.uE u' := by
    intro u'
    by_cases h : u' = u
    · subst h; simp [edgeRow, IMat.setEdge]
    · rw [if_neg h]; simp [edgeRow, IMat.setEdge, Function.update_of_ne h]
  obtain ⟨C, s1, s2, _⟩ := hF.sides
  have hnd := s1.nodup_iff.mp hM.1
  simp only [List.nodup_cons, List.mem_cons, not_or] at hnd
  -- the edges of the old mesh
  have hcov : ∀ e ∈ sides (triList S.F), ∃ u' < S.uE.rows, Undir e (edgeRow S.uE u') := by
    intro e he
    obtain ⟨f, hf, c, hc, rfl⟩ := (mem_sides_triList S.F e).mp he
    have hix : f + c * S.F.rows < 3 * S.F.rows := by
      have : c * S.F.rows ≤ 2 * S.F.rows := Nat.mul_le_mul_right _ (by omega)
      omega
    have hl := hS.lab _ hix
    have hs := hS.side f hf ⟨c, hc⟩
    rw [side_fin] at hs
    simp only at hs
    rw [hs] at hl
    exact ⟨_, hl.1, hl.2⟩
  have hus : ∀ u' < S.uE.rows, ∃ e ∈ sides (triList S.F), Undir e (edgeRow S.uE u') := by
    intro u' hu'
    obtain ⟨_, o2, o3⟩ := hS.occ u' hu'
    obtain ⟨x, hx⟩ := List.exists_mem_of_ne_nil _ o2
    obtain ⟨hx1, hx2⟩ := (o3 x).mp hx
    have hm0 : 0 < S.F.rows := by omega
    have hxd : x = x % S.F.rows + x / S.F.rows * S.F.rows := by rw [Nat.mul_comm]; exact (Nat.mod_add_div x _).symm
    have hg : x % S.F.rows < S.F.rows := Nat.mod_lt _ hm0
    have hd : x / S.F.rows < 3 := by rw [Nat.div_lt_iff_lt_mul hm0]; exact hx1
    have hl := (hS.lab x hx1).2
    have hs := hS.side _ hg ⟨_, hd⟩
    rw [side_fin] at hs
    simp only at hs
    rw [hx2, hxd, hs] at hl
    exact ⟨_, (mem_sides_triList S.F _).mpr ⟨_, hg, _, hd, rfl⟩, hl⟩
  have hul : Undir ⟨v1, v2⟩ (edgeRow S.uE u) := by
    obtain ⟨hx1, hx2⟩ := ((hS.occ u hu).2.2 e0).mp (by rw [hp]; simp)
    have hl := (hS.lab e0 hx1).2
    have hs := hS.side _ t.f0 ⟨_, t.c0⟩
    rw [side_fin] at hs
    simp only at hs
    have hxd : e0 = e0 % S.F.rows + e0 / S.F.rows * S.F.rows := by rw [Nat.mul_comm]; exact (Nat.mod_add_div e0 _).symm
    rw [← hxd] at hs
    rw [hs, hx2, h1, h2] at hl
    exact hl
  refine ⟨buildMap S ((S.F.setTri (e0 % S.F.rows) ⟨v1, v3, v4⟩).setTri (e1 % S.F.rows) ⟨v2, v4, v3⟩) (S.uE.setEdge u ⟨v3, v4⟩), ?_, ?_, ?_, ?_, ?_, ?_, ?_⟩
  · unfold rebuildFlip
    rw [hp]
    simp only [h1, h2, h3, h4]
  · refine buildMap_isEdgeMap _ _ _ hS.fcols hS.ucols ?_ ?_ ?_
    · intro a ha b hb hab
      have ha' : a < S.uE.rows := ha
      have hb' : b < S.uE.rows := hb
      rw [er, er] at hab
      by_cases xa : a = u <;> by_cases xb : b = u
      · rw [xa, xb]
      · rw [if_pos xa, if_neg xb] at hab
        exfalso
        obtain ⟨e, he, hue⟩ := hus b hb'
        exact hnew ⟨e, he, hab.trans' hue.symm'⟩
      · rw [if_neg xa, if_pos xb] at hab
        exfalso
        obtain ⟨e, he, hue⟩ := hus a ha'
        exact hnew ⟨e, he, hab.symm'.trans' hue.symm'⟩
      · rw [if_neg xa, if_neg xb] at hab
        exact hS.uniq a ha' b hb' hab
    · intro e he
      have := s2.mem_iff.mp he
      simp only [List.mem_cons] at this
      rcases this with rfl | rfl | hC
      · exact ⟨u, hu, by rw [er, if_pos rfl]; exact Or.inl rfl⟩
      · exact ⟨u, hu, by rw [er, if_pos rfl]; exact Or.inr rfl⟩
      · obtain ⟨u', hu', hue⟩ := hcov e (s1.mem_iff.mpr (by simp [hC]))
        refine ⟨u', hu', ?_⟩
        rw [er, if_neg]
        · exact hue
        · rintro rfl
          have := hul.trans' hue.symm'
          rcases this with rfl | rfl
          · exact hnd.1.2 hC
          · exact hnd.2.1 hC
    · intro a ha
      have ha' : a < S.uE.rows := ha
      rw [er]
      by_cases xa : a = u
      · rw [if_pos xa]; exact ⟨⟨v3, v4⟩, s2.mem_iff.mpr (by simp), Or.inl rfl⟩
      · rw [if_neg xa]
        obtain ⟨e, he, hue⟩ := hus a ha'
        refine ⟨e, ?_, hue⟩
        have := s1.mem_iff.mp he
        simp only [List.mem_cons] at this
        rcases this with rfl | rfl | hC
        · exact absurd (hS.uniq a ha' u hu (hue.symm'.trans' hul)) xa
        · exact absurd (hS.uniq a ha' u hu (hue.symm'.trans' ((show Undir (⟨v2, v1⟩ : Edge) ⟨v1, v2⟩ from Or.inr rfl).trans' hul))) xa
        · exact s2.mem_iff.mpr (by simp [hC])
  · rfl
  · rfl
  · show edgeRow (S.uE.setEdge u ⟨v3, v4⟩) u = _
    rw [er, if_pos rfl]
  · intro u' _ hne'
    show edgeRow (S.uE.setEdge u ⟨v3, v4⟩) u' = _
    rw [er, if_neg hne']
  · exact hT

end Gpy
