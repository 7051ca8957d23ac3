import Verif.Model.Subdivide
import Verif.Spec.Subdivide
import Verif.Proofs.HalfedgeEdgeMap
import Mathlib.Tactic.FinCases

set_option autoImplicit false
namespace Gpy
open Np

/-! ## Abstract 1-to-4 split -/

/-- the four children of `t` when the side `e` has midpoint number `mid e` -/
def childT (mid : Edge → ℕ) (t : Tri) : Fin 4 → Tri
  | 0 => ⟨t.a, mid (t.side 2), mid (t.side 1)⟩
  | 1 => ⟨mid (t.side 2), t.b, mid (t.side 0)⟩
  | 2 => ⟨mid (t.side 1), mid (t.side 0), t.c⟩
  | 3 => ⟨mid (t.side 1), mid (t.side 2), mid (t.side 0)⟩

def splitT (mid : Edge → ℕ) (F : List Tri) : List Tri :=
  F.map (fun t => childT mid t 0) ++ F.map (fun t => childT mid t 1) ++ F.map (fun t => childT mid t 2) ++ F.map (fun t => childT mid t 3)

theorem sides_append (F G : List Tri) : sides (F ++ G) = sides F ++ sides G := by
  unfold sides; rw [List.flatMap_append]

structure MidOk (F : List Tri) (n : ℕ) (mid : Edge → ℕ) : Prop where
  inj : ∀ e ∈ sides F, ∀ e' ∈ sides F, mid e = mid e' ↔ Undir e e'
  ge : ∀ e ∈ sides F, n ≤ mid e
  lt : InRange F n

theorem side_mem_of {F : List Tri} {t : Tri} (ht : t ∈ F) (i : Fin 3) : t.side i ∈ sides F := by
  obtain ⟨f, hf⟩ := List.mem_iff_getElem?.mp ht
  exact mem_sides.mpr ⟨f, t, i, hf, rfl⟩

theorem length_splitT (mid : Edge → ℕ) (F : List Tri) : (splitT mid F).length = 4 * F.length := by
  unfold splitT; simp; omega

theorem mem_splitT {mid : Edge → ℕ} {F : List Tri} {u : Tri} : u ∈ splitT mid F ↔ ∃ t ∈ F, ∃ b, u = childT mid t b := by
  unfold splitT
  simp only [List.mem_append, List.mem_map]
  constructor
  · rintro (((⟨t, ht, rfl⟩ | ⟨t, ht, rfl⟩) | ⟨t, ht, rfl⟩) | ⟨t, ht, rfl⟩)
    exacts [⟨t, ht, 0, rfl⟩, ⟨t, ht, 1, rfl⟩, ⟨t, ht, 2, rfl⟩, ⟨t, ht, 3, rfl⟩]
  · rintro ⟨t, ht, b, rfl⟩
    fin_cases b
    · exact Or.inl (Or.inl (Or.inl ⟨t, ht, rfl⟩))
    · exact Or.inl (Or.inl (Or.inr ⟨t, ht, rfl⟩))
    · exact Or.inl (Or.inr ⟨t, ht, rfl⟩)
    · exact Or.inr ⟨t, ht, rfl⟩

/-- the outer and the inner sides of the children -/
def outerS (mid : Edge → ℕ) (e : Edge) : List Edge := [⟨e.s, mid e⟩, ⟨mid e, e.t⟩]
def innerS (mid : Edge → ℕ) (t : Tri) : List Edge :=
  [⟨mid (t.side 2), mid (t.side 1)⟩, ⟨mid (t.side 0), mid (t.side 2)⟩, ⟨mid (t.side 1), mid (t.side 0)⟩,
   ⟨mid (t.side 1), mid (t.side 2)⟩, ⟨mid (t.side 2), mid (t.side 0)⟩, ⟨mid (t.side 0), mid (t.side 1)⟩]

theorem sides_cons (t : Tri) (F : List Tri) : sides (t :: F) = [t.side 0, t.side 1, t.side 2] ++ sides F := rfl

theorem sides_perm_of_perm {F G : List Tri} (h : F.Perm G) : (sides F).Perm (sides G) := h.flatMap_right _

theorem splitT_perm (mid : Edge → ℕ) (F : List Tri) :
    (splitT mid F).Perm (F.flatMap (fun t => [childT mid t 0, childT mid t 1, childT mid t 2, childT mid t 3])) := by
  induction F with
  | nil => exact List.Perm.refl _
  | cons t F ih =>
    rw [List.flatMap_cons]
    refine List.Perm.trans ?_ (List.Perm.append_left _ ih)
    unfold splitT
    rw [List.perm_iff_count]
    intro x
    simp only [List.map_cons, List.count_append, List.count_cons, List.count_nil]
    omega

theorem sides_split_perm (mid : Edge → ℕ) (F : List Tri) :
    (sides (splitT mid F)).Perm ((sides F).flatMap (outerS mid) ++ F.flatMap (innerS mid)) := by
  refine (sides_perm_of_perm (splitT_perm mid F)).trans ?_
  induction F with
  | nil => exact List.Perm.refl _
  | cons t F ih =>
    rw [List.flatMap_cons, sides_append, sides_cons t F, List.flatMap_append, List.flatMap_cons (f := innerS mid)]
    refine (List.Perm.append_left _ ih).trans ?_
    rw [List.perm_iff_count]
    intro x
    have e0 : (t.side 0).s = t.b := rfl
    have e1 : (t.side 0).t = t.c := rfl
    have e2 : (t.side 1).s = t.c := rfl
    have e3 : (t.side 1).t = t.a := rfl
    have e4 : (t.side 2).s = t.a := rfl
    have e5 : (t.side 2).t = t.b := rfl
    have h : (sides [childT mid t 0, childT mid t 1, childT mid t 2, childT mid t 3]).count x
        = (List.flatMap (outerS mid) [t.side 0, t.side 1, t.side 2]).count x + (innerS mid t).count x := by
      simp only [sides, List.flatMap_cons, List.flatMap_nil, outerS, innerS, List.count_append, List.count_cons, List.count_nil, e0, e1, e2, e3, e4, e5,
        childT]
      simp only [Tri.side, Nat.zero_add, Nat.add_zero]
      ac_rfl
    simp only [List.count_append, h]
    omega

theorem undir_ends {e e' : Edge} (h : Undir e e') : (e'.s = e.s ∧ e'.t = e.t) ∨ (e'.s = e.t ∧ e'.t = e.s) := by
  rcases h with rfl | rfl
  · exact Or.inl ⟨rfl, rfl⟩
  · exact Or.inr ⟨rfl, rfl⟩

theorem undir_ne {t : Tri} (h : t.a ≠ t.b ∧ t.b ≠ t.c ∧ t.c ≠ t.a) {i j : Fin 3} (hij : i ≠ j) : ¬ Undir (t.side i) (t.side j) := by
  intro hu
  have := undir_ends hu
  fin_cases i <;> fin_cases j <;> simp [Tri.side] at this hij <;> omega

/-- two triangles sharing two different sides have the same corners -/
theorem sameCorners_of_two {t u : Tri} {i j : Fin 3} {i' j' : Fin 3} (hij : i ≠ j) (hij' : i' ≠ j')
    (h1 : Undir (t.side i) (u.side i')) (h2 : Undir (t.side j) (u.side j')) : SameCorners t u := by
  have h1 := undir_ends h1
  have h2 := undir_ends h2
  intro v
  fin_cases i <;> fin_cases j <;> first | exact absurd rfl hij | skip
  all_goals
    fin_cases i' <;> fin_cases j' <;> first | exact absurd rfl hij' | skip
  all_goals
    simp only [Tri.side] at h1 h2
    rcases h1 with ⟨h1, h1'⟩ | ⟨h1, h1'⟩ <;> rcases h2 with ⟨h2, h2'⟩ | ⟨h2, h2'⟩ <;> omega

variable {F : List Tri} {n : ℕ} {mid : Edge → ℕ}

theorem mid_ne (hF : OrientedManifold F) (hm : MidOk F n mid) {t : Tri} (ht : t ∈ F) {i j : Fin 3} (hij : i ≠ j) :
    mid (t.side i) ≠ mid (t.side j) := by
  intro h
  exact undir_ne (hF.2 t ht) hij ((hm.inj _ (side_mem_of ht i) _ (side_mem_of ht j)).mp h)

theorem inner_sameCorners (hm : MidOk F n mid) {t u : Tri} (ht : t ∈ F) (hu : u ∈ F) {i j i' j' : Fin 3} (hij : i ≠ j) (hij' : i' ≠ j')
    (h1 : mid (t.side i) = mid (u.side i')) (h2 : mid (t.side j) = mid (u.side j')) : SameCorners t u :=
  sameCorners_of_two hij hij' ((hm.inj _ (side_mem_of ht i) _ (side_mem_of hu i')).mp h1)
    ((hm.inj _ (side_mem_of ht j) _ (side_mem_of hu j')).mp h2)

theorem mem_innerS {t : Tri} {x : Edge} : x ∈ innerS mid t ↔ ∃ i j : Fin 3, i ≠ j ∧ x = ⟨mid (t.side i), mid (t.side j)⟩ := by
  constructor
  · intro h
    simp only [innerS, List.mem_cons, List.not_mem_nil, or_false] at h
    rcases h with h | h | h | h | h | h
    exacts [⟨2, 1, by decide, h⟩, ⟨0, 2, by decide, h⟩, ⟨1, 0, by decide, h⟩, ⟨1, 2, by decide, h⟩, ⟨2, 0, by decide, h⟩, ⟨0, 1, by decide, h⟩]
  · rintro ⟨i, j, hij, rfl⟩
    fin_cases i <;> fin_cases j <;> first | exact absurd rfl hij | simp [innerS]

theorem sub_side_lt (hm : InRange F n) {e : Edge} (he : e ∈ sides F) : e.s < n ∧ e.t < n := by
  obtain ⟨f, t, i, hf, rfl⟩ := mem_sides.mp he
  have := hm t (List.mem_of_getElem? hf)
  fin_cases i <;> simp [Tri.side] <;> omega

theorem split_manifold (hF : OrientedManifold F) (hm : MidOk F n mid) (hT : NoTwin F) : OrientedManifold (splitT mid F) := by
  have hlt := hm.lt
  refine ⟨?_, ?_⟩
  · rw [(sides_split_perm mid F).nodup_iff, List.nodup_append]
    refine ⟨?_, ?_, ?_⟩
    · rw [List.nodup_flatMap]
      refine ⟨?_, ?_⟩
      · intro e he
        have h1 := sub_side_lt hlt he
        have h2 := hm.ge e he
        simp only [outerS, List.nodup_cons, List.mem_cons, List.not_mem_nil, or_false, not_false_eq_true, List.nodup_nil, and_true, Edge.mk.injEq]
        omega
      · refine List.Pairwise.imp_of_mem ?_ hF.1
        intro e e' he he' hne x hx hx'
        have h1 := sub_side_lt hlt he
        have h2 := hm.ge e he
        have h1' := sub_side_lt hlt he'
        have h2' := hm.ge e' he'
        have hi := (hm.inj e he e' he').mp
        have hloop := side_not_loop hF he
        obtain ⟨s, t⟩ := e
        obtain ⟨s', t'⟩ := e'
        simp only [outerS, List.mem_cons, List.not_mem_nil, or_false] at hx hx'
        have hu : ∀ h : mid ⟨s, t⟩ = mid ⟨s', t'⟩, (s' = s ∧ t' = t) ∨ (s' = t ∧ t' = s) := fun h => undir_ends (hi h)
        simp only [ne_eq, Edge.mk.injEq, Edge.flip] at hne hloop
        simp only at h1 h1'
        rcases hx with rfl | rfl <;> simp only [Edge.mk.injEq] at hx' <;> rcases hx' with ⟨ha, hb⟩ | ⟨ha, hb⟩
        · have := hu hb; omega
        · omega
        · omega
        · have := hu ha; omega
    · rw [List.nodup_flatMap]
      refine ⟨?_, ?_⟩
      · intro t ht
        have h01 := mid_ne hF hm ht (i := 0) (j := 1) (by decide)
        have h02 := mid_ne hF hm ht (i := 0) (j := 2) (by decide)
        have h12 := mid_ne hF hm ht (i := 1) (j := 2) (by decide)
        simp only [innerS, List.nodup_cons, List.mem_cons, List.not_mem_nil, or_false, not_false_eq_true, List.nodup_nil, and_true, Edge.mk.injEq]
        omega
      · refine List.Pairwise.imp_of_mem ?_ hT
        intro t u ht hu hne x hx hx'
        obtain ⟨i, j, hij, rfl⟩ := mem_innerS.mp hx
        obtain ⟨i', j', hij', h⟩ := mem_innerS.mp hx'
        rw [Edge.mk.injEq] at h
        exact hne (inner_sameCorners hm ht hu hij hij' h.1 h.2)
    · intro x hx y hy hxy
      subst hxy
      obtain ⟨e, he, hxe⟩ := List.mem_flatMap.mp hx
      obtain ⟨t, ht, hxt⟩ := List.mem_flatMap.mp hy
      obtain ⟨i, j, hij, h⟩ := mem_innerS.mp hxt
      have h1 := sub_side_lt hlt he
      have hi := hm.ge _ (side_mem_of ht i)
      have hj := hm.ge _ (side_mem_of ht j)
      subst h
      simp only [outerS, List.mem_cons, List.not_mem_nil, or_false, Edge.mk.injEq] at hxe
      omega
  · intro u hu
    obtain ⟨t, ht, b, rfl⟩ := mem_splitT.mp hu
    have h01 := mid_ne hF hm ht (i := 0) (j := 1) (by decide)
    have h02 := mid_ne hF hm ht (i := 0) (j := 2) (by decide)
    have h12 := mid_ne hF hm ht (i := 1) (j := 2) (by decide)
    have g0 := hm.ge _ (side_mem_of ht 0)
    have g1 := hm.ge _ (side_mem_of ht 1)
    have g2 := hm.ge _ (side_mem_of ht 2)
    have hr := hlt t ht
    fin_cases b <;> simp only [childT] <;> omega

theorem sameCorners_symm {t u : Tri} (h : SameCorners t u) : SameCorners u t := fun v => (h v).symm

theorem child_two (mid : Edge → ℕ) (t : Tri) (b : Fin 4) : ∃ i j : Fin 3, i ≠ j ∧
    (∀ k : Fin 3, k = i ∨ k = j → mid (t.side k) = (childT mid t b).a ∨ mid (t.side k) = (childT mid t b).b ∨ mid (t.side k) = (childT mid t b).c) := by
  fin_cases b
  · exact ⟨1, 2, by decide, by rintro k (rfl | rfl) <;> simp [childT]⟩
  · exact ⟨0, 2, by decide, by rintro k (rfl | rfl) <;> simp [childT]⟩
  · exact ⟨0, 1, by decide, by rintro k (rfl | rfl) <;> simp [childT]⟩
  · exact ⟨0, 1, by decide, by rintro k (rfl | rfl) <;> simp [childT]⟩

theorem child_big {u : Tri} (hr : u.a < n ∧ u.b < n ∧ u.c < n) {c : Fin 4} {v : ℕ} (hv : n ≤ v)
    (h : v = (childT mid u c).a ∨ v = (childT mid u c).b ∨ v = (childT mid u c).c) : ∃ i, v = mid (u.side i) := by
  fin_cases c <;> simp only [childT] at h <;> rcases h with h | h | h <;> first | (exfalso; omega) | exact ⟨0, h⟩ | exact ⟨1, h⟩ | exact ⟨2, h⟩

/-- children with the same corners: parents with the same corners, and different parents if the children have different places -/
theorem child_same (hF : OrientedManifold F) (hm : MidOk F n mid) {t u : Tri} (ht : t ∈ F) (hu : u ∈ F) {b c : Fin 4}
    (h : SameCorners (childT mid t b) (childT mid u c)) : SameCorners t u ∧ (b ≠ c → t ≠ u) := by
  refine ⟨?_, ?_⟩
  · obtain ⟨i, j, hij, hk⟩ := child_two mid t b
    obtain ⟨i', hi'⟩ := child_big (hm.lt u hu) (hm.ge _ (side_mem_of ht i)) ((h _).mp (hk i (Or.inl rfl)))
    obtain ⟨j', hj'⟩ := child_big (hm.lt u hu) (hm.ge _ (side_mem_of ht j)) ((h _).mp (hk j (Or.inr rfl)))
    refine inner_sameCorners hm ht hu hij ?_ hi' hj'
    rintro rfl
    exact mid_ne hF hm ht hij (hi'.trans hj'.symm)
  · intro hbc htu
    subst htu
    have g0 := hm.ge _ (side_mem_of ht 0)
    have g1 := hm.ge _ (side_mem_of ht 1)
    have g2 := hm.ge _ (side_mem_of ht 2)
    have hr := hm.lt t ht
    have hd := hF.2 t ht
    have ha := (h t.a)
    have hb := (h t.b)
    have hc := (h t.c)
    fin_cases b <;> fin_cases c <;> first | exact absurd rfl hbc | skip
    all_goals simp only [childT, true_or, or_true, true_iff, iff_true] at ha hb hc; omega

theorem split_noTwin (hF : OrientedManifold F) (hm : MidOk F n mid) (hT : NoTwin F) : NoTwin (splitT mid F) := by
  have hsym : ∀ t ∈ F, ∀ u ∈ F, t ≠ u → ¬ SameCorners t u := by
    intro t ht u hu hne
    haveI : Std.Symm (fun t u => ¬ SameCorners t u) := ⟨fun a b h h' => h (sameCorners_symm h')⟩
    exact List.Pairwise.forall hT ht hu hne
  have hself : ∀ b, (F.map (fun t => childT mid t b)).Pairwise (fun t u => ¬ SameCorners t u) := by
    intro b
    rw [List.pairwise_map]
    refine List.Pairwise.imp_of_mem ?_ hT
    intro t u ht hu hne hs
    exact hne (child_same hF hm ht hu hs).1
  have hcross : ∀ b c : Fin 4, b ≠ c → ∀ x ∈ F.map (fun t => childT mid t b), ∀ y ∈ F.map (fun t => childT mid t c), ¬ SameCorners x y := by
    intro b c hbc x hx y hy hs
    obtain ⟨t, ht, rfl⟩ := List.mem_map.mp hx
    obtain ⟨u, hu, rfl⟩ := List.mem_map.mp hy
    have := child_same hF hm ht hu hs
    exact hsym t ht u hu (this.2 hbc) this.1
  unfold NoTwin splitT
  rw [List.pairwise_append, List.pairwise_append, List.pairwise_append]
  refine ⟨⟨⟨hself 0, hself 1, hcross 0 1 (by decide)⟩, hself 2, ?_⟩, hself 3, ?_⟩
  · intro x hx
    rcases List.mem_append.mp hx with hx | hx
    · exact hcross 0 2 (by decide) x hx
    · exact hcross 1 2 (by decide) x hx
  · intro x hx
    rcases List.mem_append.mp hx with hx | hx
    · rcases List.mem_append.mp hx with hx | hx
      · exact hcross 0 3 (by decide) x hx
      · exact hcross 1 3 (by decide) x hx
    · exact hcross 2 3 (by decide) x hx

/-! ## The code -/

/-- the edge number of a side -/
def eidx (F : List Tri) (e : Edge) : ℕ := (EL F).findIdx (fun e' => decide (Undir e' e))

theorem eidx_get {e : Edge} (h : e ∈ sides F) : ∃ e', (EL F)[eidx F e]? = some e' ∧ Undir e' e := by
  obtain ⟨e', he', hu⟩ := exists_EL h
  have hlt : eidx F e < (EL F).length := List.findIdx_lt_length_of_exists ⟨e', he', by simp [hu]⟩
  refine ⟨(EL F)[eidx F e], List.getElem?_eq_getElem hlt, ?_⟩
  have := List.findIdx_getElem (w := hlt)
  exact of_decide_eq_true this

theorem undir_trans {a b c : Edge} (h1 : Undir a b) (h2 : Undir b c) : Undir a c := by
  rw [← Edge.sort_eq_iff] at *; rw [h2, h1]

theorem eidx_inj {e e' : Edge} (h : e ∈ sides F) (h' : e' ∈ sides F) : eidx F e = eidx F e' ↔ Undir e e' := by
  obtain ⟨x, hx, hux⟩ := eidx_get h
  obtain ⟨y, hy, huy⟩ := eidx_get h'
  constructor
  · intro heq
    rw [heq, hy] at hx
    cases hx
    exact undir_trans hux.symm huy
  · intro hu
    exact EL_unique hx hy (undir_trans (undir_trans hux hu) huy.symm)

theorem scatter_eidx (hF : OrientedManifold F) {f : ℕ} {t : Tri} (hf : F[f]? = some t) (i : Fin 3) :
    scatterLookup (writesL F) f i.val = (eidx F (t.side i) : ℕ) := by
  obtain ⟨k, hk, e, he, hu⟩ := heToE_lookup hF hf i
  obtain ⟨x, hx, hux⟩ := eidx_get (mem_sides.mpr ⟨f, t, i, hf, rfl⟩)
  rw [hk, EL_unique he hx (undir_trans hu hux.symm)]

theorem heToEL_eq (hF : OrientedManifold F) :
    heToEL F = F.map (fun t => ⟨(eidx F (t.side 0) : ℕ), (eidx F (t.side 1) : ℕ), (eidx F (t.side 2) : ℕ)⟩) := by
  apply List.ext_getElem?
  intro f
  unfold heToEL
  rw [List.getElem?_map, List.getElem?_map]
  cases hf : F[f]? with
  | none =>
    have : F.length ≤ f := by simpa using hf
    simp [this]
  | some t =>
    have hlt : f < F.length := (List.getElem?_eq_some_iff.mp hf).1
    rw [List.getElem?_range hlt]
    simp only [Option.map_some]
    rw [show (0 : ℕ) = ((0 : Fin 3) : ℕ) from rfl, scatter_eidx hF hf 0]
    have h1 := scatter_eidx hF hf 1
    have h2 := scatter_eidx hF hf 2
    rw [show ((1 : Fin 3) : ℕ) = 1 from rfl] at h1
    rw [show ((2 : Fin 3) : ℕ) = 2 from rfl] at h2
    rw [h1, h2]

theorem upFaces_eq (hF : OrientedManifold F) (n : ℕ) : upFaces n F (heToEL F) = splitT (fun e => n + eidx F e) F := by
  have hz : ∀ {α : Type} (l : List Tri) (g : Tri → Row3 Int) (h : Tri × Row3 Int → α),
      (l.zip (l.map g)).map h = l.map (fun t => h (t, g t)) := by
    intro α l g h
    induction l with
    | nil => rfl
    | cons a l ih => simp [ih]
  have hn : ∀ k : ℕ, ((n : Int) + (k : ℕ)).toNat = n + k := by intro k; omega
  unfold upFaces
  simp only [heToEL_eq hF, hz, upChild, hn]
  rfl

theorem midOk (hr : InRange F n) : MidOk F n (fun e => n + eidx F e) := by
  refine ⟨?_, ?_, hr⟩
  · intro e he e' he'
    rw [← eidx_inj he he']
    simp
  · intro e _; simp


/-! ## The matrix and the new vertices -/

section mat
variable {K : Type} [Field K] {d : ℕ}

theorem zip3_zipIdx (E : List Edge) (n : ℕ) (g : Edge → ℕ) (v : K) :
    zip3 ((List.range E.length).map (fun k => n + k)) (E.map g) (List.replicate E.length v)
      = E.zipIdx.map (fun p => (n + p.2, g p.1, v)) := by
  apply List.ext_getElem?
  intro i
  simp only [zip3, List.getElem?_zip_eq_some, List.getElem?_map]
  by_cases hi : i < E.length
  · simp [List.getElem?_zip_eq_some, hi, List.zip, List.getElem?_zipWith]
  · simp [hi, List.zip, List.getElem?_zipWith]

theorem upMatrix_eq (n : ℕ) (E : List Edge) (hE : ∀ e ∈ E, e.s < n ∧ e.t < n) :
    upMatrix (K := K) n E = some ⟨n + E.length, n, (List.range n).map (fun i => (i, i, (1 : K))) ++
      E.zipIdx.map (fun p => (n + p.2, p.1.s, (1 / 2 : K))) ++ E.zipIdx.map (fun p => (n + p.2, p.1.t, (1 / 2 : K)))⟩ := by
  unfold upMatrix csrMatrix
  rw [if_pos]
  · congr 1
    rw [zip3_append (by simp) (by simp), zip3_append (by simp) (by simp)]
    rw [zip3_zipIdx, zip3_zipIdx]
    have : zip3 (List.range n) (List.range n) (List.replicate n (1 : K)) = (List.range n).map (fun i => (i, i, (1 : K))) := by
      have := zip3_map (List.range n) id id (fun _ => (1 : K))
      simpa using this
    rw [this]
  · refine ⟨by simp, by simp, ?_, ?_⟩
    · intro i hi
      simp only [List.mem_append, List.mem_range, List.mem_map] at hi
      rcases hi with (h | ⟨k, h, rfl⟩) | ⟨k, h, rfl⟩ <;> omega
    · intro i hi
      simp only [List.mem_append, List.mem_range, List.mem_map] at hi
      rcases hi with (h | ⟨k, h, rfl⟩) | ⟨k, h, rfl⟩
      · exact h
      · exact (hE k h).1
      · exact (hE k h).2

theorem sum_range_single (n i : ℕ) (u : ℕ → K) :
    ((List.range n).map (fun k => if k = i then u k else 0)).sum = if i < n then u i else 0 := by
  induction n with
  | zero => simp
  | succ n ih =>
    rw [List.range_succ, List.map_append, List.sum_append, ih]
    simp only [List.map_cons, List.map_nil, List.sum_cons, List.sum_nil, add_zero]
    by_cases h : n = i
    · subst h; simp
    · by_cases h2 : i < n
      · simp [h, h2, show i < n + 1 by omega]
      · simp [h, h2, show ¬ i < n + 1 by omega]

theorem upMatrix_mulVec {n : ℕ} {E : List Edge} (hE : ∀ e ∈ E, e.s < n ∧ e.t < n) {S : Csr K} (hS : upMatrix n E = some S) (u : ℕ → K) :
    S.nrows = n + E.length ∧ S.ncols = n ∧ (∀ i < n, S.mulVec u i = u i) ∧
      (∀ (k : ℕ) (e : Edge), E[k]? = some e → S.mulVec u (n + k) = (1 / 2) * (u e.s + u e.t)) := by
  have hwf : S.WF := (csrMatrix_wf (by unfold upMatrix at hS; exact hS)).1
  rw [upMatrix_eq n E hE] at hS
  cases hS
  have key : ∀ (g : Edge → ℕ) (i : ℕ), ((E.zipIdx.map (fun p => (n + p.2, g p.1, (1 / 2 : K)))).map
      (fun t : ℕ × ℕ × K => if t.1 = i then t.2.2 * u t.2.1 else 0)).sum
      = if n ≤ i then ((E[i - n]?).map (fun e => (1 / 2 : K) * u (g e))).getD 0 else 0 := by
    intro g i
    rw [List.map_map]
    by_cases h : n ≤ i
    · rw [if_pos h]
      have := sum_zipIdx_single E (fun e => (1 / 2 : K) * u (g e)) (i - n) 0
      simp only [Nat.zero_le, if_true, Nat.sub_zero] at this
      rw [← this]
      congr 1
      apply List.map_congr_left
      intro p _
      simp only [Function.comp]
      by_cases h2 : p.2 = i - n
      · rw [if_pos h2, if_pos (by omega)]
      · rw [if_neg h2, if_neg (by omega)]
    · rw [if_neg h]
      apply List.sum_eq_zero
      intro x hx
      rw [List.mem_map] at hx
      obtain ⟨p, _, rfl⟩ := hx
      simp only [Function.comp]
      rw [if_neg (by omega)]
  have hall : ∀ i, (Csr.mk (n + E.length) n ((List.range n).map (fun i => (i, i, (1 : K))) ++
      E.zipIdx.map (fun p => (n + p.2, p.1.s, (1 / 2 : K))) ++ E.zipIdx.map (fun p => (n + p.2, p.1.t, (1 / 2 : K))))).mulVec u i
      = (if i < n then u i else 0) + (if n ≤ i then ((E[i - n]?).map (fun e => (1 / 2 : K) * u e.s)).getD 0 else 0)
        + (if n ≤ i then ((E[i - n]?).map (fun e => (1 / 2 : K) * u e.t)).getD 0 else 0) := by
    intro i
    rw [mulVec_eq _ hwf]
    simp only [List.map_append, List.sum_append]
    rw [key (·.s), key (·.t), List.map_map]
    congr 2
    rw [← sum_range_single]
    congr 1
    apply List.map_congr_left
    intro k _
    simp only [Function.comp, one_mul]
  refine ⟨rfl, rfl, ?_, ?_⟩
  · intro i hi
    rw [hall, if_pos hi, if_neg (by omega), if_neg (by omega)]
    simp
  · intro k e hk
    rw [hall, if_neg (by omega), if_pos (by omega), if_pos (by omega), show n + k - n = k by omega, hk]
    simp; ring

theorem midpoints_eq (V : List (Fin d → K)) (E : List Edge) (hE : ∀ e ∈ E, e.s < V.length ∧ e.t < V.length) :
    ∃ N, midpoints V E = some N ∧ N.length = E.length ∧
      ∀ (k : ℕ) (e : Edge) (x y : Fin d → K), E[k]? = some e → V[e.s]? = some x → V[e.t]? = some y →
        N[k]? = some (fun c => (1 / 2) * (x c + y c)) := by
  unfold midpoints
  induction E with
  | nil => exact ⟨[], rfl, rfl, by simp⟩
  | cons e E ih =>
    obtain ⟨N, hN, hl, hk⟩ := ih (fun e he => hE e (by simp [he]))
    have h := hE e (by simp)
    refine ⟨(fun c => (1 / 2) * (V[e.s] c + V[e.t] c)) :: N, ?_, by simp [hl], ?_⟩
    · rw [List.mapM_cons, List.getElem?_eq_getElem h.1, Option.bind_some, List.getElem?_eq_getElem h.2, Option.map_some,
        Option.bind_eq_bind, Option.bind_some, hN]
      rfl
    · intro k e' x y hke hx hy
      cases k with
      | zero =>
        simp at hke
        subst hke
        rw [List.getElem?_eq_getElem h.1] at hx
        rw [List.getElem?_eq_getElem h.2] at hy
        cases hx; cases hy
        rfl
      | succ k =>
        simp at hke
        simpa using hk k e' x y hke hx hy

theorem upsample_eq (hne : F ≠ []) (hF : OrientedManifold F) {V : List (Fin d → K)} (hr : InRange F V.length) :
    ∃ N S, midpoints V (EL F) = some N ∧ upMatrix V.length (EL F) = some S ∧
      upsampleTriangleMesh (some V) F = some (⟨some (V ++ N), splitT (fun e => V.length + eidx F e) F, S⟩, ⟨heL F, EL F, heToEL F, EToHeL F⟩) := by
  have hE : ∀ e ∈ EL F, e.s < V.length ∧ e.t < V.length := fun e he => sub_side_lt hr (mem_EL_side he)
  obtain ⟨N, hN, -, -⟩ := midpoints_eq V (EL F) hE
  refine ⟨N, _, hN, upMatrix_eq _ _ hE, ?_⟩
  have hV : V.length > 1 := by
    obtain ⟨t, ht⟩ := List.exists_mem_of_ne_nil F hne
    have := hr t ht
    have := hF.2 t ht
    omega
  unfold upsampleTriangleMesh
  rw [if_neg (by simpa using hne)]
  simp only [subdivN, Option.bind_eq_bind, Option.bind_some]
  rw [halfedgeEdgeMap_eq hne hF]
  simp only [Option.bind_some, if_pos hV, hN, Option.map_some]
  rw [upMatrix_eq _ _ hE]
  simp only [Option.bind_some, upFaces_eq hF]

theorem splitT_get (mid : Edge → ℕ) {f : ℕ} {t : Tri} (hf : F[f]? = some t) (b : Fin 4) :
    (splitT mid F)[b.val * F.length + f]? = some (childT mid t b) := by
  have hlt : f < F.length := (List.getElem?_eq_some_iff.mp hf).1
  unfold splitT
  rw [List.append_assoc, List.append_assoc]
  fin_cases b
  · rw [List.getElem?_append_left (by simp; omega)]
    simp [hf]
  · rw [List.getElem?_append_right (by simp), List.getElem?_append_left (by simp; omega)]
    simp [hf]
  · rw [List.getElem?_append_right (by simp; omega), List.getElem?_append_right (by simp; omega), List.getElem?_append_left (by simp; omega)]
    have : 2 * F.length + f - F.length - F.length = f := by omega
    simp [hf, this]
  · rw [List.getElem?_append_right (by simp; omega), List.getElem?_append_right (by simp; omega), List.getElem?_append_right (by simp; omega)]
    have : 3 * F.length + f - F.length - F.length - F.length = f := by omega
    simp [hf, this]

end mat

end Gpy
