import Mathlib.Data.List.Flatten
import Verif.Props.Subdivide
import Verif.Props.Icosphere
import Verif.Proofs.EdgeCount

/-! C134: `subdivide` keeps the topology. -/

set_option autoImplicit false
namespace Gpy
open Np

/-- Specification: the vertices `i` and `j` are joined by a path along sides of triangles. -/
def MeshReach (F : List Tri) : ℕ → ℕ → Prop := Relation.ReflTransGen (fun a b => (⟨a, b⟩ : Edge) ∈ sides F ∨ (⟨b, a⟩ : Edge) ∈ sides F)

theorem MeshReach.symm {F : List Tri} {a b : ℕ} (h : MeshReach F a b) : MeshReach F b a := by
  induction h with
  | refl => exact .refl
  | tail _ h ih => exact Relation.ReflTransGen.head h.symm ih

theorem MeshReach.trans {F : List Tri} {a b c : ℕ} (h : MeshReach F a b) (h' : MeshReach F b c) : MeshReach F a c := Relation.ReflTransGen.trans h h'

theorem MeshReach.side {F : List Tri} {e : Edge} (h : e ∈ sides F) : MeshReach F e.s e.t := Relation.ReflTransGen.single (Or.inl h)

theorem isEdgeList_length {F : List Tri} {E : List Edge} (h : IsEdgeList F E) : E.length = numEdges F := by
  have hnd : (E.map (fun e => s(e.s, e.t))).Nodup := by
    unfold List.Nodup
    rw [List.pairwise_map]
    exact h.1.imp (fun h h' => h ((undir_iff_sym2 _ _).mpr h'))
  have hset : ((sides F).map (fun e => s(e.s, e.t))).toFinset = (E.map (fun e => s(e.s, e.t))).toFinset := by
    ext x
    simp only [List.mem_toFinset, List.mem_map]
    constructor
    · rintro ⟨e, he, rfl⟩
      obtain ⟨e', h1, h2⟩ := (h.2 e).mpr ⟨e, he, Or.inl rfl⟩
      exact ⟨e', h1, ((undir_iff_sym2 _ _).mp h2)⟩
    · rintro ⟨e, he, rfl⟩
      obtain ⟨e', h1, h2⟩ := (h.2 e).mp ⟨e, he, Or.inl rfl⟩
      exact ⟨e', h1, ((undir_iff_sym2 _ _).mp h2)⟩
  unfold numEdges
  rw [hset, List.toFinset_card_of_nodup hnd, List.length_map]

variable {F : List Tri} {n : ℕ} {mid : Edge → ℕ}

theorem mem_sides_split {x : Edge} : x ∈ sides (splitT mid F) ↔ (∃ e ∈ sides F, x ∈ outerS mid e) ∨ ∃ t ∈ F, x ∈ innerS mid t := by
  rw [(sides_split_perm mid F).mem_iff, List.mem_append, List.mem_flatMap, List.mem_flatMap]

theorem side_ne (hF : OrientedManifold F) {e : Edge} (he : e ∈ sides F) : e.s ≠ e.t := by
  obtain ⟨t, ht, he⟩ := List.mem_flatMap.mp he
  have := hF.2 t ht
  simp only [List.mem_cons, List.not_mem_nil, or_false] at he
  rcases he with rfl | rfl | rfl
  · exact this.2.1
  · exact this.2.2
  · exact this.1

theorem mid_flip (hm : MidOk F n mid) {e : Edge} (he : e ∈ sides F) (he' : e.flip ∈ sides F) : mid e.flip = mid e :=
  ((hm.inj _ he _ he').mpr (Or.inr rfl)).symm

theorem split_boundary (hF : OrientedManifold F) (hm : MidOk F n mid) (x : Edge) :
    IsBoundarySide (splitT mid F) x ↔ ∃ e, IsBoundarySide F e ∧ x ∈ outerS mid e := by
  constructor
  · rintro ⟨h1, h2⟩
    rcases mem_sides_split.mp h1 with ⟨e, he, hx⟩ | ⟨t, ht, hx⟩
    · refine ⟨e, ⟨he, fun hf => h2 ?_⟩, hx⟩
      refine mem_sides_split.mpr (Or.inl ⟨e.flip, hf, ?_⟩)
      simp only [outerS, List.mem_cons, List.not_mem_nil, or_false] at hx ⊢
      rw [mid_flip hm he hf]
      rcases hx with rfl | rfl
      · exact Or.inr rfl
      · exact Or.inl rfl
    · exfalso
      refine h2 (mem_sides_split.mpr (Or.inr ⟨t, ht, ?_⟩))
      obtain ⟨i, j, hij, rfl⟩ := mem_innerS.mp hx
      exact mem_innerS.mpr ⟨j, i, hij.symm, rfl⟩
  · rintro ⟨e, ⟨he, hf⟩, hx⟩
    refine ⟨mem_sides_split.mpr (Or.inl ⟨e, he, hx⟩), fun hb => hf ?_⟩
    have lt := sub_side_lt hm.lt he
    have ge := hm.ge e he
    rcases mem_sides_split.mp hb with ⟨e', he', hx'⟩ | ⟨t, ht, hx'⟩
    · have lt' := sub_side_lt hm.lt he'
      have ge' := hm.ge e' he'
      have key : mid e = mid e' → (e'.t = e.s ∨ e'.s = e.t) → e.flip ∈ sides F := by
        intro h1 h2
        rcases (hm.inj _ he _ he').mp h1 with rfl | rfl
        · exact absurd h2 (by have := side_ne hF he; rintro (h | h) <;> exact this (by first | exact h.symm | exact h))
        · exact he'
      simp only [outerS, List.mem_cons, List.not_mem_nil, or_false] at hx hx'
      rcases hx with rfl | rfl <;> rcases hx' with h | h <;> simp only [Edge.flip, Edge.mk.injEq] at h
      · omega
      · exact key h.1 (Or.inl h.2.symm)
      · exact key h.2 (Or.inr h.1.symm)
      · omega
    · obtain ⟨i, j, -, hij⟩ := mem_innerS.mp hx'
      have g1 := hm.ge _ (side_mem_of ht i)
      have g2 := hm.ge _ (side_mem_of ht j)
      simp only [outerS, List.mem_cons, List.not_mem_nil, or_false] at hx
      rcases hx with rfl | rfl <;> simp only [Edge.flip, Edge.mk.injEq] at hij <;> omega

instance (F : List Tri) (e : Edge) : Decidable (IsBoundarySide F e) := by unfold IsBoundarySide; infer_instance

/-- the boundary sides of a mesh -/
def bsides (F : List Tri) : List Edge := (sides F).filter (fun e => IsBoundarySide F e)

theorem mem_bsides {e : Edge} : e ∈ bsides F ↔ IsBoundarySide F e := by
  unfold bsides
  rw [List.mem_filter, decide_eq_true_iff]
  exact ⟨fun h => h.2, fun h => ⟨h.1, h⟩⟩

theorem bsides_nodup (hF : OrientedManifold F) : (bsides F).Nodup := hF.1.filter _

theorem split_bsides (hF : OrientedManifold F) (hT : NoTwin F) (hm : MidOk F n mid) : (bsides (splitT mid F)).length = 2 * (bsides F).length := by
  have hS := split_manifold hF hm hT
  have h1 : ((bsides F).flatMap (outerS mid)).Nodup := by
    have := (sides_split_perm mid F).nodup hS.1
    exact (List.Sublist.flatMap List.filter_sublist (outerS mid)).nodup (List.Nodup.of_append_left this)
  have h2 : (bsides (splitT mid F)).Perm ((bsides F).flatMap (outerS mid)) := by
    rw [List.perm_ext_iff_of_nodup (bsides_nodup hS) h1]
    intro x
    rw [mem_bsides, split_boundary hF hm, List.mem_flatMap]
    simp only [mem_bsides]
  rw [h2.length_eq, List.length_flatMap]
  simp [outerS, mul_comm]

theorem split_edges (hne : F ≠ []) (hF : OrientedManifold F) (hT : NoTwin F) (hm : MidOk F n mid) : numEdges (splitT mid F) = 2 * numEdges F + 3 * F.length := by
  have hne' : splitT mid F ≠ [] := by
    intro h
    have := length_splitT mid F
    rw [h, List.length_nil] at this
    have h2 := List.length_pos_iff.mpr hne
    omega
  have a := numEdges_of_boundary hne hF (bsides_nodup hF) (fun e => mem_bsides)
  have b := numEdges_of_boundary hne' (split_manifold hF hm hT) (bsides_nodup (split_manifold hF hm hT)) (fun e => mem_bsides)
  rw [split_bsides hF hT hm, length_splitT] at b
  omega

/-- `x` is an old vertex for the vertex `a` of the split mesh -/
def OldFor (F : List Tri) (n : ℕ) (mid : Edge → ℕ) (a x : ℕ) : Prop := (a < n ∧ x = a) ∨ ∃ e ∈ sides F, mid e = a ∧ (x = e.s ∨ x = e.t)

theorem oldFor_same (hm : MidOk F n mid) {a x y : ℕ} (h : OldFor F n mid a x) (h' : OldFor F n mid a y) : MeshReach F x y := by
  rcases h with ⟨h1, rfl⟩ | ⟨e, he, rfl, hx⟩ <;> rcases h' with ⟨h1', rfl⟩ | ⟨e', he', h2, hy⟩
  · exact .refl
  · have := hm.ge e' he'; omega
  · have := hm.ge e he; omega
  · have hs := MeshReach.side he
    rcases (hm.inj _ he _ he').mp h2.symm with rfl | rfl
    · rcases hx with rfl | rfl <;> rcases hy with rfl | rfl
      exacts [.refl, hs, hs.symm, .refl]
    · rcases hx with rfl | rfl <;> rcases hy with rfl | rfl
      exacts [hs, .refl, .refl, hs.symm]

theorem tri_reach {t : Tri} (ht : t ∈ F) (i j : Fin 3) : MeshReach F (t.side i).s (t.side j).s := by
  have h0 : MeshReach F t.b t.c := MeshReach.side (side_mem_of ht 0)
  have h1 : MeshReach F t.c t.a := MeshReach.side (side_mem_of ht 1)
  have h2 : MeshReach F t.a t.b := MeshReach.side (side_mem_of ht 2)
  fin_cases i <;> fin_cases j
  exacts [.refl, h0, h0.trans h1, h0.symm, .refl, h1, h2, h1.symm, .refl]

theorem oldFor_side (hm : MidOk F n mid) {a b x y : ℕ} (hs : (⟨a, b⟩ : Edge) ∈ sides (splitT mid F)) (h : OldFor F n mid a x) (h' : OldFor F n mid b y) : MeshReach F x y := by
  rcases mem_sides_split.mp hs with ⟨e, he, hx⟩ | ⟨t, ht, hx⟩
  · have lt := sub_side_lt hm.lt he
    simp only [outerS, List.mem_cons, List.not_mem_nil, or_false, Edge.mk.injEq] at hx
    rcases hx with ⟨rfl, rfl⟩ | ⟨rfl, rfl⟩
    · exact (oldFor_same hm h (Or.inl ⟨lt.1, rfl⟩)).trans (oldFor_same hm (Or.inr ⟨e, he, rfl, Or.inl rfl⟩) h')
    · exact (oldFor_same hm h (Or.inr ⟨e, he, rfl, Or.inr rfl⟩)).trans (oldFor_same hm (Or.inl ⟨lt.2, rfl⟩) h')
  · obtain ⟨i, j, -, hij⟩ := mem_innerS.mp hx
    simp only [Edge.mk.injEq] at hij
    obtain ⟨rfl, rfl⟩ := hij
    exact ((oldFor_same hm h (Or.inr ⟨_, side_mem_of ht i, rfl, Or.inl rfl⟩)).trans (tri_reach ht i j)).trans (oldFor_same hm (Or.inr ⟨_, side_mem_of ht j, rfl, Or.inl rfl⟩) h')

theorem oldFor_exists (hm : MidOk F n mid) {a b : ℕ} (hs : (⟨a, b⟩ : Edge) ∈ sides (splitT mid F)) : (∃ x, OldFor F n mid a x) ∧ ∃ y, OldFor F n mid b y := by
  rcases mem_sides_split.mp hs with ⟨e, he, hx⟩ | ⟨t, ht, hx⟩
  · have lt := sub_side_lt hm.lt he
    simp only [outerS, List.mem_cons, List.not_mem_nil, or_false, Edge.mk.injEq] at hx
    rcases hx with ⟨rfl, rfl⟩ | ⟨rfl, rfl⟩
    · exact ⟨⟨_, Or.inl ⟨lt.1, rfl⟩⟩, ⟨_, Or.inr ⟨e, he, rfl, Or.inl rfl⟩⟩⟩
    · exact ⟨⟨_, Or.inr ⟨e, he, rfl, Or.inl rfl⟩⟩, ⟨_, Or.inl ⟨lt.2, rfl⟩⟩⟩
  · obtain ⟨i, j, -, hij⟩ := mem_innerS.mp hx
    simp only [Edge.mk.injEq] at hij
    obtain ⟨rfl, rfl⟩ := hij
    exact ⟨⟨_, Or.inr ⟨_, side_mem_of ht i, rfl, Or.inl rfl⟩⟩, ⟨_, Or.inr ⟨_, side_mem_of ht j, rfl, Or.inl rfl⟩⟩⟩

theorem split_reach_back (hm : MidOk F n mid) {a b : ℕ} (h : MeshReach (splitT mid F) a b) : ∀ x y, OldFor F n mid a x → OldFor F n mid b y → MeshReach F x y := by
  induction h with
  | refl => exact fun x y hx hy => oldFor_same hm hx hy
  | tail _ h ih =>
    intro x y hx hy
    rcases h with h | h
    · obtain ⟨z, hz⟩ := (oldFor_exists hm h).1
      exact (ih x z hx hz).trans (oldFor_side hm h hz hy)
    · obtain ⟨z, hz⟩ := (oldFor_exists hm h).2
      exact (ih x z hx hz).trans (oldFor_side hm h hy hz).symm

theorem split_mid_reach {e : Edge} (he : e ∈ sides F) : MeshReach (splitT mid F) e.s (mid e) ∧ MeshReach (splitT mid F) (mid e) e.t := by
  constructor
  · exact Relation.ReflTransGen.single (Or.inl (mem_sides_split.mpr (Or.inl ⟨e, he, by simp [outerS]⟩)))
  · exact Relation.ReflTransGen.single (Or.inl (mem_sides_split.mpr (Or.inl ⟨e, he, by simp [outerS]⟩)))

theorem split_reach (hm : MidOk F n mid) {i j : ℕ} (hi : i < n) (hj : j < n) : MeshReach (splitT mid F) i j ↔ MeshReach F i j := by
  constructor
  · exact fun h => split_reach_back hm h i j (Or.inl ⟨hi, rfl⟩) (Or.inl ⟨hj, rfl⟩)
  · intro h
    clear hi hj
    induction h with
    | refl => exact .refl
    | tail _ h ih =>
      rcases h with h | h
      · have := split_mid_reach (mid := mid) h
        exact ih.trans (this.1.trans this.2)
      · have := split_mid_reach (mid := mid) h
        exact ih.trans (this.1.trans this.2).symm

variable {K : Type} [Field K] {d : ℕ}

/-- one step -/
theorem upsample_topology (h2 : (2 : K) ≠ 0) (V : List (Fin d → K)) (F : List Tri) (hne : F ≠ []) (hF : OrientedManifold F) (hr : InRange F V.length) (hT : NoTwin F) :
    ∃ Vu Fu S he, upsampleTriangleMesh (some V) F = some (⟨some Vu, Fu, S⟩, he) ∧ Fu.length = 4 * F.length ∧ OrientedManifold Fu ∧ NoTwin Fu ∧ InRange Fu Vu.length ∧
      Vu.length = V.length + numEdges F ∧ numEdges Fu = 2 * numEdges F + 3 * F.length ∧ (bsides Fu).length = 2 * (bsides F).length ∧
      (∀ i j, i < V.length → j < V.length → (MeshReach Fu i j ↔ MeshReach F i j)) ∧ (∀ m, V.length ≤ m → m < Vu.length → ∃ i < V.length, MeshReach Fu i m) := by
  obtain ⟨Vu, Fu, S, he, hup, hl, hM, hNT, hR, -⟩ := upsample_step_aux h2 V F hne hF hr hT
  obtain ⟨Vu', Fu', S', he', hup', -, -, -, ⟨E, hE, hEl⟩, -⟩ := C18_upsample_step V F hne hF hr
  have e1 := hup'.symm.trans hup
  simp only [Option.some.injEq, Prod.mk.injEq, SubdivOut.mk.injEq] at e1
  obtain ⟨⟨rfl, -, -⟩, -⟩ := e1
  obtain ⟨N, S'', hN, hS, hup''⟩ := upsample_eq hne hF hr
  have e2 := hup''.symm.trans hup
  simp only [Option.some.injEq, Prod.mk.injEq, SubdivOut.mk.injEq] at e2
  obtain ⟨⟨hVu, rfl, -⟩, -⟩ := e2
  have hm := midOk (F := F) hr
  rw [isEdgeList_length hE] at hEl
  refine ⟨Vu', _, S, he, hup, hl, hM, hNT, hR, hEl, split_edges hne hF hT hm, split_bsides hF hT hm, fun i j hi hj => split_reach hm hi hj, fun m h1 h2 => ?_⟩
  have hEL : (EL F).length = numEdges F := by
    obtain ⟨N', hN', hl', -⟩ := midpoints_eq V (EL F) (fun e he => sub_side_lt hr (mem_EL_side he))
    rw [hN] at hN'
    cases hN'
    rw [← hVu, List.length_append, hl'] at hEl
    omega
  have hlt : m - V.length < (EL F).length := by omega
  have hm' : (EL F)[m - V.length] ∈ sides F := mem_EL_side (List.getElem_mem hlt)
  obtain ⟨x, hx, hu⟩ := eidx_get hm'
  have := EL_unique hx (List.getElem?_eq_getElem hlt) hu
  refine ⟨_, (sub_side_lt hr hm').1, ?_⟩
  have h3 := (split_mid_reach (mid := fun e => V.length + eidx F e) hm').1
  simp only [this] at h3
  rwa [show V.length + (m - V.length) = m by omega] at h3

/-- **C134** Upsampling any number of times keeps the Euler characteristic, the number of boundary sides is doubled by every step (so a closed mesh stays closed), vertices are connected
after it if and only if they were before, and every new vertex is connected to an old one (so the components are the same). -/
theorem C134_upsample_topology (h2 : (2 : K) ≠ 0) (V : List (Fin d → K)) (F : List Tri) (hne : F ≠ []) (hF : OrientedManifold F) (hr : InRange F V.length) (hT : NoTwin F) (k : ℕ) :
    ∃ Vu Fu S, subdivideUpsample k V F = some (Vu, Fu, S) ∧ OrientedManifold Fu ∧ InRange Fu Vu.length ∧
      (Vu.length : ℤ) - numEdges Fu + Fu.length = V.length - numEdges F + F.length ∧
      (∃ B B' : List Edge, B.Nodup ∧ B'.Nodup ∧ (∀ e, e ∈ B ↔ IsBoundarySide F e) ∧ (∀ e, e ∈ B' ↔ IsBoundarySide Fu e) ∧ B'.length = 2 ^ k * B.length) ∧
      (ClosedMesh F ↔ ClosedMesh Fu) ∧
      (∀ i j, i < V.length → j < V.length → (MeshReach Fu i j ↔ MeshReach F i j)) ∧ (∀ m < Vu.length, ∃ i < V.length, MeshReach Fu i m) := by
  have main : ∃ Vu Fu S, subdivideUpsample k V F = some (Vu, Fu, S) ∧ Fu ≠ [] ∧ OrientedManifold Fu ∧ InRange Fu Vu.length ∧ NoTwin Fu ∧ V.length ≤ Vu.length ∧
      (Vu.length : ℤ) - numEdges Fu + Fu.length = V.length - numEdges F + F.length ∧ (bsides Fu).length = 2 ^ k * (bsides F).length ∧
      (∀ i j, i < V.length → j < V.length → (MeshReach Fu i j ↔ MeshReach F i j)) ∧ (∀ m < Vu.length, ∃ i < V.length, MeshReach Fu i m) := by
    induction k with
    | zero => exact ⟨V, F, _, rfl, hne, hF, hr, hT, le_refl _, rfl, by simp, fun i j _ _ => Iff.rfl, fun m hm => ⟨m, hm, .refl⟩⟩
    | succ k ih =>
      obtain ⟨V1, F1, S1, a1, a2, a3, a4, a5, a6, a7, a8, a9, a10⟩ := ih
      obtain ⟨Vu, Fu, S, he, b1, b2, b3, b4, b5, b6, b7, b8, b9, b10⟩ := upsample_topology h2 V1 F1 a2 a3 a4 a5
      refine ⟨Vu, Fu, fun i j => ∑ l ∈ Finset.range S.ncols, S.get i l * S1 l j, ?_, ?_, b3, b5, b4, by omega, ?_, ?_, ?_, ?_⟩
      · rw [subdivideUpsample, a1, Option.bind_some]
        simp only
        rw [b1]
        rfl
      · intro h
        rw [h, List.length_nil] at b2
        have := List.length_pos_iff.mpr a2
        omega
      · rw [b7, b6, b2]; push_cast; linarith
      · rw [b8, a8, pow_succ]; ring
      · intro i j hi hj
        rw [b9 i j (by omega) (by omega), a9 i j hi hj]
      · intro m hm
        rcases lt_or_ge m V1.length with h | h
        · obtain ⟨i, hi, hr⟩ := a10 m h
          exact ⟨i, hi, (b9 i m (by omega) h).mpr hr⟩
        · obtain ⟨m', hm', hr'⟩ := b10 m h hm
          obtain ⟨i, hi, hr⟩ := a10 m' hm'
          exact ⟨i, hi, ((b9 i m' (by omega) hm').mpr hr).trans hr'⟩
  obtain ⟨Vu, Fu, S, a1, a2, a3, a4, a5, a6, a7, a8, a9, a10⟩ := main
  have hcl : ∀ G : List Tri, ClosedMesh G ↔ (bsides G).length = 0 := by
    intro G
    rw [List.length_eq_zero_iff, List.eq_nil_iff_forall_not_mem]
    simp only [mem_bsides, IsBoundarySide, not_and, not_not, ClosedMesh]
  refine ⟨Vu, Fu, S, a1, a3, a4, a7, ⟨bsides F, bsides Fu, bsides_nodup hF, bsides_nodup a3, fun e => mem_bsides, fun e => mem_bsides, a8⟩, ?_, a9, a10⟩
  rw [hcl, hcl, a8]
  simp

/-- a disc of two triangles: one after any number of steps, with `4 · 2^k` boundary sides -/
example (k : ℕ) : ∃ Vu Fu S, subdivideUpsample k ([![0, 0], ![4, 0], ![0, 4], ![4, 4]] : List (Fin 2 → ℚ)) [⟨0, 1, 2⟩, ⟨2, 1, 3⟩] = some (Vu, Fu, S) ∧
    (Vu.length : ℤ) - numEdges Fu + Fu.length = 1 := by
  obtain ⟨Vu, Fu, S, h1, -, -, h4, -⟩ := C134_upsample_topology (K := ℚ) (by norm_num) [![0, 0], ![4, 0], ![0, 4], ![4, 4]] [⟨0, 1, 2⟩, ⟨2, 1, 3⟩] (by simp) (by decide) (by decide) (by
    unfold NoTwin SameCorners
    simp only [List.pairwise_cons, List.mem_cons, List.not_mem_nil, or_false, forall_eq, false_implies, implies_true, List.Pairwise.nil, and_true]
    intro h
    have := h 0
    omega) k
  refine ⟨Vu, Fu, S, h1, ?_⟩
  rw [h4]
  have : numEdges [⟨0, 1, 2⟩, ⟨2, 1, 3⟩] = 5 := by decide +kernel
  rw [this]; norm_num

end Gpy
