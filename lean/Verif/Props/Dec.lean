import Verif.Proofs.Dec
import Mathlib.Logic.Relation
import Mathlib.Data.Rat.Defs

/-! Properties C07, C08: discrete exterior derivatives. `K` is any ring (the code uses floats). -/

namespace Gpy
open Np

variable {K : Type} [Ring K]

/-- The optional argument is omitted, or is the value a previous call of the library computed. -/
def OmittedOr {α : Type} (o : Option α) (v : α) : Prop := o = none ∨ o = some v

theorem decD0_none {F : List Tri} {out : HEMap} (h : halfedgeEdgeMap F = some out) {E : Option (List Edge)}
    (hE : OmittedOr E out.E) (n : Option ℕ) : decD0 K F E n = decD0 K F (some out.E) n := by
  rcases hE with rfl | rfl
  · unfold decD0; rw [h]; rfl
  · rfl

theorem decD1_none {F : List Tri} {out : HEMap} (h : halfedgeEdgeMap F = some out) {E : Option (List HE2)}
    (hE : OmittedOr E out.EToHe) : decD1 K F E = decD1 K F (some out.EToHe) := by
  rcases hE with rfl | rfl
  · unfold decD1; rw [h]; rfl
  · rfl

theorem decD0_n {F : List Tri} (hne : F ≠ []) {n : Option ℕ}
    (hn : ∀ k, n = some k → ∀ t ∈ F, t.a < k ∧ t.b < k ∧ t.c < k) (E : Option (List Edge)) :
    ∃ k, decD0 K F E n = decD0 K F E (some k) ∧ (∀ t ∈ F, t.a < k ∧ t.b < k ∧ t.c < k) ∧ (∀ j, n = some j → j = k) := by
  cases n with
  | some k => exact ⟨k, rfl, hn k rfl, fun j hj => by cases hj; rfl⟩
  | none =>
    obtain ⟨k, h1, h2⟩ := npMaxSucc_spec hne
    refine ⟨k, ?_, h2, fun j hj => by cases hj⟩
    unfold decD0; rw [h1]

/-- C07.  On a consistently oriented manifold mesh, with `E`, `E_to_he` and `n` omitted or precomputed, both matrices exist,
their shapes match, and every entry of `dec_d1(F) @ dec_d0(F)` is zero. -/
theorem C07_d1_d0_zero (F : List Tri) (hne : F ≠ []) (hF : OrientedManifold F) (out : HEMap)
    (hout : halfedgeEdgeMap F = some out) (E : Option (List Edge)) (hE : OmittedOr E out.E)
    (T : Option (List ((Int × Int) × (Int × Int)))) (hT : OmittedOr T out.EToHe)
    (n : Option ℕ) (hn : ∀ k, n = some k → ∀ t ∈ F, t.a < k ∧ t.b < k ∧ t.c < k) :
    ∃ D0 D1, decD0 K F E n = some D0 ∧ decD1 K F T = some D1 ∧ D1.nrows = F.length ∧ D1.ncols = out.E.length ∧
      D0.nrows = out.E.length ∧ ∀ i < D1.nrows, ∀ j < D0.ncols, D1.mulGet D0 i j = 0 := by
  have ho := hout
  rw [halfedgeEdgeMap_eq hne hF] at ho
  cases ho
  obtain ⟨k, h1, h2, _⟩ := decD0_n (K := K) hne hn E
  have hb : ∀ e ∈ EL F, e.s < k ∧ e.t < k := fun _ he => side_lt h2 (mem_EL_side he)
  obtain ⟨b0, b1⟩ := EToHeL_bounds hF
  refine ⟨_, _, by rw [h1, decD0_none hout hE, decD0_trip hb], by rw [decD1_none hout hT, decD1_trip F b0 b1], rfl,
    EToHeL_length F, rfl, ?_⟩
  intro i hi j _
  rw [mulGet_eq_mulVec]
  apply d1_d0_zero hF (fun v => if v = j then 1 else 0) _ i hi
  intro q e hq
  rw [← mulVec_single _ _ _ (d0_wf hb), d0_mulVec hb, hq]
  rfl

/-- C07, what `dec_d1` is: if `w` holds, for every row `k` of `E`, the value `om E[k]` of a function on directed edges that
changes sign with the direction, then `(dec_d1(F) @ w)[f]` is the sum of `om` over the three sides of triangle `f`
(so `dec_d1` is not, e.g., the zero matrix). -/
theorem C07_d1_is_circulation (F : List Tri) (hne : F ≠ []) (hF : OrientedManifold F) (out : HEMap)
    (hout : halfedgeEdgeMap F = some out) (T : Option (List ((Int × Int) × (Int × Int)))) (hT : OmittedOr T out.EToHe)
    (om : Edge → K) (hom : ∀ e, om e.flip = -om e) (w : ℕ → K) (hw : ∀ k e, out.E[k]? = some e → w k = om e) :
    ∃ D1, decD1 K F T = some D1 ∧ D1.nrows = F.length ∧ D1.ncols = out.E.length ∧
      ∀ f t, F[f]? = some t → D1.mulVec w f = om (t.side 0) + om (t.side 1) + om (t.side 2) := by
  have ho := hout
  rw [halfedgeEdgeMap_eq hne hF] at ho
  cases ho
  obtain ⟨b0, b1⟩ := EToHeL_bounds hF
  refine ⟨_, by rw [decD1_none hout hT, decD1_trip F b0 b1], rfl, EToHeL_length F, ?_⟩
  intro f t hf
  obtain ⟨h, rfl⟩ := List.getElem?_eq_some_iff.mp hf
  exact d1_circulation hF om hom hw h

/-- Vertices `i` and `j` are connected by a path of triangle sides. -/
def Connected (F : List Tri) (i j : ℕ) : Prop := Relation.EqvGen (fun a b => (⟨a, b⟩ : Edge) ∈ sides F) i j

/-- C08.  `(dec_d0(F) @ u)[e] = u[E[e,0]] - u[E[e,1]]`, and `dec_d0(F) @ u` vanishes iff `u` is constant on connected
components. -/
theorem C08_d0_differences (F : List Tri) (hne : F ≠ []) (hF : OrientedManifold F) (out : HEMap)
    (hout : halfedgeEdgeMap F = some out) (E : Option (List Edge)) (hE : OmittedOr E out.E)
    (n : Option ℕ) (hn : ∀ k, n = some k → ∀ t ∈ F, t.a < k ∧ t.b < k ∧ t.c < k) (u : ℕ → K) :
    ∃ D0, decD0 K F E n = some D0 ∧ D0.nrows = out.E.length ∧ (∀ k, n = some k → D0.ncols = k) ∧
      (∀ k e, out.E[k]? = some e → D0.mulVec u k = u e.s - u e.t) ∧
      ((∀ k < D0.nrows, D0.mulVec u k = 0) ↔ ∀ i j, Connected F i j → u i = u j) := by
  have ho := hout
  rw [halfedgeEdgeMap_eq hne hF] at ho
  cases ho
  obtain ⟨k, h1, h2, h3⟩ := decD0_n (K := K) hne hn E
  have hb : ∀ e ∈ EL F, e.s < k ∧ e.t < k := fun _ he => side_lt h2 (mem_EL_side he)
  have hm : ∀ k' e, (EL F)[k']? = some e → (⟨(EL F).length, k, (EL F).zipIdx.map (fun p => (p.2, p.1.s, (1 : K))) ++
      (EL F).zipIdx.map (fun p => (p.2, p.1.t, (-1 : K)))⟩ : Csr K).mulVec u k' = u e.s - u e.t := by
    intro k' e hk
    rw [d0_mulVec hb, hk]; rfl
  refine ⟨_, by rw [h1, decD0_none hout hE, decD0_trip hb], rfl, fun j hj => (h3 j hj).symm, hm, ?_⟩
  constructor
  · intro h i j hc
    induction hc with
    | rel x y hxy =>
      obtain ⟨e, he, hu⟩ := exists_EL hxy
      obtain ⟨q, hq⟩ := List.mem_iff_getElem?.mp he
      have := h q (List.getElem?_eq_some_iff.mp hq).1
      rw [hm q e hq, sub_eq_zero] at this
      rcases hu with h' | h' <;> (rw [Edge.eq_iff] at h'; simp at h'; rw [h'.1, h'.2, this])
    | refl x => rfl
    | symm x y _ ih => exact ih.symm
    | trans x y z _ _ ih1 ih2 => exact ih1.trans ih2
  · intro h q hq
    rw [hm q _ (List.getElem?_eq_getElem hq), sub_eq_zero]
    exact h _ _ (Relation.EqvGen.rel _ _ (mem_EL_side (List.getElem_mem hq)))

/-- C08, `E` given by the caller: any edge list with in-range vertices. -/
theorem C08_d0_differences_given_edges (F : List Tri) (E : List Edge) (n : ℕ) (hE : ∀ e ∈ E, e.s < n ∧ e.t < n)
    (u : ℕ → K) :
    ∃ D0, decD0 K F (some E) (some n) = some D0 ∧ D0.nrows = E.length ∧ D0.ncols = n ∧
      ∀ k e, E[k]? = some e → D0.mulVec u k = u e.s - u e.t := by
  refine ⟨_, decD0_trip hE F, rfl, rfl, ?_⟩
  intro k e hk
  rw [d0_mulVec hE, hk]; rfl

/-- the hypotheses of C07/C08 hold for two triangles glued along an edge, with precomputed `E` and default `n` -/
example : ∃ out, halfedgeEdgeMap [⟨0, 1, 2⟩, ⟨2, 1, 3⟩] = some out ∧ OrientedManifold [⟨0, 1, 2⟩, ⟨2, 1, 3⟩] ∧
    (decD0 ℚ [⟨0, 1, 2⟩, ⟨2, 1, 3⟩] (some out.E) none).isSome :=
  ⟨_, halfedgeEdgeMap_eq (by decide) (by decide), by decide, by decide +kernel⟩

end Gpy
