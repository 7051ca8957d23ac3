import Verif.Proofs.ClosestPoint
import Verif.Props.Aabb

/-! Property C25: `squared_distance` with and without the tree. -/

set_option autoImplicit false
namespace Gpy
open Np
variable {d : ℕ}

/-- C25.  On every valid tree the traversal of `squared_distance(...,use_aabb=True)` stops, and returns an element index, its
element distance and its barycentric weights, such that no element has a smaller element distance. -/
theorem C25_aabb_minimum [NeZero d] (p : Pt d) (V : List (Pt d)) (F : List (List ℕ)) (T : List (AabbNode d)) (hF : ElemsOk V F)
    (hT : ValidTree V F T) (hS : SplitOk T) :
    ∃ (N : ℕ) (s : CpState), (∀ fuel, N ≤ fuel → squaredDistanceAabb p V F T fuel = some s) ∧
      ∃ (e : ℕ) (es : List ℕ) (r : ℝ × List ℝ), F[e]? = some es ∧ squaredDistanceToElement p V es = some r ∧
        s.elem = e ∧ s.best = (r.1 : WithTop ℝ) ∧ s.lmb = r.2 ∧
        ∀ es' ∈ F, ∀ r', squaredDistanceToElement p V es' = some r' → r.1 ≤ r'.1 := by
  obtain ⟨L, hc, hL⟩ := hT
  obtain ⟨s, h1, h2, h3⟩ := cp_traverse (p := p) hF hS hc (fun e he => (hL e).mp he)
  refine ⟨_, s, h1, ?_⟩
  obtain ⟨e0, he0⟩ := List.exists_mem_of_ne_nil _ hc.ne_nil
  rcases h2 with ⟨h2, _⟩ | ⟨e, es, r, a1, a2, a3, a4, a5⟩
  · exfalso
    obtain ⟨es, r, e1, e2, e3⟩ := elemVal_some (p := p) hF ((hL e0).mp he0)
    have := h3 e0 he0
    rw [h2, e3] at this
    simp at this
  · refine ⟨e, es, r, a2, a3, a1, a4, a5, ?_⟩
    intro es' hes' r' hr'
    obtain ⟨e', he'⟩ := List.getElem?_of_mem hes'
    have hlt : e' < F.length := (List.getElem?_eq_some_iff.mp he').1
    have := h3 e' ((hL e').mpr hlt)
    rw [a4] at this
    unfold elemVal at this
    rw [he'] at this
    simp only [hr'] at this
    exact WithTop.coe_le_coe.mp this

/-- C25, the loop over all elements (`use_aabb=False`). -/
theorem C25_brute_minimum (p : Pt d) (V : List (Pt d)) (F : List (List ℕ)) (hne : F ≠ []) (hF : ElemsOk V F) :
    ∃ out, squaredDistanceBrute p V F = some out ∧
      ∃ (e : ℕ) (es : List ℕ) (r : ℝ × List ℝ), F[e]? = some es ∧ squaredDistanceToElement p V es = some r ∧
        out = ((r.1 : WithTop ℝ), (e : Int), r.2) ∧
        ∀ es' ∈ F, ∀ r', squaredDistanceToElement p V es' = some r' → r.1 ≤ r'.1 := by
  obtain ⟨out, h1, _, h3, h4⟩ := brute_spec (p := p) F 0 (⊤, -1, []) hF
  refine ⟨out, h1, ?_⟩
  rcases h4 with h4 | ⟨e, es, r, a1, a2, a3, a4, a5⟩
  · exfalso
    obtain ⟨es, r, e1, e2, e3⟩ := elemVal_some (p := p) hF (List.length_pos_iff.mpr hne)
    have := h3 0 (List.length_pos_iff.mpr hne)
    rw [h4, e3] at this
    simp at this
  · refine ⟨e, es, r, a2, a3, by ext1; exact a4; ext1; simpa using a1; exact a5, ?_⟩
    intro es' hes' r' hr'
    obtain ⟨e', he'⟩ := List.getElem?_of_mem hes'
    have := h3 e' (List.getElem?_eq_some_iff.mp he').1
    rw [a4] at this
    unfold elemVal at this
    rw [he'] at this
    simp only [hr'] at this
    exact WithTop.coe_le_coe.mp this

/-- C25, both together, on the tree that `squared_distance` builds itself: for every mesh of points, segments or nondegenerate
triangles the accelerated and the exhaustive search return the same distance. -/
theorem C25_aabb_equals_brute [NeZero d] (argsort : List ℝ → List ℕ) (hA : IsArgsort argsort) (p : Pt d) (V : List (Pt d))
    (F : List (List ℕ)) (hne : F ≠ []) (hF : ElemsOk V F) :
    ∃ (T : List (AabbNode d)) (N : ℕ) (s : CpState) (out : WithTop ℝ × Int × List ℝ),
      (∀ fuel, N ≤ fuel → initializeAabbtree argsort V F none none fuel = some T) ∧
      (∀ fuel, N ≤ fuel → squaredDistanceAabb p V F T fuel = some s) ∧
      squaredDistanceBrute p V F = some out ∧ s.best = out.1 ∧ s.best ≠ ⊤ := by
  have hR : ElemsInRange F V.length := by
    intro es hes i hi
    obtain ⟨X, h1, _⟩ := hF es hes
    have key : ∀ (l : List ℕ) (X : List (Pt d)), l.mapM (fun i => V[i]?) = some X → ∀ i ∈ l, i < V.length := by
      intro l
      induction l with
      | nil => simp
      | cons a t ih =>
        intro X h i hi
        cases X with
        | nil => have := mapM_nil_inv h; simp at this
        | cons x X =>
          obtain ⟨a', t', h0, h1, h2⟩ := mapM_cons_inv h
          cases h0
          rcases List.mem_cons.mp hi with rfl | hi
          · exact (List.getElem?_eq_some_iff.mp h1).1
          · exact ih X h2 i hi
    exact key es X h1 i hi
  have hV : V ≠ [] := by
    obtain ⟨es, hes⟩ := List.exists_mem_of_ne_nil _ hne
    obtain ⟨X, h1, h2⟩ := hF es hes
    have : es ≠ [] := by rintro rfl; simp at h1; subst h1; cases h2
    obtain ⟨i, hi⟩ := List.exists_mem_of_ne_nil _ this
    have := hR es hes i hi
    intro h; rw [h] at this; simp at this
  obtain ⟨T, t1, _, ⟨L, t2, t3⟩, _, _, t4, _⟩ := C24_aabbtree argsort hA V F none none hV hne hR
    ⟨fun v h => by simp at h, fun v h => by simp at h⟩
  obtain ⟨N, s, s1, e, es, r, s2, s3, s4, s5, s6, s7⟩ := C25_aabb_minimum p V F T hF
    ⟨L, t2, fun e => by rw [t3.mem_iff, List.mem_range]⟩ t4
  obtain ⟨out, o1, e', es', r', o2, o3, o4, o5⟩ := C25_brute_minimum p V F hne hF
  refine ⟨T, max N (2 * F.length), s, out, fun fuel hf => t1 fuel (le_trans (le_max_right _ _) hf),
    fun fuel hf => s1 fuel (le_trans (le_max_left _ _) hf), o1, ?_, ?_⟩
  · rw [s5, o4]
    show (r.1 : WithTop ℝ) = r'.1
    have h1 := s7 es' (List.mem_of_getElem? o2) r' o3
    have h2 := o5 es (List.mem_of_getElem? s2) r s3
    rw [le_antisymm h1 h2]
  · rw [s5]; simp

/-- two segments of a plane polyline meet the hypotheses -/
example : ElemsOk ([![0, 0], ![1, 0], ![1, 2]] : List (Pt 2)) [[0, 1], [1, 2]] := by
  intro es hes
  simp at hes
  rcases hes with rfl | rfl
  · exact ⟨[![0, 0], ![1, 0]], rfl, .segment _ _⟩
  · exact ⟨[![1, 0], ![1, 2]], rfl, .segment _ _⟩

end Gpy
