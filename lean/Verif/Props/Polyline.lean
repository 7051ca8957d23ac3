import Verif.Model.Extrinsic
import Verif.Props.Mass
import Mathlib.Analysis.Convex.Combination
import Mathlib.Algebra.BigOperators.Field

/-! C88: polylines (mass matrix, gradient, lengths) and barycenters. -/

set_option autoImplicit false
namespace Gpy
open Np Finset

variable {d : ℕ}

/-- Specification: the length of the edge `e`. -/
noncomputable def edgeLen (V : List (Pt d)) (e : ℕ × ℕ) : ℝ := pnorm (V.getD e.2 0 - V.getD e.1 0)

/-- Specification: all end points exist. -/
def EdgesIn (E : List (ℕ × ℕ)) (n : ℕ) : Prop := ∀ e ∈ E, e.1 < n ∧ e.2 < n

theorem edgeLengthsOf_eq {V : List (Pt d)} {E : List (ℕ × ℕ)} (hE : EdgesIn E V.length) : edgeLengthsOf V E = some (E.map (edgeLen V)) := by
  unfold edgeLengthsOf
  have hg : ∀ i, i < V.length → V[i]? = some (V.getD i 0) := fun i hi => by
    rw [List.getD_eq_getElem?_getD, List.getElem?_eq_getElem hi]; rfl
  induction E with
  | nil => rfl
  | cons e E ih =>
    obtain ⟨h1, h2⟩ := hE e (by simp)
    rw [List.mapM_cons, ih (fun x hx => hE x (by simp [hx])), hg _ h1, hg _ h2]
    rfl

theorem edgeLen_nonneg (V : List (Pt d)) (e : ℕ × ℕ) : 0 ≤ edgeLen V e := Real.sqrt_nonneg _

theorem openEdges_eq (n : ℕ) : openEdges n = (List.range (n - 1)).map (fun i => (i, i + 1)) := by
  unfold openEdges
  apply List.ext_getElem
  · simp
  · intro i _ _; simp

theorem openEdges_in (n : ℕ) : EdgesIn (openEdges n) n := by
  intro e he
  rw [openEdges_eq] at he
  obtain ⟨i, hi, rfl⟩ := List.mem_map.mp he
  have := List.mem_range.mp hi
  exact ⟨by simp only; omega, by simp only; omega⟩

/-- **C88** `doublearea` of a polyline: twice the length of every edge (with no edge list: of the consecutive pairs of vertices). -/
theorem C88_lengths {V : List (Pt d)} {E : List (ℕ × ℕ)} (hE : EdgesIn E V.length) :
    doubleareaPolyline V (some E) = some (E.map (fun e => 2 * edgeLen V e)) ∧
    doubleareaPolyline V none = some ((List.range (V.length - 1)).map (fun i => 2 * edgeLen V (i, i + 1))) := by
  constructor
  · unfold doubleareaPolyline
    simp only [Option.getD_some]
    rw [edgeLengthsOf_eq hE]
    simp only [Option.bind_eq_bind, Option.bind_some, List.map_map]
    rfl
  · unfold doubleareaPolyline
    simp only [Option.getD_none]
    rw [edgeLengthsOf_eq (openEdges_in _), openEdges_eq]
    simp only [Option.bind_eq_bind, Option.bind_some, List.map_map]
    rfl

/-- **C88** the mass matrix of a polyline: diagonal, the entry of a vertex is half of the total length of the edges at it (an edge from the vertex to itself has length zero), and the entries add up to the total length. -/
theorem C88_mass {V : List (Pt d)} {E : List (ℕ × ℕ)} (hE : EdgesIn E V.length) :
    ∃ M, massmatrixPolyline V (some E) = some M ∧ M.nrows = V.length ∧ M.ncols = V.length ∧
      (∀ i j, i ≠ j → M.get i j = 0) ∧ (∀ i j, 0 ≤ M.get i j) ∧
      (∀ i, M.get i i = ((E.filter (fun e => e.1 = i ∨ e.2 = i)).map (fun e => edgeLen V e / 2)).sum) ∧
      ∑ i ∈ range V.length, ∑ j ∈ range V.length, M.get i j = (E.map (edgeLen V)).sum := by
  have hI : ∀ i ∈ E.map (·.1) ++ E.map (·.2), i < V.length := by
    intro i hi
    rw [List.mem_append, List.mem_map, List.mem_map] at hi
    rcases hi with ⟨e, he, rfl⟩ | ⟨e, he, rfl⟩
    · exact (hE e he).1
    · exact (hE e he).2
  have ht : zip3 (E.map (·.1) ++ E.map (·.2)) (E.map (·.1) ++ E.map (·.2)) ((E.map (edgeLen V) ++ E.map (edgeLen V)).map (· / 2)) =
      E.map (fun e => (e.1, e.1, edgeLen V e / 2)) ++ E.map (fun e => (e.2, e.2, edgeLen V e / 2)) := by
    rw [List.map_append, List.map_map, zip3_append (by simp) (by simp), zip3_map, zip3_map]
    rfl
  have hM : massmatrixPolyline V (some E) = some ⟨V.length, V.length, E.map (fun e => (e.1, e.1, edgeLen V e / 2)) ++ E.map (fun e => (e.2, e.2, edgeLen V e / 2))⟩ := by
    unfold massmatrixPolyline
    simp only [Option.getD_some]
    rw [edgeLengthsOf_eq hE]
    simp only [Option.bind_eq_bind, Option.bind_some]
    unfold csrMatrix
    rw [if_pos ⟨by simp, by simp, hI, hI⟩, ht]
  have hwf : (⟨V.length, V.length, E.map (fun e => (e.1, e.1, edgeLen V e / 2)) ++ E.map (fun e => (e.2, e.2, edgeLen V e / 2))⟩ : Csr ℝ).WF := by
    intro t ht
    simp only [List.mem_append, List.mem_map] at ht
    rcases ht with ⟨e, he, rfl⟩ | ⟨e, he, rfl⟩
    · exact ⟨(hE e he).1, (hE e he).1⟩
    · exact ⟨(hE e he).2, (hE e he).2⟩
  refine ⟨_, hM, rfl, rfl, fun i j hij => ?_, ?_, fun i => ?_, ?_⟩
  · apply get_offdiag _ _ hij
    intro t ht
    simp only [List.mem_append, List.mem_map] at ht
    rcases ht with ⟨e, he, rfl⟩ | ⟨e, he, rfl⟩ <;> rfl
  · apply get_nonneg
    intro t ht
    simp only [List.mem_append, List.mem_map] at ht
    rcases ht with ⟨e, he, rfl⟩ | ⟨e, he, rfl⟩ <;> exact div_nonneg (edgeLen_nonneg V e) (by norm_num)
  · unfold Csr.get
    simp only [List.map_append, List.map_map, List.sum_append]
    clear hE hI ht hM hwf
    induction E with
    | nil => simp
    | cons e E ih =>
      rw [List.map_cons, List.map_cons, List.sum_cons, List.sum_cons, List.filter_cons]
      simp only [Function.comp, and_self] at ih ⊢
      by_cases h1 : e.1 = i
      · by_cases h2 : e.2 = i
        · rw [if_pos h1, if_pos h2, if_pos (by simp [h1]), List.map_cons, List.sum_cons, ← ih]
          have : edgeLen V e = 0 := by simp [edgeLen, h1, h2, pnorm, psq]
          rw [this]; ring
        · rw [if_pos h1, if_neg h2, if_pos (by simp [h1]), List.map_cons, List.sum_cons, ← ih]; ring
      · by_cases h2 : e.2 = i
        · rw [if_neg h1, if_pos h2, if_pos (by simp [h2]), List.map_cons, List.sum_cons, ← ih]; ring
        · rw [if_neg h1, if_neg h2, if_neg (by simp [h1, h2]), ← ih]; ring
  · have := total_eq _ hwf
    simp only at this
    rw [this]
    simp only [List.map_append, List.map_map, List.sum_append, Function.comp_def]
    rw [← List.sum_map_add]
    congr 1
    apply List.map_congr_left
    intro e _
    ring

theorem gradPolyline_eq {V : List (Pt d)} {E : List (ℕ × ℕ)} (hE : EdgesIn E V.length) (hl : ∀ e ∈ E, edgeLen V e ≠ 0) :
    ∃ G, gradPolyline V (some E) = some G ∧ G.nrows = E.length ∧ G.ncols = V.length ∧ ∀ (u : ℕ → ℝ) (k : ℕ) (e : ℕ × ℕ), E[k]? = some e → G.mulVec u k = (u e.2 - u e.1) / edgeLen V e := by
  have hI : ∀ i ∈ List.range E.length ++ List.range E.length, i < E.length := by simp
  have hJ : ∀ i ∈ E.map (·.1) ++ E.map (·.2), i < V.length := by
    intro i hi
    rw [List.mem_append, List.mem_map, List.mem_map] at hi
    rcases hi with ⟨e, he, rfl⟩ | ⟨e, he, rfl⟩
    · exact (hE e he).1
    · exact (hE e he).2
  have hl' : ∀ x ∈ E.map (edgeLen V), x ≠ 0 := by
    intro x hx
    obtain ⟨e, he, rfl⟩ := List.mem_map.mp hx
    exact hl e he
  have hG : gradPolyline V (some E) = csrMatrix (((E.map (edgeLen V)).map (1 / ·)).map (- ·) ++ (E.map (edgeLen V)).map (1 / ·))
      (List.range E.length ++ List.range E.length) (E.map (·.1) ++ E.map (·.2)) E.length V.length := by
    unfold gradPolyline
    simp only [Option.getD_some]
    rw [edgeLengthsOf_eq hE]
    simp only [Option.bind_eq_bind, Option.bind_some]
    rw [if_pos hl']
  obtain ⟨G, eG⟩ : ∃ G, csrMatrix (((E.map (edgeLen V)).map (1 / ·)).map (- ·) ++ (E.map (edgeLen V)).map (1 / ·))
      (List.range E.length ++ List.range E.length) (E.map (·.1) ++ E.map (·.2)) E.length V.length = some G := by
    unfold csrMatrix
    rw [if_pos ⟨by simp, by simp, hI, hJ⟩]
    exact ⟨_, rfl⟩
  obtain ⟨hwf, hr, hc, htr⟩ := csrMatrix_wf eG
  refine ⟨G, hG.trans eG, hr, hc, fun u k e hk => ?_⟩
  rw [mulVec_eq _ hwf, htr, zip3_append (by simp) (by simp), List.map_append, List.sum_append]
  have hkl : k < E.length := (List.getElem?_eq_some_iff.mp hk).1
  have hke : E[k] = e := (List.getElem?_eq_some_iff.mp hk).2
  have hz : ∀ (f : ℕ × ℕ → ℕ) (g : ℕ × ℕ → ℝ), ((zip3 (List.range E.length) (E.map f) (E.map g)).map (fun t => if t.1 = k then t.2.2 * u t.2.1 else 0)).sum = g e * u (f e) := by
    intro f g
    have h1 : zip3 (List.range E.length) (E.map f) (E.map g) = (List.range E.length).map (fun i => (i, f (E.getD i (0, 0)), g (E.getD i (0, 0)))) := by
      unfold zip3
      apply List.ext_getElem
      · simp
      · intro i h1 h2
        simp at h1
        simp [h1]
    rw [h1, List.map_map]
    simp only [Function.comp_def]
    rw [← List.sum_toFinset _ List.nodup_range, List.toFinset_range, Finset.sum_ite_eq' (range E.length) k, if_pos (mem_range.mpr hkl)]
    rw [List.getD_eq_getElem?_getD, hk]
    rfl
  simp only [List.map_map]
  rw [hz (·.1) ((fun x => -x) ∘ (1 / ·) ∘ edgeLen V), hz (·.2) ((1 / ·) ∘ edgeLen V)]
  simp only [Function.comp]
  ring

/-- **C88** the gradient of a polyline takes the difference quotient along every edge; of an affine function `x ↦ ⟨a,x⟩ + c` that is the component of `a` along the edge. -/
theorem C88_grad {V : List (Pt d)} {E : List (ℕ × ℕ)} (hE : EdgesIn E V.length) (hl : ∀ e ∈ E, V.getD e.1 0 ≠ V.getD e.2 0) :
    ∃ G, gradPolyline V (some E) = some G ∧ G.nrows = E.length ∧ G.ncols = V.length ∧
      (∀ (u : ℕ → ℝ) (k : ℕ) (e : ℕ × ℕ), E[k]? = some e → G.mulVec u k = (u e.2 - u e.1) / edgeLen V e) ∧
      ∀ (a : Pt d) (c : ℝ) (k : ℕ) (e : ℕ × ℕ), E[k]? = some e →
        G.mulVec (fun i => pdot a (V.getD i 0) + c) k = pdot a (fun j => (V.getD e.2 0 - V.getD e.1 0) j / edgeLen V e) := by
  have hl' : ∀ e ∈ E, edgeLen V e ≠ 0 := by
    intro e he h0
    apply hl e he
    unfold edgeLen pnorm at h0
    have hs : psq (V.getD e.2 0 - V.getD e.1 0) = 0 := by
      exact (Real.sqrt_eq_zero (Finset.sum_nonneg (fun i _ => sq_nonneg _))).mp h0
    unfold psq at hs
    rw [Finset.sum_eq_zero_iff_of_nonneg (fun i _ => sq_nonneg _)] at hs
    funext j
    have := hs j (Finset.mem_univ j)
    rw [sq_eq_zero_iff, Pi.sub_apply] at this
    linarith
  obtain ⟨G, e1, e2, e3, h⟩ := gradPolyline_eq hE hl'
  refine ⟨G, e1, e2, e3, h, fun a c k e hk => ?_⟩
  rw [h _ k e hk]
  unfold pdot
  rw [show (∑ i, a i * V.getD e.2 0 i + c - (∑ i, a i * V.getD e.1 0 i + c)) = ∑ i, a i * V.getD e.2 0 i - ∑ i, a i * V.getD e.1 0 i by ring,
    ← Finset.sum_sub_distrib, Finset.sum_div]
  refine Finset.sum_congr rfl (fun i _ => ?_)
  simp only [Pi.sub_apply]
  ring

/-- **C88** without an edge list the vertices are joined in order, and integrating the gradient along the polyline gives the difference of the end values. -/
theorem C88_integral {V : List (Pt d)} (hl : ∀ i, i + 1 < V.length → V.getD i 0 ≠ V.getD (i + 1) 0) :
    ∃ G, gradPolyline V none = some G ∧ G.nrows = V.length - 1 ∧ G.ncols = V.length ∧
      ∀ u : ℕ → ℝ, ∑ k ∈ range (V.length - 1), edgeLen V (k, k + 1) * G.mulVec u k = u (V.length - 1) - u 0 := by
  have hne : ∀ e ∈ openEdges V.length, V.getD e.1 0 ≠ V.getD e.2 0 := by
    intro e he
    rw [openEdges_eq] at he
    obtain ⟨i, hi, rfl⟩ := List.mem_map.mp he
    have := List.mem_range.mp hi
    exact hl i (by omega)
  obtain ⟨G, e1, e2, e3, h, _⟩ := C88_grad (openEdges_in V.length) hne
  refine ⟨G, e1, by rw [e2, openEdges_eq]; simp, e3, fun u => ?_⟩
  rw [← Finset.sum_range_sub u (V.length - 1)]
  refine Finset.sum_congr rfl (fun k hk => ?_)
  have hk := Finset.mem_range.mp hk
  have hke : (openEdges V.length)[k]? = some (k, k + 1) := by
    rw [openEdges_eq, List.getElem?_map, List.getElem?_range hk]; rfl
  rw [h u k _ hke]
  have h0 : edgeLen V (k, k + 1) ≠ 0 := by
    intro h0
    apply hl k (by omega)
    unfold edgeLen pnorm at h0
    have hs : psq (V.getD (k + 1) 0 - V.getD k 0) = 0 := by
      exact (Real.sqrt_eq_zero (Finset.sum_nonneg (fun i _ => sq_nonneg _))).mp h0
    unfold psq at hs
    rw [Finset.sum_eq_zero_iff_of_nonneg (fun i _ => sq_nonneg _)] at hs
    funext j
    have := hs j (Finset.mem_univ j)
    rw [sq_eq_zero_iff, Pi.sub_apply] at this
    linarith
  field_simp

theorem foldl_add_pt (l : List (Pt d)) : ∀ x : Pt d, l.foldl (· + ·) x = x + l.sum := by
  induction l with
  | nil => simp
  | cons a l ih => intro x; rw [List.foldl_cons, ih, List.sum_cons, add_assoc]

/-- **C88** the barycenter of an element is the mean of its corners; an index out of range is an error. -/
theorem C88_barycenters {V : List (Pt d)} {F : List (List ℕ)} (hF : ∀ f ∈ F, ∀ i ∈ f, i < V.length) :
    barycenters V F = some (F.map (fun f => ((f.length : ℝ)⁻¹ • (f.map (fun i => V.getD i 0)).sum : Pt d))) := by
  have hg : ∀ i, i < V.length → V[i]? = some (V.getD i 0) := fun i hi => by
    rw [List.getD_eq_getElem?_getD, List.getElem?_eq_getElem hi]; rfl
  have hr : ∀ f ∈ F, barycenterRow V f = some ((f.length : ℝ)⁻¹ • (f.map (fun i => V.getD i 0)).sum : Pt d) := by
    intro f hf
    have hm : f.mapM (fun i => V[i]?) = some (f.map (fun i => V.getD i 0)) := by
      have := hF f hf
      clear hf
      induction f with
      | nil => rfl
      | cons i f ih =>
        rw [List.mapM_cons, hg i (this i (by simp)), ih (fun j hj => this j (by simp [hj]))]
        rfl
    unfold barycenterRow
    rw [hm]
    simp only [Option.bind_eq_bind, Option.bind_some, foldl_add_pt, zero_add]
    congr 1
    funext j
    rw [Pi.smul_apply, smul_eq_mul, div_eq_inv_mul]
  unfold barycenters
  clear hF
  induction F with
  | nil => rfl
  | cons f F ih =>
    rw [List.mapM_cons, hr f (by simp), ih (fun x hx => hr x (by simp [hx]))]
    rfl

/-- **C88** the barycenter lies in the convex hull of the corners. -/
theorem C88_barycenter_hull (V : List (Pt d)) (f : List ℕ) (hf : f ≠ []) :
    ((f.length : ℝ)⁻¹ • (f.map (fun i => V.getD i 0)).sum : Pt d) ∈ convexHull ℝ {p | ∃ i ∈ f, p = V.getD i 0} := by
  have hl : (0 : ℝ) < f.length := by exact_mod_cast List.length_pos_iff.mpr hf
  have hs : (f.map (fun i => V.getD i 0)).sum = ∑ k : Fin f.length, V.getD (f[k.val]) 0 := by
    rw [← List.sum_ofFn]
    congr 1
    apply List.ext_getElem
    · simp
    · intro i _ _; simp
  rw [hs, Finset.smul_sum]
  apply (convex_convexHull ℝ _).sum_mem (fun i _ => by positivity)
  · rw [Finset.sum_const, Finset.card_univ, Fintype.card_fin, nsmul_eq_mul]
    field_simp
  · intro k _
    exact subset_convexHull ℝ _ ⟨_, List.getElem_mem k.isLt, rfl⟩

/-- a corner of three points: total mass `7`, middle entry `7/2` -/
example : ∃ M, massmatrixPolyline (d := 2) [![0, 0], ![3, 0], ![3, 4]] (some [(0, 1), (1, 2)]) = some M ∧ M.get 1 1 = 7 / 2 ∧ M.get 0 0 = 3 / 2 := by
  obtain ⟨M, e, _, _, _, _, h, _⟩ := C88_mass (d := 2) (V := [![0, 0], ![3, 0], ![3, 4]]) (E := [(0, 1), (1, 2)]) (by intro e he; simp at he; rcases he with rfl | rfl <;> simp)
  have h1 : edgeLen (d := 2) [![0, 0], ![3, 0], ![3, 4]] (0, 1) = 3 := by
    simp only [edgeLen, pnorm, psq, Fin.sum_univ_two]
    rw [Real.sqrt_eq_iff_mul_self_eq (by positivity) (by norm_num)]
    norm_num
  have h2 : edgeLen (d := 2) [![0, 0], ![3, 0], ![3, 4]] (1, 2) = 4 := by
    simp only [edgeLen, pnorm, psq, Fin.sum_univ_two]
    rw [Real.sqrt_eq_iff_mul_self_eq (by positivity) (by norm_num)]
    norm_num
  refine ⟨M, e, ?_, ?_⟩
  · rw [h 1]
    simp [h1, h2]; norm_num
  · rw [h 0]
    simp [h1]

end Gpy
