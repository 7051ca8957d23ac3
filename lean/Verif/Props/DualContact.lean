import Verif.Props.DualAssign
import Mathlib.Analysis.Convex.StdSimplex
import Mathlib.Topology.Order.Compact

/-!
# C126: the hypotheses can be met; spheres are given anew in every outer iteration
-/

set_option autoImplicit false
namespace Gpy.Dual

noncomputable section
open Classical

/-! ### a closest point query exists -/

theorem inTri_compact (T : Pt 3 × Pt 3 × Pt 3) : IsCompact {y | InTri T y} := by
  have e : {y | InTri T y} = (fun w : Fin 3 → ℝ => w 0 • T.1 + w 1 • T.2.1 + w 2 • T.2.2) '' stdSimplex ℝ (Fin 3) := by
    ext y
    constructor
    · rintro ⟨a, b, c, ha, hb, hc, hs, rfl⟩
      refine ⟨![a, b, c], ⟨fun i => by fin_cases i <;> assumption, ?_⟩, rfl⟩
      rw [Fin.sum_univ_three]
      exact hs
    · rintro ⟨w, ⟨h1, h2⟩, rfl⟩
      rw [Fin.sum_univ_three] at h2
      exact ⟨w 0, w 1, w 2, h1 0, h1 1, h1 2, h2, rfl⟩
  rw [e]
  refine (isCompact_stdSimplex ℝ (Fin 3)).image ?_
  fun_prop

theorem exists_isQuery : ∃ query, IsQuery query := by
  have key : ∀ (M : List (Pt 3 × Pt 3 × Pt 3)) (x : Pt 3), ∃ r : ℕ × Pt 3, M ≠ [] → (∃ T, M[r.1]? = some T ∧ InTri T r.2) ∧ ∀ T ∈ M, ∀ y, InTri T y → pnorm (r.2 - x) ≤ pnorm (y - x) := by
    intro M x
    by_cases hM : M = []
    · exact ⟨(0, 0), fun h => absurd hM h⟩
    have hc : IsCompact (⋃ T ∈ M.toFinset, {y | InTri T y}) := M.toFinset.isCompact_biUnion (fun T _ => inTri_compact T)
    have hne : (⋃ T ∈ M.toFinset, {y | InTri T y}).Nonempty := by
      obtain ⟨T, hT⟩ := List.exists_mem_of_ne_nil M hM
      refine ⟨T.1, ?_⟩
      simp only [Set.mem_iUnion, List.mem_toFinset, Set.mem_setOf_eq]
      exact ⟨T, hT, 1, 0, 0, by norm_num, by norm_num, by norm_num, by norm_num, by simp⟩
    have hcont : Continuous (fun y : Pt 3 => pnorm (y - x)) := by
      unfold pnorm psq
      fun_prop
    obtain ⟨y, hy, hmin⟩ := hc.exists_isMinOn hne hcont.continuousOn
    simp only [Set.mem_iUnion, List.mem_toFinset, Set.mem_setOf_eq] at hy
    obtain ⟨T, hT, hTy⟩ := hy
    obtain ⟨n, hn⟩ := List.mem_iff_getElem?.mp hT
    refine ⟨(n, y), fun _ => ⟨⟨T, hn, hTy⟩, ?_⟩⟩
    intro T' hT' z hz
    refine hmin ?_
    simp only [Set.mem_iUnion, List.mem_toFinset, Set.mem_setOf_eq]
    exact ⟨T', hT', hz⟩
  choose f hf using key
  exact ⟨f, fun M x h => hf M x h⟩

/-! ### spheres are given anew -/

variable {g : Grid} {cells : List Cell}

def SameSph (b c : Cell) : Prop := c.spheres = b.spheres

theorem averageNormals_sph (cs : List Cell) (h : Rel SameSph cells cs) : Rel SameSph cells (averageNormals g cs) := by
  unfold averageNormals
  refine foldl_inv (Rel SameSph cells) _ _ (fun cs hcs l _ => ?_) _ h
  unfold averageOne
  split_ifs
  · exact hcs
  · refine foldl_inv (Rel SameSph cells) _ _ (fun cs hcs s _ => ?_) _ hcs
    unfold setNormal
    split
    · exact hcs
    · exact Rel.modify hcs _ _ (fun b c _ _ hs => hs)

theorem first_sph (x : Ext) : Rel SameSph (generateCells g) ((firstCells x g).map (fun c => if c.has then { c with vertex := centroid c } else c)) := by
  have h1 : Rel SameSph (generateCells g) (averageNormals g (generateCells g)) := averageNormals_sph _ (Rel.refl (R := SameSph) (fun _ => rfl) _)
  have h2 : Rel SameSph (generateCells g) ((averageNormals g (generateCells g)).map (update x.svd)) := by
    refine Rel.map h1 _ (fun n b c _ _ hs => ?_)
    unfold update
    split_ifs <;> exact hs
  have h3 : Rel SameSph (generateCells g) (firstCells x g) := averageNormals_sph _ h2
  refine Rel.map h3 _ (fun n b c _ _ hs => ?_)
  split_ifs <;> exact hs

/-- **C126** (anew).  Before every outer iteration no cell with a vertex has spheres, so that (by `C126_spheres`) it works with those of this iteration only. -/
theorem C126_anew {x : Ext} {o : Options} {n : ℕ} (h : Reached x o g n cells) : ∀ c ∈ cells, c.has = true → c.spheres = [] ∧ (0 < n → c.infos = []) := by
  cases h with
  | start =>
    intro c hc hh
    refine ⟨?_, fun h => absurd h (lt_irrefl _)⟩
    obtain ⟨k, hk⟩ := List.mem_iff_getElem?.mp hc
    obtain ⟨b, hb, e⟩ := (first_sph x).get' hk
    have hb' := List.mem_of_getElem? hb
    unfold generateCells at hb'
    simp only [List.mem_flatMap, List.mem_map] at hb'
    obtain ⟨k, -, j, -, i, -, rfl⟩ := hb'
    rw [e]
    unfold genCell fillHermite
    split_ifs <;> rfl
  | step V F hr =>
    intro c hc hh
    unfold outerCells at hc
    simp only at hc
    obtain ⟨b, -, rfl⟩ := List.mem_map.mp hc
    split_ifs with hb
    · exact ⟨rfl, fun _ => rfl⟩
    · rw [if_neg hb] at hh
      exact absurd hh hb

/-! ### the hypotheses can be met -/

theorem ball_pos (v : Ijk) (h : (gridOf ballS ballG 3 3 3 0).Vert v) : (gridOf ballS ballG 3 3 3 0).pos v = ![(v.1 : ℝ), (v.2.1 : ℝ), (v.2.2 : ℝ)] := by
  obtain ⟨i, j, k⟩ := v
  obtain ⟨h1, h2, h3⟩ := h
  simp only [gridOf] at h1 h2 h3
  show ballG.getD (i + 3 * (j + 3 * k)) 0 = _
  have hl : i + 3 * (j + 3 * k) < ballG.length := by simp [ballG]; omega
  rw [List.getD_eq_getElem _ _ hl]
  have e1 : (i + 3 * (j + 3 * k)) % 3 = i := by omega
  have e2 : (i + 3 * (j + 3 * k)) / 3 % 3 = j := by omega
  have e3 : (i + 3 * (j + 3 * k)) / 9 = k := by omega
  simp only [ballG, List.getElem_map, List.getElem_range, e1, e2, e3]

example : Regular (gridOf ballS ballG 3 3 3 0) 0 1 ∧ Rectilinear (gridOf ballS ballG 3 3 3 0) := by
  refine ⟨⟨by simp [gridOf, ballG], fun v hv => by rw [ball_pos v hv]; simp⟩, fun v v' hv hv' => ?_⟩
  rw [ball_pos v hv, ball_pos v' hv']
  refine ⟨fun h => ?_, fun h => ?_, fun h => ?_⟩ <;> simp [h]

/-- a cell with a vertex, a Hermite point and a face point: it has a local surface -/
example : ∃ c : Cell, c.has = true ∧ localMesh c ≠ [] ∧ ∃ T ∈ localMesh c, 1 / 10 ^ 12 ≤ gram T := by
  have hm : ((0 : Pt 3), (![1, 0, 0] : Pt 3), (![0, 1, 0] : Pt 3)) ∈ localMesh ⟨0, 0, 0, fun _ => 0, fun _ => 0, fun e => if e = 1 then some ![1, 0, 0] else none, fun _ => none, [], [],
      fun d => if d = 0 then some ![0, 1, 0] else none, 0, 0, true⟩ := by
    rw [C126_local]
    exact ⟨0, by norm_num, 1, by norm_num, by decide, by decide, by simp, by simp, rfl⟩
  refine ⟨_, rfl, List.ne_nil_of_mem hm, _, hm, ?_⟩
  have e1 : (![1, 0, 0] : Pt 3) 2 = 0 := rfl
  have e2 : (![0, 1, 0] : Pt 3) 2 = 0 := rfl
  norm_num [gram, pdot3, e1, e2]

end

end Gpy.Dual
