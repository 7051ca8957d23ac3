import Verif.Model.SquaredDistanceCpp
import Verif.Props.Unsigned
import Mathlib.Topology.Order.Compact
import Mathlib.Topology.MetricSpace.ProperSpace.Real
import Mathlib.Tactic.IntervalCases

/-! C129: `squared_distance` and `unsigned_distance` on the C++ path, with and without a precomputed tree. -/

set_option autoImplicit false
namespace Gpy
open Np

variable {d : ℕ}

/-- Specification: the vertices of a point, of a segment with different ends, or of a triangle of positive area in the plane or in space. -/
inductive CppElem : List (Pt d) → Prop
  | point (x : Pt d) : CppElem [x]
  | segment (x y : Pt d) (h : x ≠ y) : CppElem [x, y]
  | triangle (x y z : Pt d) (hd : d = 2 ∨ d = 3) (h : 0 < gram x y z) : CppElem [x, y, z]

/-- Specification: a mesh of such elements, all of the same kind. -/
def CppMesh (V : List (Pt d)) (F : List (List ℕ)) : Prop :=
  F ≠ [] ∧ (∃ k, ∀ es ∈ F, es.length = k) ∧ ∀ es ∈ F, ∃ X, es.mapM (fun i => V[i]?) = some X ∧ CppElem X

/-- Contract of libigl: the answer is a closest point of the mesh, the row of an element that contains it, and its squared distance. -/
def ClosestOk (lib : ClosestLib d) : Prop := ∀ V F p, CppMesh V F →
  (∃ es X w, F[(lib V F p).2.1]? = some es ∧ es.mapM (fun i => V[i]?) = some X ∧ IsWeights w X.length ∧ (lib V F p).2.2 = comb w X) ∧
  (lib V F p).1 = psq ((lib V F p).2.2 - p) ∧ ∀ x, MeshPoint V F x → (lib V F p).1 ≤ psq (x - p)

/-- Specification: squared distance of `p` from the mesh, element and weights of a closest point. -/
def IsSquaredDistance (V : List (Pt d)) (F : List (List ℕ)) (p : Pt d) (r : ℝ × ℕ × List ℝ) : Prop :=
  (∃ es X, F[r.2.1]? = some es ∧ es.mapM (fun i => V[i]?) = some X ∧ IsWeights r.2.2 X.length ∧ r.1 = psq (comb r.2.2 X - p)) ∧
  ∀ x, MeshPoint V F x → r.1 ≤ psq (x - p)

private theorem mapM_nil_inv' {α β : Type*} {f : α → Option β} {es : List α} (h : es.mapM f = some []) : es = [] := mapM_nil_inv h

/-- the ratio of the distances to the two ends gives the weights back -/
theorem segment_lambda {x y : Pt d} (hxy : x ≠ y) {t : ℝ} (h0 : 0 ≤ t) (h1 : t ≤ 1) :
    let c : Pt d := comb [1 - t, t] [x, y]
    pnorm (y - c) / (pnorm (x - c) + pnorm (y - c)) = 1 - t ∧ pnorm (x - c) / (pnorm (x - c) + pnorm (y - c)) = t := by
  intro c
  have hc : c = fun i => x i + t * (y - x) i := by
    have := comb_pair x y 0 t
    funext i
    have := congrFun this i
    simpa using this
  have hs : ∀ (a : ℝ) (v : Pt d), 0 ≤ a → pnorm (fun i => a * v i) = a * pnorm v := fun a v ha => by
    unfold pnorm psq
    rw [show (∑ i, (a * v i) ^ 2) = a ^ 2 * ∑ i, v i ^ 2 by rw [Finset.mul_sum]; exact Finset.sum_congr rfl (fun i _ => by ring)]
    rw [Real.sqrt_mul (sq_nonneg a), Real.sqrt_sq ha]
  have hn : ∀ v : Pt d, pnorm (-v) = pnorm v := fun v => by unfold pnorm psq; simp
  have e1 : pnorm (x - c) = t * pnorm (y - x) := by
    rw [← hs t _ h0, ← hn]; congr 1; funext i; rw [hc]; simp
  have e2 : pnorm (y - c) = (1 - t) * pnorm (y - x) := by
    rw [← hs (1 - t) _ (by linarith)]; congr 1; funext i; rw [hc]; simp; ring
  have hp : 0 < pnorm (y - x) := pnorm_pos (sub_ne_zero.mpr (Ne.symm hxy))
  rw [e1, e2, show t * pnorm (y - x) + (1 - t) * pnorm (y - x) = pnorm (y - x) by ring]
  constructor <;> field_simp

/-- the weights computed from the closest point are weights of that point -/
theorem cppLambda_ok {V : List (Pt d)} {F : List (List ℕ)} (hm : CppMesh V F) {i : ℕ} {es : List ℕ} {X : List (Pt d)} {w : List ℝ}
    (hi : F[i]? = some es) (hX : es.mapM (fun i => V[i]?) = some X) (hw : IsWeights w X.length) : cppLambda V F i (comb w X) = some w := by
  obtain ⟨hne, ⟨k, hk⟩, hel⟩ := hm
  obtain ⟨X', hX', hg⟩ := hel es (List.mem_of_getElem? hi)
  obtain rfl : X' = X := Option.some.inj (hX'.symm.trans hX)
  obtain ⟨h0, hh⟩ : ∃ h0, F.head? = some h0 := by cases F with
    | nil => exact absurd rfl hne
    | cons a l => exact ⟨a, rfl⟩
  have hlen : h0.length = es.length := by rw [hk h0 (List.mem_of_mem_head? hh), hk es (List.mem_of_getElem? hi)]
  cases hg with
  | point x =>
    obtain ⟨a, t, rfl, h1, h2⟩ := mapM_cons_inv hX
    obtain rfl := mapM_nil_inv h2
    obtain ⟨q, rfl⟩ := List.length_eq_one_iff.mp hlen
    obtain ⟨b, rfl⟩ := List.length_eq_one_iff.mp hw.1
    have := hw.2.2
    simp at this
    simp [cppLambda, hh, this]
  | segment x y hxy =>
    obtain ⟨a, t, rfl, h1, h2⟩ := mapM_cons_inv hX
    obtain ⟨b, t, rfl, h3, h4⟩ := mapM_cons_inv h2
    obtain rfl := mapM_nil_inv h4
    obtain ⟨q, q', rfl⟩ := List.length_eq_two.mp hlen
    obtain ⟨t, t0, t1, rfl⟩ := weights_pair hw
    have key := segment_lambda hxy t0 t1
    dsimp only at key
    simp only [cppLambda, hh, hi, h1, h3, Option.bind_eq_bind, Option.bind_some, key.1, key.2]
  | triangle x y z hd hg =>
    obtain ⟨a, t, rfl, h1, h2⟩ := mapM_cons_inv hX
    obtain ⟨b, t, rfl, h3, h4⟩ := mapM_cons_inv h2
    obtain ⟨e, t, rfl, h5, h6⟩ := mapM_cons_inv h4
    obtain rfl := mapM_nil_inv h6
    obtain ⟨q, q', q'', rfl⟩ := List.length_eq_three.mp hlen
    obtain ⟨s, t, s0, t0, st, rfl⟩ := weights_triple hw
    have hc : comb [1 - s - t, s, t] [x, y, z] = fun i => x i + s * (y - x) i + t * (z - x) i := by
      funext i
      have := congrFun (comb_triple x y z 0 s t) i
      simpa using this
    simp only [cppLambda, hh, hi, h1, h3, h5, Option.bind_eq_bind, Option.bind_some]
    rcases hd with hd | hd
    · subst hd
      have hb : barycentric2 (toV2 rfl (comb [1 - s - t, s, t] [x, y, z])) (toV2 rfl x) (toV2 rfl y) (toV2 rfl z) = ⟨1 - s - t, s, t⟩ := by
        rw [hc, show toV2 rfl (fun i => x i + s * (y - x) i + t * (z - x) i) = (1 - s - t) • toV2 rfl x + s • toV2 rfl y + t • toV2 rfl z by
          ext <;> simp [toV2] <;> ring]
        refine bary2_of_comb (fun h0 => hg.ne' ?_) (by ring)
        have : gram x y z = signedDoublearea2 (toV2 rfl x) (toV2 rfl y) (toV2 rfl z) ^ 2 := by
          simp only [gram, pdot, Fin.sum_univ_two, signedDoublearea2, toV2, Pi.sub_apply]
          have z0 : (⟨0, by omega⟩ : Fin 2) = 0 := rfl
          have z1 : (⟨1, by omega⟩ : Fin 2) = 1 := rfl
          rw [z0, z1]; ring
        rw [this, h0]; norm_num
      rw [dif_neg (by norm_num), dif_pos rfl, hb]
    · have hb : barycentric3 (toV3 hd (comb [1 - s - t, s, t] [x, y, z])) (toV3 hd x) (toV3 hd y) (toV3 hd z) = ⟨1 - s - t, s, t⟩ := by
        rw [hc, toV3_comb]
        exact bary3_of_comb (by rw [gram_cross]; exact hg.ne') (by ring)
      rw [dif_pos hd, hb]

/-- **C129** With `use_cpp=True` `squared_distance` returns for every query point the squared distance from the mesh, an element that contains a closest
point, and the weights of that point. -/
theorem C129_direct {lib : ClosestLib d} (hl : ClosestOk lib) (P V : List (Pt d)) {F : List (List ℕ)} (hm : CppMesh V F) :
    ∃ out, squaredDistanceCpp lib P V (some F) none = some out ∧ List.Forall₂ (IsSquaredDistance V F) P out := by
  unfold squaredDistanceCpp
  refine unsigned_mapM P (fun p _ => ?_)
  obtain ⟨⟨es, X, w, h1, h2, h3, h4⟩, h5, h6⟩ := hl V F p hm
  refine ⟨((lib V F p).1, (lib V F p).2.1, w), ?_, ⟨es, X, h1, h2, h3, ?_⟩, h6⟩
  · simp only [Option.getD_some, h4, cppLambda_ok hm h1 h2 h3, Option.bind_eq_bind, Option.bind_some]
  · dsimp only; rw [← h4]; exact h5

/-- **C129** A tree precomputed from the same vertices and elements changes nothing, and neither does one precomputed without elements in space. -/
theorem C129_tree (lib : ClosestLib d) (P V : List (Pt d)) (F : Option (List (List ℕ))) {t : AabbObj d} (ht : aabbPrecompute V F = some t) (h : F ≠ none ∨ d ≠ 2) :
    squaredDistanceCpp lib P V F (some t) = squaredDistanceCpp lib P V F none := by
  unfold aabbPrecompute at ht
  dsimp only at ht
  split at ht
  · simp only [Option.some.injEq] at ht
    subst ht
    cases F with
    | some F => rfl
    | none =>
      have hd : d ≠ 2 := h.resolve_left (fun h => h rfl)
      simp [squaredDistanceCpp, hd]
  · exact absurd ht (by simp)

/-- trees exist exactly in the plane and in space -/
theorem C129_tree_dims (V : List (Pt d)) (F : Option (List (List ℕ))) : (aabbPrecompute V F).isSome ↔ d = 2 ∨ d = 3 := by
  unfold aabbPrecompute
  dsimp only
  split
  · rename_i h; simp [h]
  · rename_i h; simp [h]

/-- **C129** `unsigned_distance` (whose default is the C++ path) returns the distance from the mesh, with a closest element and the weights of a closest point,
with or without a tree precomputed from the same mesh. -/
theorem C129_unsigned {lib : ClosestLib d} (hl : ClosestOk lib) (Q V : List (Pt d)) {F : List (List ℕ)} (hm : CppMesh V F) (tree : Option (AabbObj d))
    (ht : tree = none ∨ tree = aabbPrecompute V (some F)) :
    ∃ out, unsignedDistanceCpp lib Q V (some F) tree = some out ∧
      List.Forall₂ (fun q r => IsUnsigned V F q (r.1, (r.2.1 : Int), r.2.2)) Q out := by
  obtain ⟨out, h1, h2⟩ := C129_direct hl Q V hm
  have h3 : squaredDistanceCpp lib Q V (some F) tree = some out := by
    rcases ht with rfl | ht
    · exact h1
    · cases tree with
      | none => exact h1
      | some t => rw [C129_tree lib Q V (some F) ht.symm (Or.inl (by simp)), h1]
  refine ⟨out.map (fun x => (Real.sqrt x.1, x.2.1, x.2.2)), by simp [unsignedDistanceCpp, h3], ?_⟩
  rw [List.forall₂_map_right_iff]
  refine h2.imp (fun q r ⟨⟨es, X, e1, e2, e3, e4⟩, hmin⟩ => ⟨⟨r.2.1, es, X, rfl, e1, e2, e3, ?_⟩, fun x hx => ?_⟩)
  · dsimp only; rw [e4]; rfl
  · exact Real.sqrt_le_sqrt (hmin x hx)

/-- without elements: the closed polyline in the plane, refused in space; a tree precomputed without elements is the same polyline -/
theorem C129_unsigned_default (lib : ClosestLib d) (Q V : List (Pt d)) :
    (d = 2 → unsignedDistanceCpp lib Q V none none = unsignedDistanceCpp lib Q V (some (edgeIndices V.length true)) none ∧
      unsignedDistanceCpp lib Q V none (aabbPrecompute V none) = unsignedDistanceCpp lib Q V none none) ∧
    (d ≠ 2 → ∀ tree, unsignedDistanceCpp lib Q V none tree = none) := by
  refine ⟨fun h => ⟨by simp [unsignedDistanceCpp, h], by simp [unsignedDistanceCpp, aabbPrecompute, h, squaredDistanceCpp]⟩, fun h tree => by simp [unsignedDistanceCpp, h]⟩

/-! The contract of the library can be met. -/

theorem cppElem_closest {X : List (Pt d)} (h : CppElem X) (p : Pt d) :
    ∃ w, IsWeights w X.length ∧ ∀ w', IsWeights w' X.length → psq (comb w X - p) ≤ psq (comb w' X - p) := by
  cases h with
  | point x =>
    refine ⟨[1], ⟨rfl, by simp, by simp⟩, fun w' hw' => ?_⟩
    obtain ⟨b, rfl⟩ := List.length_eq_one_iff.mp hw'.1
    have := hw'.2.2
    simp at this
    rw [this]
  | segment x y hxy =>
    have hc : Continuous (fun t : ℝ => psq (fun i => x i + t * (y - x) i - p i)) := by unfold psq; fun_prop
    obtain ⟨t, ht, hmin⟩ := isCompact_Icc.exists_isMinOn (Set.nonempty_Icc.mpr (zero_le_one (α := ℝ))) hc.continuousOn
    refine ⟨[1 - t, t], ⟨rfl, ?_, by simp⟩, fun w' hw' => ?_⟩
    · intro a ha
      simp at ha
      rcases ha with rfl | rfl <;> linarith [ht.1, ht.2]
    · obtain ⟨t', a0, a1, rfl⟩ := weights_pair hw'
      rw [comb_pair, comb_pair]
      exact hmin (Set.mem_Icc.mpr ⟨a0, a1⟩)
  | triangle x y z hd hg =>
    obtain ⟨s, t, s0, t0, st, e1, e2, e3⟩ := pointTriangle_spec (p := p) hg
    refine ⟨[1 - s - t, s, t], ⟨rfl, ?_, by simp⟩, fun w' hw' => ?_⟩
    · intro a ha
      simp at ha
      rcases ha with rfl | rfl | rfl <;> linarith
    · obtain ⟨s', t', a0, a1, a2, rfl⟩ := weights_triple hw'
      rw [comb_triple, comb_triple, ← e2]
      exact e3 s' t' a0 a1 a2

theorem closest_exists (V : List (Pt d)) (p : Pt d) : ∀ F : List (List ℕ), F ≠ [] → (∀ es ∈ F, ∃ X, es.mapM (fun i => V[i]?) = some X ∧ CppElem X) →
    ∃ (i : ℕ) (es : List ℕ) (X : List (Pt d)) (w : List ℝ), F[i]? = some es ∧ es.mapM (fun i => V[i]?) = some X ∧ IsWeights w X.length ∧ ∀ x, MeshPoint V F x → psq (comb w X - p) ≤ psq (x - p)
  | [], h, _ => absurd rfl h
  | es :: F, _, hF => by
    obtain ⟨X, hX, hg⟩ := hF es List.mem_cons_self
    obtain ⟨w, hw, hmin⟩ := cppElem_closest hg p
    have h1 : ∀ x, MeshPoint V [es] x → psq (comb w X - p) ≤ psq (x - p) := by
      rintro x ⟨f, hf, Y, hY, w', hw', rfl⟩
      rw [List.mem_singleton] at hf
      subst hf
      obtain rfl : Y = X := Option.some.inj (hY.symm.trans hX)
      exact hmin w' hw'
    have hsplit : ∀ x, MeshPoint V (es :: F) x → MeshPoint V [es] x ∨ MeshPoint V F x := by
      rintro x ⟨f, hf, hr⟩
      rcases List.mem_cons.mp hf with h | h
      · exact Or.inl ⟨f, by simp [h], hr⟩
      · exact Or.inr ⟨f, h, hr⟩
    by_cases hne : F = []
    · subst hne
      exact ⟨0, es, X, w, rfl, hX, hw, h1⟩
    · obtain ⟨i, es', X', w', e1, e2, e3, e4⟩ := closest_exists V p F hne (fun f hf => hF f (List.mem_cons_of_mem _ hf))
      rcases le_total (psq (comb w X - p)) (psq (comb w' X' - p)) with c | c
      · exact ⟨0, es, X, w, rfl, hX, hw, fun x hx => (hsplit x hx).elim (h1 x) (fun h => c.trans (e4 x h))⟩
      · exact ⟨i + 1, es', X', w', e1, e2, e3, fun x hx => (hsplit x hx).elim (fun h => c.trans (h1 x h)) (e4 x)⟩

/-- a search that keeps the contract exists in every dimension -/
theorem exists_closestOk : ∃ lib : ClosestLib d, ClosestOk lib := by
  classical
  have key : ∀ (V : List (Pt d)) (F : List (List ℕ)) (p : Pt d), ∃ r : ℝ × ℕ × Pt d, CppMesh V F →
      (∃ es X w, F[r.2.1]? = some es ∧ es.mapM (fun i => V[i]?) = some X ∧ IsWeights w X.length ∧ r.2.2 = comb w X) ∧
      r.1 = psq (r.2.2 - p) ∧ ∀ x, MeshPoint V F x → r.1 ≤ psq (x - p) := by
    intro V F p
    by_cases h : CppMesh V F
    · obtain ⟨i, es, X, w, e1, e2, e3, e4⟩ := closest_exists V p F h.1 h.2.2
      exact ⟨(psq (comb w X - p), i, comb w X), fun _ => ⟨⟨es, X, w, e1, e2, e3, rfl⟩, rfl, e4⟩⟩
    · exact ⟨(0, 0, 0), fun h' => absurd h' h⟩
  choose lib hlib using key
  exact ⟨lib, fun V F p => hlib V F p⟩

/-- the corners of the unit square -/
def unitCorners : List (Pt 2) := [![0, 0], ![1, 0], ![1, 1], ![0, 1]]

theorem corners_points : CppMesh unitCorners (pointElements unitCorners) := by
  refine ⟨by simp [pointElements, unitCorners], ⟨1, by simp [pointElements]⟩, ?_⟩
  intro es hes
  simp only [pointElements, List.mem_map, List.mem_range] at hes
  obtain ⟨i, hi, rfl⟩ := hes
  exact ⟨[unitCorners[i]], by simp [hi], .point _⟩

theorem corners_edges : CppMesh unitCorners (edgeIndices unitCorners.length true) := by
  have he : edgeIndices unitCorners.length true = [[0, 1], [1, 2], [2, 3], [3, 0]] := by decide
  rw [he]
  refine ⟨by simp, ⟨2, by simp⟩, ?_⟩
  intro es hes
  simp only [List.mem_cons, List.not_mem_nil, or_false] at hes
  rcases hes with rfl | rfl | rfl | rfl
  · exact ⟨[![0, 0], ![1, 0]], rfl, .segment _ _ (fun h => by have := congrFun h 0; norm_num at this)⟩
  · exact ⟨[![1, 0], ![1, 1]], rfl, .segment _ _ (fun h => by have := congrFun h 1; norm_num at this)⟩
  · exact ⟨[![1, 1], ![0, 1]], rfl, .segment _ _ (fun h => by have := congrFun h 0; norm_num at this)⟩
  · exact ⟨[![0, 1], ![0, 0]], rfl, .segment _ _ (fun h => by have := congrFun h 1; norm_num at this)⟩

/-- **C129 violated**: without elements in the plane the call itself measures the distance to the points, a tree precomputed from the same arguments that to the closed
polyline: for the midpoint of a side of the unit square the answers are at least 1/4 and 0. -/
theorem C129_tree_violated {lib : ClosestLib 2} (hl : ClosestOk lib) : ∃ t r r', aabbPrecompute unitCorners none = some t ∧
    squaredDistanceCpp lib [![1 / 2, 0]] unitCorners none none = some [r] ∧ 1 / 4 ≤ r.1 ∧
    squaredDistanceCpp lib [![1 / 2, 0]] unitCorners none (some t) = some [r'] ∧ r'.1 = 0 := by
  have hhead : (pointElements unitCorners).head? = some [0] := rfl
  have hlam : ∀ i c, cppLambda unitCorners (pointElements unitCorners) i c = some [1] := fun i c => by simp [cppLambda, hhead]
  refine ⟨⟨unitCorners, edgeIndices unitCorners.length true⟩, _, _, by simp [aabbPrecompute],
    by simp only [squaredDistanceCpp, Option.getD_none, hlam, List.mapM_cons, List.mapM_nil, Option.bind_eq_bind, Option.bind_some]; rfl, ?_,
    by simp only [squaredDistanceCpp, Option.getD_none, hlam, List.mapM_cons, List.mapM_nil, Option.bind_eq_bind, Option.bind_some]; rfl, ?_⟩
  · obtain ⟨⟨es, X, w, e1, e2, e3, e4⟩, e5, -⟩ := hl _ _ ![1 / 2, 0] corners_points
    dsimp only
    rw [e5, e4]
    have hes := List.mem_of_getElem? e1
    simp only [pointElements, List.mem_map, List.mem_range] at hes
    obtain ⟨i, hi, rfl⟩ := hes
    have hi4 : i < 4 := hi
    have hX : X = [unitCorners[i]] := by
      simp [hi] at e2; exact e2.symm
    subst hX
    obtain ⟨b, rfl⟩ := List.length_eq_one_iff.mp e3.1
    have hb := e3.2.2
    simp at hb
    subst hb
    interval_cases i <;> simp [unitCorners, comb, psq, Fin.sum_univ_two] <;> norm_num
  · obtain ⟨-, e5, e6⟩ := hl _ _ ![1 / 2, 0] corners_edges
    have h0 := e6 ![1 / 2, 0] ⟨[0, 1], by decide, [![0, 0], ![1, 0]], rfl, [1 / 2, 1 / 2], ⟨rfl, by simp, by norm_num⟩, by
      funext j; fin_cases j <;> simp [comb]⟩
    have hz : psq ((![1 / 2, 0] : Pt 2) - ![1 / 2, 0]) = 0 := by simp [psq]
    rw [hz] at h0
    refine le_antisymm h0 ?_
    dsimp only
    rw [e5]
    exact Finset.sum_nonneg (fun i _ => sq_nonneg _)

/-! Concrete case: the hypotheses hold for the square and a triangle in the plane. -/

example : CppMesh unitCorners (edgeIndices unitCorners.length true) := corners_edges

example : CppMesh unitCorners [[0, 1, 2]] := by
  refine ⟨by simp, ⟨3, by simp⟩, ?_⟩
  intro es hes
  simp only [List.mem_singleton] at hes
  subst hes
  exact ⟨[![0, 0], ![1, 0], ![1, 1]], rfl, .triangle _ _ _ (Or.inl rfl) (by simp [gram, pdot, Fin.sum_univ_two])⟩

end Gpy
