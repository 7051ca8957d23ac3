import Verif.Model.SignedDistanceCpp
import Verif.Props.SquaredDistanceCpp
import Verif.Props.Winding

/-! C130: `signed_distance` on its default path. -/

set_option autoImplicit false
namespace Gpy
open Np

/-- Specification: the value is the distance of `q` from the mesh, with a minus sign exactly if `inside`; the rest is a closest element and the weights of a closest point. -/
def IsSigned {d : ℕ} (V : List (Pt d)) (F : List (List ℕ)) (inside : Prop) (q : Pt d) (r : ℝ × ℕ × List ℝ) : Prop :=
  ∃ δ, IsUnsigned V F q (δ, (r.2.1 : Int), r.2.2) ∧ (inside → r.1 = -δ) ∧ (¬ inside → r.1 = δ)

private theorem signOne_ok {d : ℕ} {V : List (Pt d)} {F : List (List ℕ)} {q : Pt d} {r : ℝ × ℕ × List ℝ} (hr : IsSquaredDistance V F q r) {W : ℝ} {w : ℤ} (hw : |W - w| < 1 / 2) :
    IsSigned V F (1 ≤ w) q (signOne W r) := by
  obtain ⟨⟨es, X, e1, e2, e3, e4⟩, hmin⟩ := hr
  refine ⟨Real.sqrt r.1, ⟨⟨r.2.1, es, X, rfl, e1, e2, e3, ?_⟩, fun x hx => ?_⟩, fun h => ?_, fun h => ?_⟩
  · dsimp only; rw [e4]; rfl
  · exact Real.sqrt_le_sqrt (hmin x hx)
  · have : (1 : ℝ) ≤ w := by exact_mod_cast h
    have h2 := (abs_lt.mp hw).1
    have : -2 * W + 1 < 0 := by linarith
    simp only [signOne, npSign, if_pos this]; ring
  · have : (w : ℝ) ≤ 0 := by exact_mod_cast (by omega : w ≤ 0)
    have h2 := (abs_lt.mp hw).2
    have h3 : ¬ (-2 * W + 1 < 0) := by linarith
    have h4 : ¬ (-2 * W + 1 = 0) := by intro h; linarith
    simp only [signOne, npSign, if_neg h3, if_neg h4]; ring

private theorem forall₂_zip {α β γ : Type} {R : α → β → Prop} {S : α → γ → Prop} {T : α → β → γ → Prop} (hT : ∀ a b c, R a b → S a c → T a b c) {δ : Type} (g : β → γ → δ) {U : α → δ → Prop}
    (hU : ∀ a b c, T a b c → U a (g b c)) : ∀ {l : List α} {m : List β} {n : List γ}, List.Forall₂ R l m → List.Forall₂ S l n → List.Forall₂ U l (List.zipWith g m n)
  | [], _, _, .nil, .nil => .nil
  | _ :: _, _, _, .cons h1 h2, .cons h3 h4 => .cons (hU _ _ _ (hT _ _ _ h1 h3)) (forall₂_zip hT g hU h2 h4)

/-- **C130** (space).  If the fast winding number is within one half of the winding number `w`, `signed_distance` returns the distance from the mesh, negative exactly
where `w` is at least one, with a closest element and the weights of a closest point; a tree and a hierarchy precomputed from the same mesh change nothing. -/
theorem C130_space {lib : ClosestLib 3} (hl : ClosestOk lib) (fwn : FwnLib) (Q V : List (Pt 3)) {F : List (List ℕ)} (hm : CppMesh V F) (w : Pt 3 → ℤ)
    (hw : ∀ q ∈ Q, |fwn 2 V F 2 q - w q| < 1 / 2) (tree : Option (AabbObj 3)) (ht : tree = none ∨ tree = aabbPrecompute V (some F))
    (bvh : Option FwnObj) (hb : bvh = none ∨ bvh = fwnPrecompute V F) :
    ∃ out, signedDistanceCpp3 lib fwn Q V (some F) tree bvh = some out ∧ List.Forall₂ (fun q r => IsSigned V F (1 ≤ w q) q r) Q out := by
  obtain ⟨out, h1, h2⟩ := C129_direct hl Q V hm
  have h3 : squaredDistanceCpp lib Q V (some F) tree = some out := by
    rcases ht with rfl | ht
    · exact h1
    · cases tree with
      | none => exact h1
      | some t => rw [C129_tree lib Q V (some F) ht.symm (Or.inl (by simp)), h1]
  have hf : ∀ q, fastWindingNumber fwn V F bvh q = fwn 2 V F 2 q := fun q => by
    rcases hb with rfl | hb
    · rfl
    · unfold fwnPrecompute at hb
      split at hb <;> subst hb <;> rfl
  refine ⟨List.zipWith signOne (Q.map (fastWindingNumber fwn V F bvh)) out, by simp [signedDistanceCpp3, h3], ?_⟩
  have hW : List.Forall₂ (fun q W => |W - (w q : ℝ)| < 1 / 2) Q (Q.map (fastWindingNumber fwn V F bvh)) := by
    rw [List.forall₂_map_right_iff, List.forall₂_same]
    intro q hq
    rw [hf]; exact hw q hq
  exact forall₂_zip (T := fun q W r => |W - (w q : ℝ)| < 1 / 2 ∧ IsSquaredDistance V F q r) (fun _ _ _ a b => ⟨a, b⟩) signOne (fun q W r ⟨a, b⟩ => signOne_ok b a) hW h2

/-- **C130** (plane).  For every union of closed polylines with edges of positive length `signed_distance` returns, at every point that is no vertex, the distance from the
curve, negative exactly where the winding number is at least one. -/
theorem C130_plane {lib : ClosestLib 2} (hl : ClosestOk lib) (Q : List (Pt 2)) {V : List (Pt 2)} {E : List (ℕ × ℕ)} {P : List (Pt 2 × Pt 2)} (h : curveEdges V E P) (hc : ClosedCurve E)
    (hne : E ≠ []) (hlen : ∀ p ∈ P, p.1 ≠ p.2) (hQ : ∀ q ∈ Q, ∀ p ∈ P, q ≠ p.1 ∧ q ≠ p.2) (tree : Option (AabbObj 2)) (ht : tree = none ∨ tree = aabbPrecompute V (some (edgeRows E))) :
    ∃ out, signedDistanceCpp2 lib Q V (some (edgeRows E)) tree = some out ∧
      List.Forall₂ (fun q r => ∃ w : ℤ, windingNumber2 q V (edgeRows E) = some (w : ℝ) ∧ IsSigned V (edgeRows E) (1 ≤ w) q r) Q out := by
  obtain ⟨m1, m2⟩ := curve_mem h
  have hm : CppMesh V (edgeRows E) := by
    refine ⟨by unfold edgeRows; simpa using hne, ⟨2, fun es hes => by
      simp only [edgeRows, List.mem_map] at hes
      obtain ⟨e, -, rfl⟩ := hes; rfl⟩, fun es hes => ?_⟩
    obtain ⟨p, hp, hp2⟩ := m1 es hes
    exact ⟨_, hp2, .segment _ _ (hlen p hp)⟩
  obtain ⟨out, h1, h2⟩ := C129_direct hl Q V hm
  have h3 : squaredDistanceCpp lib Q V (some (edgeRows E)) tree = some out := by
    rcases ht with rfl | ht
    · exact h1
    · cases tree with
      | none => exact h1
      | some t => rw [C129_tree lib Q V (some (edgeRows E)) ht.symm (Or.inl (by simp)), h1]
  obtain ⟨Ws, hW1, hW2⟩ := unsigned_mapM (f := fun q => windingNumber2 q V (edgeRows E)) (P := fun q W => ∃ w : ℤ, windingNumber2 q V (edgeRows E) = some (w : ℝ) ∧ W = w) Q
    (fun q hq => by
      obtain ⟨w, hw⟩ := C45_integer h hc (hQ q hq)
      exact ⟨w, hw, w, hw, rfl⟩)
  refine ⟨List.zipWith signOne Ws out, by simp [signedDistanceCpp2, h3, hW1], ?_⟩
  refine forall₂_zip (R := fun q (W : ℝ) => ∃ w : ℤ, windingNumber2 q V (edgeRows E) = some (w : ℝ) ∧ W = w) (S := IsSquaredDistance V (edgeRows E))
    (T := fun q (W : ℝ) r => (∃ w : ℤ, windingNumber2 q V (edgeRows E) = some (w : ℝ) ∧ W = w) ∧ IsSquaredDistance V (edgeRows E) q r) (fun _ _ _ a b => ⟨a, b⟩) signOne
    (fun q W r ⟨⟨w, hw, hWw⟩, b⟩ => ⟨w, hw, signOne_ok b ?_⟩) hW2 h2
  rw [hWw]; simp

/-- without elements: the closed polyline in the plane, refused in space -/
theorem C130_default (lib : ClosestLib 2) (lib3 : ClosestLib 3) (fwn : FwnLib) (Q V : List (Pt 2)) (Q3 V3 : List (Pt 3)) (tree : Option (AabbObj 2)) (tree3 : Option (AabbObj 3)) (bvh : Option FwnObj) :
    signedDistanceCpp2 lib Q V none tree = signedDistanceCpp2 lib Q V (some ((List.range V.length).map (fun i => [i, (i + 1) % V.length]))) tree ∧
    signedDistanceCpp3 lib3 fwn Q3 V3 none tree3 bvh = none := by
  refine ⟨?_, rfl⟩
  have : edgeIndices V.length true = (List.range V.length).map (fun i => [i, (i + 1) % V.length]) := by
    apply List.ext_getElem
    · simp only [edgeIndices, if_true, List.length_map, List.length_zip, List.length_range, List.length_append, List.length_singleton]
      rcases Nat.eq_zero_or_pos V.length with h | h <;> omega
    · intro i h1 h2
      simp only [List.length_map, List.length_range] at h2
      simp only [edgeIndices, if_true, List.getElem_map, List.getElem_zip, List.getElem_range, List.getElem_append, List.length_map, List.length_range]
      split_ifs with h3
      · rw [Nat.mod_eq_of_lt (by omega)]
      all_goals first | (rename_i hh; exact absurd rfl hh) | (rw [show i + 1 = V.length by omega, Nat.mod_self]; simp)
  simp [signedDistanceCpp2, this]

/-- an open polyline that turns by half a circle around the origin -/
def halfTurn : List (Pt 2) := [![1, 0], ![0, 1], ![-1, 0]]

theorem halfTurn_mesh : CppMesh halfTurn [[0, 1], [1, 2]] := by
  refine ⟨by simp, ⟨2, by simp⟩, ?_⟩
  intro es hes
  simp only [List.mem_cons, List.not_mem_nil, or_false] at hes
  rcases hes with rfl | rfl
  · exact ⟨[![1, 0], ![0, 1]], rfl, .segment _ _ (fun h => by have := congrFun h 0; norm_num at this)⟩
  · exact ⟨[![0, 1], ![-1, 0]], rfl, .segment _ _ (fun h => by have := congrFun h 0; norm_num at this)⟩

/-- the winding number of the half turn around the origin is one half -/
theorem halfTurn_winding : windingNumber2 ![0, 0] halfTurn [[0, 1], [1, 2]] = some (1 / 2) := by
  have h1 : wnAngle ![0, 0] ![1, 0] ![0, 1] = Real.pi / 2 := by
    simp only [wnAngle, npArctan2]
    rw [show (⟨_, _⟩ : ℂ) = -Complex.I by apply Complex.ext <;> simp, Complex.arg_neg_I]; ring
  have h2 : wnAngle ![0, 0] ![0, 1] ![-1, 0] = Real.pi / 2 := by
    simp only [wnAngle, npArctan2]
    rw [show (⟨_, _⟩ : ℂ) = -Complex.I by apply Complex.ext <;> simp, Complex.arg_neg_I]; ring
  have h3 : [[0, 1], [1, 2]].mapM (wnEnds halfTurn) = some [((![1, 0] : Pt 2), (![0, 1] : Pt 2)), ((![0, 1] : Pt 2), (![-1, 0] : Pt 2))] := rfl
  unfold windingNumber2
  rw [h3]
  simp only [Option.bind_eq_bind, Option.bind_some, List.map_cons, List.map_nil, List.sum_cons, List.sum_nil, h1, h2, Option.some.injEq]
  field_simp
  ring

/-- **C130 violated** for open polylines: where the winding number is one half the returned value is zero although the point is not on the mesh. -/
theorem C130_open_violated {lib : ClosestLib 2} (hl : ClosestOk lib) : ∃ r, signedDistanceCpp2 lib [![0, 0]] halfTurn (some [[0, 1], [1, 2]]) none = some [r] ∧ r.1 = 0 ∧
    ¬ MeshPoint halfTurn [[0, 1], [1, 2]] ![0, 0] := by
  obtain ⟨out, h1, h2⟩ := C129_direct hl [![0, 0]] halfTurn halfTurn_mesh
  obtain ⟨r, l, -, hl', rfl⟩ := List.forall₂_cons_left_iff.mp h2
  obtain rfl := List.forall₂_nil_left_iff.mp hl'
  refine ⟨signOne (1 / 2) r, ?_, ?_, ?_⟩
  · simp only [signedDistanceCpp2, Option.getD_some, h1, List.mapM_cons, List.mapM_nil, halfTurn_winding, Option.bind_eq_bind, Option.bind_some, Option.pure_def, List.zipWith_cons_cons, List.zipWith_nil_left]
  · simp [signOne, npSign]
  · rintro ⟨f, hf, X, hX, w, hw, hx⟩
    simp only [List.mem_cons, List.not_mem_nil, or_false] at hf
    rcases hf with rfl | rfl
    · obtain rfl : [(![1, 0] : Pt 2), ![0, 1]] = X := Option.some.inj hX
      obtain ⟨t, -, -, rfl⟩ := weights_pair hw
      have a := congrFun hx 0; have b := congrFun hx 1
      simp [comb] at a b
      linarith
    · obtain rfl : [(![0, 1] : Pt 2), ![-1, 0]] = X := Option.some.inj hX
      obtain ⟨t, -, -, rfl⟩ := weights_pair hw
      have a := congrFun hx 0; have b := congrFun hx 1
      simp [comb] at a b
      linarith

/-! Concrete case: the hypotheses of `C130_plane` hold for the boundary of a triangle and a point inside. -/
example : curveEdges [![0, 0], ![4, 0], ![0, 4]] [(0, 1), (1, 2), (2, 0)] [(![0, 0], ![4, 0]), (![4, 0], ![0, 4]), (![0, 4], ![0, 0])] ∧ ClosedCurve [(0, 1), (1, 2), (2, 0)] := by
  refine ⟨.cons ⟨rfl, rfl⟩ (.cons ⟨rfl, rfl⟩ (.cons ⟨rfl, rfl⟩ .nil)), ?_⟩
  unfold ClosedCurve; decide

/-- **C130** The precomputed winding number object: made for every nonempty list of triangles and refused for other rows; once made, it decides, whatever mesh is passed along. -/
theorem C130_precompute (fwn : FwnLib) (V : List (Pt 3)) (F : List (List ℕ)) (order : ℕ) :
    (F ≠ [] → (∀ f ∈ F, f.length = 3) → ∃ b, fwnPrecompute V F order = some b) ∧ (∀ f F', F = f :: F' → f.length ≠ 3 → fwnPrecompute V F order = none) ∧
    (fwnPrecompute V [] order = none) ∧
    (∀ b, fwnPrecompute V F order = some b → ∀ V' F' q, fastWindingNumber fwn V' F' (some b) q = fwn order V F 2 q) := by
  refine ⟨fun h0 h => ?_, ?_, rfl, ?_⟩
  · cases F with
    | nil => exact absurd rfl h0
    | cons f F => exact ⟨_, by unfold fwnPrecompute; rw [if_pos (by simpa using h f (by simp))]⟩
  · rintro f F' rfl h
    unfold fwnPrecompute
    rw [if_neg (by simpa using h)]
  · intro b h V' F' q
    unfold fwnPrecompute at h
    split_ifs at h
    obtain rfl := Option.some.inj h
    rfl

end Gpy
