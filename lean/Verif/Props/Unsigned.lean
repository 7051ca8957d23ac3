import Verif.Model.Unsigned
import Verif.Props.SquaredDistance
import Verif.Props.PointElement
import Verif.Props.GaussianProcess
import Verif.Props.Rotation

/-! C93: `unsigned_distance`. -/

set_option autoImplicit false
namespace Gpy
open Np

variable {d : ℕ}

/-- Specification: every element is a point, a segment of at least the length `1e-10` below which the code treats it as a point, or a triangle of positive area. -/
def UdMesh (V : List (Pt d)) (F : List (List ℕ)) : Prop := F ≠ [] ∧ ∀ es ∈ F, ∃ X, es.mapM (fun i => V[i]?) = some X ∧ GoodElem X

/-- Specification: `r` is the distance of `q` from the mesh, with the index of the closest element and the weights of the closest point in it. -/
def IsUnsigned (V : List (Pt d)) (F : List (List ℕ)) (q : Pt d) (r : ℝ × Int × List ℝ) : Prop :=
  (∃ (e : ℕ) (es : List ℕ) (X : List (Pt d)), r.2.1 = e ∧ F[e]? = some es ∧ es.mapM (fun i => V[i]?) = some X ∧ IsWeights r.2.2 X.length ∧ r.1 = pnorm (comb r.2.2 X - q)) ∧
  ∀ x, MeshPoint V F x → r.1 ≤ pnorm (x - q)

theorem unsigned_mapM {α β : Type} {f : α → Option β} {P : α → β → Prop} : ∀ (l : List α), (∀ a ∈ l, ∃ b, f a = some b ∧ P a b) → ∃ out, l.mapM f = some out ∧ List.Forall₂ P l out
  | [], _ => ⟨[], rfl, .nil⟩
  | a :: l, h => by
    obtain ⟨b, hb, hp⟩ := h a List.mem_cons_self
    obtain ⟨out, ho, hf⟩ := unsigned_mapM l (fun a ha => h a (List.mem_cons_of_mem _ ha))
    exact ⟨b :: out, by simp [hb, ho], .cons hp hf⟩

theorem unsigned_one [NeZero d] {V : List (Pt d)} {F : List (List ℕ)} {T : List (AabbNode d)} (h : UdMesh V F) (hF : ElemsOk V F) (hT : ValidTree V F T) (hS : SplitOk T) (q : Pt d) :
    ∃ N r, (∀ fuel, N ≤ fuel → (do let s ← squaredDistanceAabb q V F T fuel; rootOf s) = some r) ∧ IsUnsigned V F q r := by
  obtain ⟨N, s, hs, e, es, r, he, hr, h1, h2, h3, hmin⟩ := C25_aabb_minimum q V F T hF hT hS
  obtain ⟨X, hX, hg⟩ := h.2 es (List.mem_of_getElem? he)
  obtain ⟨r', e1, w, e2, _⟩ := C26_point_element q V es X hX hg
  obtain rfl : r' = r := Option.some.inj (e1.symm.trans hr)
  refine ⟨N, (Real.sqrt r'.1, s.elem, s.lmb), fun fuel hf => ?_, ⟨e, es, X, h1, he, hX, by rw [h3]; exact w, ?_⟩, ?_⟩
  · rw [hs fuel hf]
    simp only [Option.bind_eq_bind, Option.bind_some, rootOf, h2]
  · simp only [h3, e2, pnorm]
  · rintro x ⟨f, hf, Y, hY, w', hw', rfl⟩
    obtain ⟨Y', hY', hg'⟩ := h.2 f hf
    obtain rfl : Y' = Y := Option.some.inj (hY'.symm.trans hY)
    obtain ⟨rf, ef, _, _, hm⟩ := C26_point_element q V f Y' hY hg'
    exact Real.sqrt_le_sqrt ((hmin f hf rf ef).trans (hm w' hw'))

/-- **C93** `unsigned_distance` terminates on every mesh of good elements and returns, for every query point, its distance from the mesh — the least distance of any point of the mesh —, the index of an element that contains a closest
point, and the weights of that point. -/
theorem C93_distance [NeZero d] (argsort : List ℝ → List ℕ) (hA : IsArgsort argsort) (Q V : List (Pt d)) {F : List (List ℕ)} (h : UdMesh V F) :
    ∃ N out, (∀ fuel, N ≤ fuel → unsignedDistance argsort Q V (some F) fuel = some out) ∧ List.Forall₂ (IsUnsigned V F) Q out := by
  have hF : ElemsOk V F := fun es hes => by
    obtain ⟨X, hX, hg⟩ := h.2 es hes
    exact ⟨X, hX, hg.shape⟩
  obtain ⟨T, t1, hT, t4⟩ : ∃ T, (∀ fuel, 2 * F.length ≤ fuel → initializeAabbtree argsort V F none none fuel = some T) ∧ ValidTree V F T ∧ SplitOk T := by
    have hR : ElemsInRange F V.length := by
      intro es hes i hi
      obtain ⟨X, h1, _⟩ := hF es hes
      have key : ∀ (l : List ℕ) (X : List (Pt d)), l.mapM (fun i => V[i]?) = some X → ∀ i ∈ l, i < V.length := by
        intro l
        induction l with
        | nil => simp
        | cons a t ih =>
          intro X h i hi
          cases X with
          | nil => have := mapM_nil_inv h; simp at this
          | cons x X =>
            obtain ⟨a', t', h0, h1, h2⟩ := mapM_cons_inv h
            cases h0
            rcases List.mem_cons.mp hi with rfl | hi
            · exact (List.getElem?_eq_some_iff.mp h1).1
            · exact ih X h2 i hi
      exact key es X h1 i hi
    have hV : V ≠ [] := by
      obtain ⟨es, hes⟩ := List.exists_mem_of_ne_nil _ h.1
      obtain ⟨X, h1, h2⟩ := hF es hes
      have : es ≠ [] := by rintro rfl; simp at h1; subst h1; cases h2
      obtain ⟨i, hi⟩ := List.exists_mem_of_ne_nil _ this
      have := hR es hes i hi
      intro h; rw [h] at this; simp at this
    obtain ⟨T, t1, _, ⟨L, t2, t3⟩, _, _, t4, _⟩ := C24_aabbtree argsort hA V F none none hV h.1 hR
      ⟨fun v h => by simp at h, fun v h => by simp at h⟩
    exact ⟨T, t1, ⟨L, t2, fun e => by rw [t3.mem_iff, List.mem_range]⟩, t4⟩
  choose N r hN hr using fun q => unsigned_one h hF hT t4 q
  obtain ⟨M, hM⟩ : ∃ M, ∀ q ∈ Q, N q ≤ M := by
    clear t1
    induction Q with
    | nil => exact ⟨0, by simp⟩
    | cons q Q ih =>
      obtain ⟨M, hM⟩ := ih
      refine ⟨max (N q) M, fun x hx => ?_⟩
      rcases List.mem_cons.mp hx with rfl | hx
      · exact le_max_left _ _
      · exact (hM x hx).trans (le_max_right _ _)
  refine ⟨max M (2 * F.length), Q.map r, fun fuel hf => ?_, ?_⟩
  · unfold unsignedDistance
    simp only [Option.bind_eq_bind, Option.bind_some]
    rw [t1 fuel (le_trans (le_max_right _ _) hf)]
    simp only [Option.bind_some]
    obtain ⟨out, ho, hf2⟩ := unsigned_mapM (f := fun q => (squaredDistanceAabb q V F T fuel).bind rootOf) (P := fun q b => b = r q) Q
      (fun q hq => ⟨r q, hN q fuel ((hM q hq).trans (le_trans (le_max_left _ _) hf)), rfl⟩)
    rw [ho]
    congr 1
    clear ho hM
    induction hf2 with
    | nil => rfl
    | cons h1 _ ih => rw [h1, ih]; rfl
  · rw [List.forall₂_map_right_iff]
    exact List.forall₂_same.mpr (fun q _ => hr q)

theorem pnorm_tri (x y : Pt d) : pnorm (x + y) ≤ pnorm x + pnorm y := by
  have h0 : 0 ≤ pnorm x := Real.sqrt_nonneg _
  have h1 : 0 ≤ pnorm y := Real.sqrt_nonneg _
  have h : psq (x + y) = psq x + 2 * (x ⬝ᵥ y) + psq y := by
    simp only [psq, dotProduct, Pi.add_apply, Finset.mul_sum, ← Finset.sum_add_distrib]
    exact Finset.sum_congr rfl (fun i _ => by ring)
  unfold pnorm
  refine Real.sqrt_le_iff.mpr ⟨by positivity, ?_⟩
  have hd := (abs_le.mp (pnorm_dot x y)).2
  have e1 := pnorm_sq x
  have e2 := pnorm_sq y
  unfold pnorm at e1 e2 hd
  rw [h]
  nlinarith

/-- **C93** distances are consistent: two query points differ in distance by at most their mutual distance. -/
theorem C93_lipschitz {V : List (Pt d)} {F : List (List ℕ)} {p q : Pt d} {r s : ℝ × Int × List ℝ} (hr : IsUnsigned V F p r) (hs : IsUnsigned V F q s) : |r.1 - s.1| ≤ pnorm (p - q) := by
  have key : ∀ {p q : Pt d} {r s : ℝ × Int × List ℝ}, IsUnsigned V F p r → IsUnsigned V F q s → r.1 - s.1 ≤ pnorm (p - q) := by
    intro p q r s hr hs
    obtain ⟨⟨e, es, X, _, he, hX, hw, hd⟩, _⟩ := hs
    have h1 := hr.2 (comb s.2.2 X) ⟨es, List.mem_of_getElem? he, X, hX, s.2.2, hw, rfl⟩
    have h2 := pnorm_tri (comb s.2.2 X - q) (q - p)
    rw [sub_add_sub_cancel] at h2
    have h3 : pnorm (q - p) = pnorm (p - q) := by
      unfold pnorm psq
      congr 1
      exact Finset.sum_congr rfl (fun i _ => by simp only [Pi.sub_apply]; ring)
    linarith
  refine abs_sub_le_iff.mpr ⟨key hr hs, ?_⟩
  have h := key hs hr
  have h3 : pnorm (q - p) = pnorm (p - q) := by
    unfold pnorm psq
    congr 1
    exact Finset.sum_congr rfl (fun i _ => by simp only [Pi.sub_apply]; ring)
  linarith

/-- **C93** the distance is never negative, and it is zero exactly for the points of the mesh. -/
theorem C93_zero {V : List (Pt d)} {F : List (List ℕ)} {q : Pt d} {r : ℝ × Int × List ℝ} (h : IsUnsigned V F q r) : 0 ≤ r.1 ∧ (r.1 = 0 ↔ MeshPoint V F q) := by
  obtain ⟨⟨e, es, X, _, he, hX, hw, hd⟩, hmin⟩ := h
  have h0 : 0 ≤ r.1 := by rw [hd]; exact Real.sqrt_nonneg _
  refine ⟨h0, fun hz => ?_, fun hp => ?_⟩
  · have : comb r.2.2 X - q = 0 := by
      by_contra hne
      have := pnorm_pos hne
      rw [← hd, hz] at this
      exact lt_irrefl _ this
    exact ⟨es, List.mem_of_getElem? he, X, hX, r.2.2, hw, (sub_eq_zero.mp this).symm⟩
  · have := hmin q hp
    rw [sub_self] at this
    have hz : pnorm (0 : Pt d) = 0 := by simp [pnorm, psq]
    rw [hz] at this
    exact le_antisymm this h0

/-- **C93** without elements the vertices of a planar polyline are joined in a closed curve; in space the call fails. -/
theorem C93_default [NeZero d] (argsort : List ℝ → List ℕ) (Q V : List (Pt d)) (fuel : ℕ) :
    (d = 2 → unsignedDistance argsort Q V none fuel = unsignedDistance argsort Q V (some ((List.range V.length).map (fun i => [i, (i + 1) % V.length]))) fuel) ∧
    (d ≠ 2 → unsignedDistance argsort Q V none fuel = none) := by
  constructor
  · intro hd
    have : edgeIndices V.length true = (List.range V.length).map (fun i => [i, (i + 1) % V.length]) := by
      apply List.ext_getElem
      · simp only [edgeIndices, if_true, List.length_map, List.length_zip, List.length_range, List.length_append, List.length_singleton]
        rcases Nat.eq_zero_or_pos V.length with h | h <;> omega
      · intro i h1 h2
        simp only [List.length_map, List.length_range] at h2
        simp only [edgeIndices, if_true, List.getElem_map, List.getElem_zip, List.getElem_range, List.getElem_append, List.length_map, List.length_range]
        split_ifs with h3
        · rw [Nat.mod_eq_of_lt (by omega)]
        all_goals first | (rename_i hh; exact absurd rfl hh) | (rw [show i + 1 = V.length by omega, Nat.mod_self]; simp)
    unfold unsignedDistance
    simp only [if_pos hd, this]
  · intro hd
    unfold unsignedDistance
    simp [if_neg hd]

/-- a triangle in space meets the hypothesis of `C93_distance` -/
example : UdMesh [(![0, 0, 0] : Pt 3), ![1, 0, 0], ![0, 1, 0]] [[0, 1, 2]] := by
  refine ⟨by simp, fun es hes => ?_⟩
  obtain rfl := List.mem_singleton.mp hes
  refine ⟨[![0, 0, 0], ![1, 0, 0], ![0, 1, 0]], rfl, GoodElem.triangle _ _ _ rfl ?_⟩
  simp [gram, pdot, Fin.sum_univ_three]

end Gpy
