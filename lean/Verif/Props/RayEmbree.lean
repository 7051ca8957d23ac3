import Verif.Model.RayEmbree
import Verif.Props.Ray

/-! C131: `ray_mesh_intersect` on its default path. -/

set_option autoImplicit false
namespace Gpy
open Np

/-- Specification: the ray is at parameter `t ≥ 0` in triangle `e`, and not parallel to it. -/
def TriHit (o dir : Pt 3) (V : List (Pt 3)) (F : List (List ℕ)) (e : ℕ) (t : ℝ) : Prop :=
  ∃ f x y z, F[e]? = some f ∧ f.mapM (fun i => V[i]?) = some [x, y, z] ∧ rayDet dir x y z ≠ 0 ∧ RayMeets o dir x y z t

/-- Contract of Embree: the first hit at or after `tnear`, with the weights of the second and third vertex. -/
def EmbreeOk (embree : EmbreeLib) : Prop := ∀ V F o dir tnear, TriMesh V F →
  match embree V F o dir tnear with
  | none => ∀ e t, TriHit o dir V F e t → t < tnear
  | some (e, t, u, v) => TriHit o dir V F e t ∧ tnear ≤ t ∧ (∀ e' t', TriHit o dir V F e' t' → tnear ≤ t' → t ≤ t') ∧
      ∀ f X, F[e]? = some f → f.mapM (fun i => V[i]?) = some X → IsWeights [1 - u - v, u, v] 3 ∧ (fun i => o i + t * dir i) = comb [1 - u - v, u, v] X

/-- Specification: the answer for one ray: infinity, `-1` and zero weights if no triangle is hit at `1e-4` or later; else the first such hit with its weights. -/
def IsFirstHit (o dir : Pt 3) (V : List (Pt 3)) (F : List (List ℕ)) (s : RmState) : Prop :=
  (s.t = ⊤ ∧ s.id = -1 ∧ s.lmbd = ⟨0, 0, 0⟩ ∧ ∀ e t, TriHit o dir V F e t → t < 1e-4) ∨
  ∃ (e : ℕ) (t : ℝ) (f : List ℕ) (X : List (Pt 3)), s.id = e ∧ s.t = (t : WithTop ℝ) ∧ TriHit o dir V F e t ∧ 1e-4 ≤ t ∧
    F[e]? = some f ∧ f.mapM (fun i => V[i]?) = some X ∧ IsWeights [s.lmbd.x, s.lmbd.y, s.lmbd.z] 3 ∧
    (fun i => o i + t * dir i) = comb [s.lmbd.x, s.lmbd.y, s.lmbd.z] X ∧ ∀ e' t', TriHit o dir V F e' t' → 1e-4 ≤ t' → t ≤ t'

theorem triHit_unique {o dir : Pt 3} {V : List (Pt 3)} {F : List (List ℕ)} {e : ℕ} {t t' : ℝ} (h : TriHit o dir V F e t) (h' : TriHit o dir V F e t') : t = t' := by
  obtain ⟨f, x, y, z, a1, a2, a3, -, a5⟩ := h
  obtain ⟨f', x', y', z', b1, b2, -, -, b5⟩ := h'
  obtain rfl : f = f' := Option.some.inj (a1.symm.trans b1)
  have := a2.symm.trans b2
  simp only [Option.some.injEq, List.cons.injEq, and_true] at this
  obtain ⟨rfl, rfl, rfl⟩ := this
  obtain ⟨w, hw, hx⟩ := a5
  obtain ⟨w', hw', hx'⟩ := b5
  obtain ⟨u, v, -, -, -, h1⟩ := (weights3_iff x y z _).mp ⟨w, hw, hx⟩
  obtain ⟨u', v', -, -, -, h2⟩ := (weights3_iff x y z _).mp ⟨w', hw', hx'⟩
  have c0 := congrFun h1 0
  have c1 := congrFun h1 1
  have c2 := congrFun h1 2
  have d0 := congrFun h2 0
  have d1 := congrFun h2 1
  have d2 := congrFun h2 2
  have key : (t - t') * rayDet dir x y z = 0 := by
    simp only [rayDet, pdot3, pcross, Pi.sub_apply, vec0, vec1, vec2] at *
    linear_combination (-((y 1 - x 1) * (z 2 - x 2) - (y 2 - x 2) * (z 1 - x 1))) * (c0 - d0) + (-((y 2 - x 2) * (z 0 - x 0) - (y 0 - x 0) * (z 2 - x 2))) * (c1 - d1) +
      (-((y 0 - x 0) * (z 1 - x 1) - (y 1 - x 1) * (z 0 - x 0))) * (c2 - d2)
  rcases mul_eq_zero.mp key with h | h
  · linarith
  · exact absurd h a3

/-- a triangle hit at or after `tnear`, first in order -/
theorem first_hit_exists {o dir : Pt 3} {V : List (Pt 3)} {F : List (List ℕ)} {tnear : ℝ} (h : ∃ e t, TriHit o dir V F e t ∧ tnear ≤ t) :
    ∃ e t, TriHit o dir V F e t ∧ tnear ≤ t ∧ ∀ e' t', TriHit o dir V F e' t' → tnear ≤ t' → t ≤ t' := by
  classical
  have hfin : {t | ∃ e, TriHit o dir V F e t ∧ tnear ≤ t}.Finite := by
    refine ((Set.finite_lt_nat F.length).biUnion (t := fun e => {t | TriHit o dir V F e t}) (fun e _ => Set.Subsingleton.finite (fun t ht t' ht' => triHit_unique ht ht'))).subset ?_
    rintro t ⟨e, he, -⟩
    obtain ⟨f, -, -, -, a1, -⟩ := id he
    exact Set.mem_biUnion (List.getElem?_eq_some_iff.mp a1).1 he
  obtain ⟨e, t, h1, h2⟩ := h
  obtain ⟨t0, ⟨e0, h3, h4⟩, h5⟩ := Set.exists_min_image _ id hfin ⟨t, e, h1, h2⟩
  exact ⟨e0, t0, h3, h4, fun e' t' a b => h5 t' ⟨e', a, b⟩⟩

/-- the contract can be met -/
theorem embree_exists : ∃ embree, EmbreeOk embree := by
  classical
  have key : ∀ (V : List (Pt 3)) (F : List (List ℕ)) (o dir : Pt 3) (tnear : ℝ), ∃ r : Option (ℕ × ℝ × ℝ × ℝ), match r with
      | none => ∀ e t, TriHit o dir V F e t → t < tnear
      | some (e, t, u, v) => TriHit o dir V F e t ∧ tnear ≤ t ∧ (∀ e' t', TriHit o dir V F e' t' → tnear ≤ t' → t ≤ t') ∧
          ∀ f X, F[e]? = some f → f.mapM (fun i => V[i]?) = some X → IsWeights [1 - u - v, u, v] 3 ∧ (fun i => o i + t * dir i) = comb [1 - u - v, u, v] X := by
    intro V F o dir tnear
    by_cases h : ∃ e t, TriHit o dir V F e t ∧ tnear ≤ t
    · obtain ⟨e, t, h1, h2, h3⟩ := first_hit_exists h
      obtain ⟨f, x, y, z, a1, a2, a3, a4, w, hw, hx⟩ := id h1
      obtain ⟨u, v, hu, hv, huv, hc⟩ := (weights3_iff x y z _).mp ⟨w, hw, hx⟩
      refine ⟨some (e, t, u, v), h1, h2, h3, fun f' X b1 b2 => ?_⟩
      obtain rfl : f = f' := Option.some.inj (a1.symm.trans b1)
      obtain rfl : [x, y, z] = X := Option.some.inj (a2.symm.trans b2)
      refine ⟨⟨rfl, ?_, by simp⟩, ?_⟩
      · intro c hc
        simp only [List.mem_cons, List.not_mem_nil, or_false] at hc
        rcases hc with rfl | rfl | rfl <;> linarith
      · rw [hc]
        funext i
        simp [comb]
        ring
    · push Not at h
      exact ⟨none, h⟩
  choose g hg using key
  exact ⟨g, fun V F o dir tnear _ => hg V F o dir tnear⟩

theorem embreeRow_ok {embree : EmbreeLib} (he : EmbreeOk embree) {V : List (Pt 3)} {F : List (List ℕ)} (hM : TriMesh V F) (o dir : Pt 3) :
    IsFirstHit o dir V F (embreeRow (embree V F o dir 1e-4)) := by
  have h := he V F o dir 1e-4 hM
  cases hh : embree V F o dir 1e-4 with
  | none =>
    rw [hh] at h
    exact Or.inl ⟨rfl, rfl, rfl, h⟩
  | some r =>
    obtain ⟨e, t, u, v⟩ := r
    rw [hh] at h
    obtain ⟨h1, h2, h3, h4⟩ := h
    obtain ⟨f, x, y, z, a1, a2, -⟩ := id h1
    obtain ⟨b1, b2⟩ := h4 f _ a1 a2
    exact Or.inr ⟨e, t, f, _, rfl, rfl, h1, h2, a1, a2, b1, b2, h3⟩

/-- **C131** For every ray the default path returns the first hit at parameter `1e-4` or later of the ray and the mesh rounded to single precision, with the triangle and the
weights of the hit point, or infinity, `-1` and zeros; an intersector precomputed from the same mesh changes nothing. -/
theorem C131_first_hit {embree : EmbreeLib} (he : EmbreeOk embree) (f32 : ℝ → ℝ) (rays : List (Pt 3 × Pt 3)) {V : List (Pt 3)} {F : List (List ℕ)} (hM : TriMesh V F)
    (obj : Option RmiObj) (ho : obj = none ∨ obj = rmiPrecompute V F) :
    List.Forall₂ (fun r s => IsFirstHit (fun i => f32 (r.1 i)) (fun i => f32 (r.2 i)) (V.map (fun x i => f32 (x i))) F s) rays (rayMeshEmbree embree f32 rays V F obj) := by
  have hobj : obj.getD ⟨V, F⟩ = ⟨V, F⟩ := by
    rcases ho with rfl | rfl
    · rfl
    · unfold rmiPrecompute
      split <;> rfl
  have hM' : TriMesh (V.map (fun x i => f32 (x i))) F := by
    intro f hf
    obtain ⟨x, y, z, h⟩ := hM f hf
    refine ⟨fun i => f32 (x i), fun i => f32 (y i), fun i => f32 (z i), ?_⟩
    have : ∀ (l : List ℕ) (X : List (Pt 3)), l.mapM (fun i => V[i]?) = some X → l.mapM (fun i => (V.map (fun x (i : Fin 3) => f32 (x i)))[i]?) = some (X.map (fun x i => f32 (x i))) := by
      intro l
      induction l with
      | nil => intro X h; simp at h; subst h; rfl
      | cons a l ih =>
        intro X h
        rw [List.mapM_cons] at h
        cases ha : V[a]? with
        | none => rw [ha] at h; simp at h
        | some p =>
          cases hl : l.mapM (fun i => V[i]?) with
          | none => rw [ha, hl] at h; simp at h
          | some Y =>
            rw [ha, hl] at h
            simp only [Option.bind_eq_bind, Option.bind_some, Option.pure_def, Option.some.injEq] at h
            subst h
            rw [List.mapM_cons, ih Y hl]
            simp [ha]
    exact this f _ h
  unfold rayMeshEmbree
  rw [List.forall₂_map_right_iff, List.forall₂_same]
  intro r _
  simp only [hobj]
  exact embreeRow_ok he hM' _ _

/-- **C131** The two paths agree: if no triangle is hit before `1e-4`, and every hit is one above the determinant threshold of the Python path, then (without rounding) both return
the same parameter. -/
theorem C131_agree {embree : EmbreeLib} (he : EmbreeOk embree) (argsort : List ℝ → List ℕ) (hA : IsArgsort argsort) (o dir : Pt 3) {V : List (Pt 3)} {F : List (List ℕ)} (hne : F ≠ [])
    (hM : TriMesh V F) (hnear : ∀ e t, TriHit o dir V F e t → 1e-4 ≤ t ∧ MeshHit o dir V F e t) :
    ∃ (T : List (AabbNode 3)) (N : ℕ) (s s' : RmState), (∀ fuel, N ≤ fuel → initializeAabbtree argsort V F none none fuel = some T) ∧
      (∀ fuel, N ≤ fuel → rayMeshIntersect o dir V F T fuel = some s) ∧ rayMeshEmbree embree id [(o, dir)] V F none = [s'] ∧ s.t = s'.t := by
  obtain ⟨T, N, s, h1, h2, h3, h4⟩ := C30_own_tree argsort hA o dir V F hne hM
  have hid : V.map (fun x (i : Fin 3) => id (x i)) = V := by
    have : (fun (x : Pt 3) (i : Fin 3) => id (x i)) = id := rfl
    rw [this, List.map_id]
  refine ⟨T, N, s, embreeRow (embree V F o dir 1e-4), h1, h2, ?_, ?_⟩
  · simp only [rayMeshEmbree, List.map_cons, List.map_nil, Option.getD_none, hid]; rfl
  have hback : ∀ e t, MeshHit o dir V F e t → TriHit o dir V F e t := by
    rintro e t ⟨f, x, y, z, a1, a2, a3, a4⟩
    exact ⟨f, x, y, z, a1, a2, fun h => by rw [h] at a3; norm_num at a3, a4⟩
  rcases embreeRow_ok he hM o dir with ⟨e1, -, -, e4⟩ | ⟨e, t, f, X, e1, e2, e3, e4, -, -, -, -, e9⟩
  · rw [e1, h3]
    intro e t h
    have := hback e t h
    exact absurd (e4 e t this) (not_lt.mpr (hnear e t this).1)
  · rw [e2, h4]
    exact ⟨⟨e, (hnear e t e3).2⟩, fun e' t' h => e9 e' t' (hback e' t' h) (hnear e' t' (hback e' t' h)).1⟩

/-- a triangle at height zero -/
def flatTriangle : List (Pt 3) := [![0, 0, 0], ![1, 0, 0], ![0, 1, 0]]

theorem flat_mesh : TriMesh flatTriangle [[0, 1, 2]] := by
  intro f hf
  rw [List.mem_singleton] at hf
  subst hf
  exact ⟨_, _, _, rfl⟩

theorem flat_hits {h : ℝ} (hh : 0 ≤ h) (e : ℕ) (t : ℝ) : TriHit ![1/4, 1/4, h] ![0, 0, -1] flatTriangle [[0, 1, 2]] e t ↔ e = 0 ∧ t = h := by
  constructor
  · rintro ⟨f, x, y, z, a1, a2, -, a4, w, hw, hx⟩
    have he : e = 0 := by
      rcases Nat.eq_zero_or_pos e with h | h
      · exact h
      · rw [List.getElem?_eq_none (by simp only [List.length_singleton]; omega)] at a1; exact absurd a1 (by simp)
    subst he
    simp only [List.getElem?_cons_zero, Option.some.injEq] at a1
    subst a1
    have : [x, y, z] = [![0, 0, 0], ![1, 0, 0], ![0, 1, 0]] := Option.some.inj (a2.symm.trans rfl)
    simp only [List.cons.injEq, and_true] at this
    obtain ⟨rfl, rfl, rfl⟩ := this
    obtain ⟨p, q, -, -, -, rfl⟩ := weights_triple hw
    have := congrFun hx 2
    simp [comb] at this
    exact ⟨rfl, by linarith⟩
  · rintro ⟨rfl, rfl⟩
    refine ⟨[0, 1, 2], ![0, 0, 0], ![1, 0, 0], ![0, 1, 0], rfl, rfl, ?_, hh, ?_⟩
    · simp only [rayDet, pdot3, pcross, Pi.sub_apply, vec0, vec1, vec2]; norm_num
    · refine ⟨[1/2, 1/4, 1/4], ⟨rfl, by simp, by norm_num⟩, ?_⟩
      funext i
      fin_cases i <;> simp [comb]

/-- **C131 violated**: the two paths disagree for a ray that starts closer than `1e-4` to the mesh: the Python path finds the hit, the default path finds none. -/
theorem C131_near_violated {embree : EmbreeLib} (he : EmbreeOk embree) (argsort : List ℝ → List ℕ) (hA : IsArgsort argsort) :
    ∃ (T : List (AabbNode 3)) (N : ℕ) (s s' : RmState), (∀ fuel, N ≤ fuel → initializeAabbtree argsort flatTriangle [[0, 1, 2]] none none fuel = some T) ∧
      (∀ fuel, N ≤ fuel → rayMeshIntersect ![1/4, 1/4, 1/20000] ![0, 0, -1] flatTriangle [[0, 1, 2]] T fuel = some s) ∧ s.t = ((1/20000 : ℝ) : WithTop ℝ) ∧
      rayMeshEmbree embree id [(![1/4, 1/4, 1/20000], ![0, 0, -1])] flatTriangle [[0, 1, 2]] none = [s'] ∧ s'.t = ⊤ ∧ s'.id = -1 := by
  obtain ⟨T, N, s, h1, h2, h3, h4⟩ := C30_own_tree argsort hA ![1/4, 1/4, 1/20000] ![0, 0, -1] flatTriangle [[0, 1, 2]] (by simp) flat_mesh
  have hid : flatTriangle.map (fun x (i : Fin 3) => id (x i)) = flatTriangle := by
    have : (fun (x : Pt 3) (i : Fin 3) => id (x i)) = id := rfl
    rw [this, List.map_id]
  have hback : ∀ e t, MeshHit ![1/4, 1/4, 1/20000] ![0, 0, -1] flatTriangle [[0, 1, 2]] e t → TriHit ![1/4, 1/4, 1/20000] ![0, 0, -1] flatTriangle [[0, 1, 2]] e t := by
    rintro e t ⟨f, x, y, z, a1, a2, a3, a4⟩
    exact ⟨f, x, y, z, a1, a2, fun h => by rw [h] at a3; norm_num at a3, a4⟩
  have hrow : embreeRow (embree flatTriangle [[0, 1, 2]] ![1/4, 1/4, 1/20000] ![0, 0, -1] 1e-4) = ⟨⊤, -1, ⟨0, 0, 0⟩⟩ := by
    rcases embreeRow_ok he flat_mesh ![1/4, 1/4, 1/20000] ![0, 0, -1] with ⟨e1, e2, e3, -⟩ | ⟨e, t, f, X, e1, e2, e3, e4, -⟩
    · rw [← e1, ← e2, ← e3]
    · have := ((flat_hits (by norm_num) e t).mp e3).2
      rw [this] at e4; norm_num at e4
  refine ⟨T, N, s, ⟨⊤, -1, ⟨0, 0, 0⟩⟩, h1, h2, ?_, ?_, rfl, rfl⟩
  · rw [h4]
    refine ⟨⟨0, ?_⟩, fun e' t' h => (((flat_hits (by norm_num) e' t').mp (hback e' t' h)).2).ge⟩
    obtain ⟨f, x, y, z, a1, a2, a3, a4⟩ := (flat_hits (h := 1/20000) (by norm_num) 0 (1/20000)).mpr ⟨rfl, rfl⟩
    refine ⟨f, x, y, z, a1, a2, ?_, a4⟩
    simp only [List.getElem?_cons_zero, Option.some.injEq] at a1
    subst a1
    have : [x, y, z] = [![0, 0, 0], ![1, 0, 0], ![0, 1, 0]] := Option.some.inj (a2.symm.trans rfl)
    simp only [List.cons.injEq, and_true] at this
    obtain ⟨rfl, rfl, rfl⟩ := this
    simp only [rayDet, pdot3, pcross, Pi.sub_apply, vec0, vec1, vec2]; norm_num
  · simp only [rayMeshEmbree, List.map_cons, List.map_nil, Option.getD_none, hid, List.cons.injEq, and_true]
    exact hrow

/-- **C131** The precomputed intersector: made for every nonempty list of triangles and refused for other rows; once made, it decides, whatever mesh is passed along. -/
theorem C131_precompute (embree : EmbreeLib) (f32 : ℝ → ℝ) (rays : List (Pt 3 × Pt 3)) (V : List (Pt 3)) (F : List (List ℕ)) :
    (F ≠ [] → (∀ f ∈ F, f.length = 3) → ∃ b, rmiPrecompute V F = some b) ∧ (∀ f F', F = f :: F' → f.length ≠ 3 → rmiPrecompute V F = none) ∧
    (∀ b, rmiPrecompute V F = some b → ∀ V' F', rayMeshEmbree embree f32 rays V' F' (some b) = rayMeshEmbree embree f32 rays V F none) := by
  refine ⟨fun h0 h => ?_, ?_, ?_⟩
  · cases F with
    | nil => exact absurd rfl h0
    | cons f F => exact ⟨_, by unfold rmiPrecompute; rw [if_pos (by simpa using h f (by simp))]⟩
  · rintro f F' rfl h
    unfold rmiPrecompute
    rw [if_neg (by simpa using h)]
  · intro b h V' F'
    unfold rmiPrecompute at h
    split_ifs at h
    obtain rfl := Option.some.inj h
    rfl

end Gpy
