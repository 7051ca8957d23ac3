import Verif.Proofs.Ray
import Verif.Proofs.MinimumDistance
import Verif.Props.MinimumDistance

/-! C28–C30: rays against boxes, triangles and meshes. -/

set_option autoImplicit false
namespace Gpy
open Np
variable {d : ℕ}

/-- C28.  `ray_box_intersect(o,dir,C,W)` reports a hit exactly if some point `o+t·dir`, `t ≥ 0`, lies in the closed box (any direction, also zero or parallel to
sides; widths may be zero); the point returned is then the first such point, and it is `o` itself exactly when it is the start of the ray. -/
theorem C28_ray_box [NeZero d] (o dir C W : Pt d) (hW : ∀ i, 0 ≤ W i) :
    ((rayBoxIntersect o dir C W).isSome = true ↔ ∃ t, 0 ≤ t ∧ InBox C W (fun i => o i + t * dir i)) ∧
    (∀ x, rayBoxIntersect o dir C W = some x → ∃ t, 0 ≤ t ∧ x = (fun i => o i + t * dir i) ∧ InBox C W x ∧
      ∀ t', 0 ≤ t' → InBox C W (fun i => o i + t' * dir i) → t ≤ t') ∧
    (InBox C W o → rayBoxIntersect o dir C W = some o) := by
  obtain ⟨h1, h2⟩ := rayBox_spec o dir C W hW
  refine ⟨⟨?_, ?_⟩, h1, ?_⟩
  · intro h
    obtain ⟨x, hx⟩ := Option.isSome_iff_exists.mp h
    obtain ⟨t, ht, e, hb, -⟩ := h1 x hx
    exact ⟨t, ht, e ▸ hb⟩
  · rintro ⟨t, ht, hb⟩
    exact h2 t ht hb
  · intro hb
    have hs := h2 0 le_rfl (by simpa using hb)
    obtain ⟨x, hx⟩ := Option.isSome_iff_exists.mp hs
    obtain ⟨t, ht, e, -, hmin⟩ := h1 x hx
    have : t = 0 := le_antisymm (hmin 0 le_rfl (by simpa using hb)) ht
    rw [hx, e, this]
    simp

/-- a ray parallel to an axis meets a box in the plane -/
example : ∃ x, rayBoxIntersect (![-3, 0] : Pt 2) ![1, 0] ![0, 0] ![2, 2] = some x ∧ x = ![-1, 0] := by
  have hW : ∀ i, 0 ≤ (![2, 2] : Pt 2) i := by rw [Fin.forall_fin_two]; simp
  obtain ⟨h1, h2, -⟩ := C28_ray_box (![-3, 0] : Pt 2) ![1, 0] ![0, 0] ![2, 2] hW
  have hb : ∀ t, InBox (![0, 0] : Pt 2) ![2, 2] (fun i => (![-3, 0] : Pt 2) i + t * (![1, 0] : Pt 2) i) ↔ 2 ≤ t ∧ t ≤ 4 := by
    intro t
    unfold InBox
    rw [Fin.forall_fin_two]
    simp
    constructor
    · rintro ⟨a, b⟩; constructor <;> linarith
    · rintro ⟨a, b⟩; constructor <;> linarith
  obtain ⟨x, hx⟩ := Option.isSome_iff_exists.mp (h1.mpr ⟨2, by norm_num, (hb 2).mpr ⟨le_rfl, by norm_num⟩⟩)
  obtain ⟨t, ht, e, hin, hmin⟩ := h2 x hx
  have t2 : t = 2 := le_antisymm (hmin 2 (by norm_num) ((hb 2).mpr ⟨le_rfl, by norm_num⟩)) ((hb t).mp (e ▸ hin)).1
  refine ⟨x, hx, ?_⟩
  rw [e, t2]
  funext i
  revert i
  rw [Fin.forall_fin_two]
  simp
  norm_num

/-- the ray `o + t·dir` is at parameter `t ≥ 0` in the triangle `v0 v1 v2` -/
def RayMeets (o dir v0 v1 v2 : Pt 3) (t : ℝ) : Prop :=
  0 ≤ t ∧ ∃ w, IsWeights w 3 ∧ (fun i => o i + t * dir i) = comb w [v0, v1, v2]

/-- the determinant `(v1-v0)·(dir×(v2-v0))` that `ray_triangle_intersect` compares with `1e-6`; it is `±2·area·(length of dir)·cos` of the angle to the
normal -/
noncomputable def rayDet (dir v0 v1 v2 : Pt 3) : ℝ := pdot (v1 - v0) (pcross dir (v2 - v0))

theorem weights3_iff (v0 v1 v2 x : Pt 3) : (∃ w, IsWeights w 3 ∧ x = comb w [v0, v1, v2]) ↔
    ∃ u v, 0 ≤ u ∧ 0 ≤ v ∧ u + v ≤ 1 ∧ x = fun i => (1 - u - v) * v0 i + u * v1 i + v * v2 i := by
  have e : ∀ u v, comb [1 - u - v, u, v] [v0, v1, v2] = fun i => (1 - u - v) * v0 i + u * v1 i + v * v2 i := by
    intro u v; funext i; simp [comb]; ring
  constructor
  · rintro ⟨w, hw, rfl⟩
    obtain ⟨s, t, h1, h2, h3, rfl⟩ := weights_triple hw
    exact ⟨s, t, h1, h2, h3, e s t⟩
  · rintro ⟨u, v, h1, h2, h3, rfl⟩
    refine ⟨[1 - u - v, u, v], ⟨rfl, ?_, by simp⟩, (e u v).symm⟩
    simp only [List.mem_cons, List.not_mem_nil, or_false]
    rintro x (rfl | rfl | rfl)
    · linarith
    · exact h1
    · exact h2

/-- C29.  If `|(v1-v0)·(dir×(v2-v0))| ≥ 1e-6`, then `ray_triangle_intersect` reports `t` and the point `x` exactly if the ray is at parameter `t ≥ 0` in the
triangle and `x = o + t·dir`.  Otherwise it reports no hit. -/
theorem C29_ray_triangle (o dir v0 v1 v2 : Pt 3) :
    (1e-6 ≤ |rayDet dir v0 v1 v2| → ∀ t x, rayTriangleIntersect o dir v0 v1 v2 = some (t, x) ↔
      RayMeets o dir v0 v1 v2 t ∧ x = fun i => o i + t * dir i) ∧
    (|rayDet dir v0 v1 v2| < 1e-6 → rayTriangleIntersect o dir v0 v1 v2 = none) := by
  constructor
  · intro hd t x
    rw [rayTriangle_some]
    unfold RayMeets
    rw [weights3_iff]
    constructor
    · rintro ⟨-, h, rfl, hw⟩
      rcases h with h | h
      · cases h
      · exact ⟨⟨h, hw⟩, rfl⟩
    · rintro ⟨⟨h, hw⟩, rfl⟩
      exact ⟨hd, Or.inr h, rfl, hw⟩
  · intro hd
    unfold rayTriangleIntersect
    unfold rayDet at hd
    simp only
    rw [if_pos hd]

/-- C29, `return_negative=True`: hits behind the origin are reported as well. -/
theorem C29_return_negative (o dir v0 v1 v2 : Pt 3) (hd : 1e-6 ≤ |rayDet dir v0 v1 v2|) (t : ℝ) (x : Pt 3) :
    rayTriangleIntersect o dir v0 v1 v2 true = some (t, x) ↔
      (∃ w, IsWeights w 3 ∧ x = comb w [v0, v1, v2]) ∧ x = fun i => o i + t * dir i := by
  rw [rayTriangle_some, weights3_iff]
  constructor
  · rintro ⟨-, -, h, hw⟩
    exact ⟨hw, h⟩
  · rintro ⟨hw, h⟩
    exact ⟨hd, Or.inl rfl, h, hw⟩

/-- C29.  At most one parameter is reported, and the hit is unique when the determinant is not small. -/
theorem C29_unique (o dir v0 v1 v2 : Pt 3) (hd : 1e-6 ≤ |rayDet dir v0 v1 v2|) (t t' : ℝ)
    (h : RayMeets o dir v0 v1 v2 t) (h' : RayMeets o dir v0 v1 v2 t') : t = t' := by
  have a := ((C29_ray_triangle o dir v0 v1 v2).1 hd t _).mpr ⟨h, rfl⟩
  have b := ((C29_ray_triangle o dir v0 v1 v2).1 hd t' _).mpr ⟨h', rfl⟩
  rw [a] at b
  simp only [Option.some.injEq, Prod.mk.injEq] at b
  exact b.1

/-- The threshold is absolute: a right triangle with legs `1/2000` is never hit by a ray of unit direction, although the ray from height one above it runs
straight through its inside. -/
theorem C29_small_triangle_missed : ∃ o dir v0 v1 v2 : Pt 3, psq dir = 1 ∧ RayMeets o dir v0 v1 v2 1 ∧
    rayTriangleIntersect o dir v0 v1 v2 = none := by
  refine ⟨![1/8000, 1/8000, 1], ![0, 0, -1], ![0, 0, 0], ![1/2000, 0, 0], ![0, 1/2000, 0], ?_, ⟨by norm_num, ?_⟩, ?_⟩
  · simp only [psq3, vec0, vec1, vec2]; norm_num
  · rw [weights3_iff]
    refine ⟨1/4, 1/4, by norm_num, by norm_num, by norm_num, ?_⟩
    funext i
    match i with
    | 0 => simp only [vec0]; norm_num
    | 1 => simp only [vec1]; norm_num
    | 2 => simp only [vec2]; norm_num
  · apply (C29_ray_triangle _ _ _ _ _).2
    simp only [rayDet, pdot3, pcross, Pi.sub_apply, vec0, vec1, vec2]
    rw [abs_lt]; norm_num

/-- the same configuration in a larger size is reported -/
example : ∃ x, rayTriangleIntersect ![1/4, 1/4, 1] ![0, 0, -1] ![0, 0, 0] ![1, 0, 0] ![0, 1, 0] = some (1, x) := by
  refine ⟨_, ((C29_ray_triangle _ _ _ _ _).1 ?_ 1 _).mpr ⟨⟨by norm_num, ?_⟩, rfl⟩⟩
  · simp only [rayDet, pdot3, pcross, Pi.sub_apply, vec0, vec1, vec2]
    rw [le_abs]; norm_num
  · rw [weights3_iff]
    refine ⟨1/4, 1/4, by norm_num, by norm_num, by norm_num, ?_⟩
    funext i
    match i with
    | 0 => simp only [vec0]; norm_num
    | 1 => simp only [vec1]; norm_num
    | 2 => simp only [vec2]; norm_num

/-- every row of `F` names three vertices of `V` -/
def TriMesh (V : List (Pt 3)) (F : List (List ℕ)) : Prop := ∀ f ∈ F, ∃ x y z, f.mapM (fun i => V[i]?) = some [x, y, z]

theorem TriMesh.corners {V : List (Pt 3)} {F : List (List ℕ)} (h : TriMesh V F) {e : ℕ} (he : e < F.length) :
    ∃ f x y z, F[e]? = some f ∧ f.mapM (fun i => V[i]?) = some [x, y, z] ∧ triCorners V F e = some (x, y, z) := by
  obtain ⟨x, y, z, h1⟩ := h F[e] (List.getElem_mem he)
  refine ⟨F[e], x, y, z, List.getElem?_eq_getElem he, h1, ?_⟩
  unfold triCorners
  rw [npGet?_natCast, List.getElem?_eq_getElem he]
  obtain ⟨i, t, e1, a1, a2⟩ := mapM_cons_inv h1
  obtain ⟨j, t, rfl, b1, b2⟩ := mapM_cons_inv a2
  obtain ⟨k, t, rfl, c1, c2⟩ := mapM_cons_inv b2
  obtain rfl := mapM_nil_inv c2
  simp [e1, a1, b1, c1]

/-- the ray is at parameter `t ≥ 0` in triangle `e` of the mesh, and not (nearly) parallel to it in the sense of the threshold of the code -/
def MeshHit (o dir : Pt 3) (V : List (Pt 3)) (F : List (List ℕ)) (e : ℕ) (t : ℝ) : Prop :=
  ∃ f x y z, F[e]? = some f ∧ f.mapM (fun i => V[i]?) = some [x, y, z] ∧ 1e-6 ≤ |rayDet dir x y z| ∧ RayMeets o dir x y z t

/-- hit parameter of triangle `e` -/
noncomputable def rmVal (o dir : Pt 3) (V : List (Pt 3)) (F : List (List ℕ)) (e : ℕ) : WithTop ℝ :=
  match triCorners V F e with
  | none => ⊤
  | some S => match rayTriangleIntersect o dir S.1 S.2.1 S.2.2 with
    | none => ⊤
    | some r => (r.1 : WithTop ℝ)

theorem rmVal_eq {o dir : Pt 3} {V : List (Pt 3)} {F : List (List ℕ)} {e : ℕ} (he : e < F.length) (hM : TriMesh V F) (t : ℝ) :
    rmVal o dir V F e = (t : WithTop ℝ) ↔ MeshHit o dir V F e t := by
  obtain ⟨f, x, y, z, h1, h2, h3⟩ := hM.corners he
  unfold rmVal MeshHit
  rw [h3]
  simp only
  constructor
  · intro h
    cases hr : rayTriangleIntersect o dir x y z with
    | none => rw [hr] at h; simp at h
    | some r =>
      rw [hr] at h
      simp only [WithTop.coe_inj] at h
      by_cases hd : 1e-6 ≤ |rayDet dir x y z|
      · refine ⟨f, x, y, z, h1, h2, hd, ?_⟩
        have := ((C29_ray_triangle o dir x y z).1 hd r.1 r.2).mp hr
        rw [← h]; exact this.1
      · rw [(C29_ray_triangle o dir x y z).2 (not_le.mp hd)] at hr; cases hr
  · rintro ⟨f', x', y', z', g1, g2, g3, g4⟩
    rw [h1] at g1; cases g1
    rw [h2] at g2; cases g2
    rw [((C29_ray_triangle o dir x y z).1 g3 t _).mpr ⟨g4, rfl⟩]

theorem rmVal_ge_box {o dir : Pt 3} {V : List (Pt 3)} {F : List (List ℕ)} (hM : TriMesh V F) {n : AabbNode 3} {e : ℕ} (he : e < F.length)
    (hn : ElemIn V F n e) (k : Fin 3) :
    match rayBoxIntersect o dir n.C n.W with
    | none => rmVal o dir V F e = ⊤
    | some x => (((x k - o k) / dir k : ℝ) : WithTop ℝ) ≤ rmVal o dir V F e := by
  have hW : ∀ i, 0 ≤ n.W i := by
    obtain ⟨f, x, y, z, h1, h2, -⟩ := hM.corners he
    obtain ⟨i, hi, hx⟩ := mapM_mem h2 x (by simp)
    intro j
    obtain ⟨a, b⟩ := hn f h1 i hi x hx j
    linarith
  obtain ⟨b1, b2⟩ := rayBox_spec o dir n.C n.W hW
  have key : ∀ t : ℝ, rmVal o dir V F e = (t : WithTop ℝ) → 0 ≤ t ∧ InBox n.C n.W (fun i => o i + t * dir i) := by
    intro t ht
    obtain ⟨f, x, y, z, g1, g2, -, g0, w, hw, e'⟩ := (rmVal_eq he hM t).mp ht
    refine ⟨g0, ?_⟩
    rw [e']
    apply comb_inBox hw
    intro u hu
    obtain ⟨i, hi, hui⟩ := mapM_mem g2 u hu
    exact hn f g1 i hi u hui
  split
  · next hr =>
    cases hv : rmVal o dir V F e with
    | top => rfl
    | coe t =>
      obtain ⟨h0, hb⟩ := key t hv
      have := b2 t h0 hb
      rw [hr] at this; cases this
  · next x hr =>
    cases hv : rmVal o dir V F e with
    | top => exact le_top
    | coe t =>
      obtain ⟨h0, hb⟩ := key t hv
      obtain ⟨s, s0, s1, -, s3⟩ := b1 x hr
      rw [WithTop.coe_le_coe, s1]
      simp only [add_sub_cancel_left]
      by_cases hd : dir k = 0
      · rw [hd, div_zero]; exact h0
      · rw [mul_div_assoc, div_self hd, mul_one]; exact s3 t h0 hb

/-- the recorded triangle attains the recorded parameter, with its barycentric weights -/
def RmGood (o dir : Pt 3) (V : List (Pt 3)) (F : List (List ℕ)) (s : RmState) : Prop :=
  (s.t = ⊤ ∧ s.id = -1 ∧ s.lmbd = ⟨0, 0, 0⟩) ∨ ∃ (e : ℕ) (t : ℝ) (f : List ℕ) (X : List (Pt 3)), e < F.length ∧ s.id = e ∧ s.t = (t : WithTop ℝ) ∧ MeshHit o dir V F e t ∧
    F[e]? = some f ∧ f.mapM (fun i => V[i]?) = some X ∧ IsWeights [s.lmbd.x, s.lmbd.y, s.lmbd.z] 3 ∧
    (fun i => o i + t * dir i) = comb [s.lmbd.x, s.lmbd.y, s.lmbd.z] X

theorem bary_hit {dir x y z p : Pt 3} (hd : 1e-6 ≤ |rayDet dir x y z|) {w : List ℝ} (hw : IsWeights w 3) (hp : p = comb w [x, y, z]) :
    let b := barycentric3 (toV3 rfl p) (toV3 rfl x) (toV3 rfl y) (toV3 rfl z)
    IsWeights [b.x, b.y, b.z] 3 ∧ p = comb [b.x, b.y, b.z] [x, y, z] := by
  obtain ⟨s, t, h1, h2, h3, rfl⟩ := weights_triple hw
  have hN : V3.cross (toV3 rfl y - toV3 rfl x) (toV3 rfl z - toV3 rfl x) ≠ (0 : V3 ℝ) := by
    intro h
    have hx := congrArg V3.x h
    have hy := congrArg V3.y h
    have hz := congrArg V3.z h
    simp only [V3.cross, toV3, V3.sub_x, V3.sub_y, V3.sub_z, V3.zero_x, V3.zero_y, V3.zero_z] at hx hy hz
    have e0 : (⟨0, by omega⟩ : Fin 3) = 0 := rfl
    have e1 : (⟨1, by omega⟩ : Fin 3) = 1 := rfl
    have e2 : (⟨2, by omega⟩ : Fin 3) = 2 := rfl
    simp only [e0, e1, e2] at hx hy hz
    have : rayDet dir x y z = 0 := by
      simp only [rayDet, pdot3, pcross, Pi.sub_apply]
      linear_combination (-dir 0) * hx - dir 1 * hy - dir 2 * hz
    rw [this] at hd
    norm_num at hd
  have e : toV3 rfl p = (1 - s - t) • toV3 rfl x + s • toV3 rfl y + t • toV3 rfl z := by
    rw [← toV3_comb rfl x y z s t, hp]
    congr 1
    funext i; simp [comb]; ring
  have hb := (C38_barycentric_3d (toV3 rfl x) (toV3 rfl y) (toV3 rfl z) hN).1 (1 - s - t) s t (by ring)
  intro b
  have : b = ⟨1 - s - t, s, t⟩ := by
    show barycentric3 (toV3 rfl p) (toV3 rfl x) (toV3 rfl y) (toV3 rfl z) = _
    rw [e]; exact hb
  rw [this]
  exact ⟨hw, hp⟩

/-- C30.  On every valid tree, for every ray, the Python path of `ray_mesh_intersect` stops and returns: infinity, id `-1` and zero
weights if no triangle of the mesh is hit; else the parameter `t` of a hit, a triangle hit at that parameter and the barycentric weights of the hit point in this
triangle, and no triangle is hit at a smaller parameter. -/
theorem C30_ray_mesh (o dir : Pt 3) (V : List (Pt 3)) (F : List (List ℕ)) (T : List (AabbNode 3)) (hM : TriMesh V F)
    (hT : ValidTree V F T) :
    ∃ (N : ℕ) (s : RmState), (∀ fuel, N ≤ fuel → rayMeshIntersect o dir V F T fuel = some s) ∧
      ((s.t = ⊤ ∧ s.id = -1 ∧ s.lmbd = ⟨0, 0, 0⟩ ∧ ∀ e t, ¬ MeshHit o dir V F e t) ∨
       ∃ (e : ℕ) (t : ℝ) (f : List ℕ) (X : List (Pt 3)), s.id = e ∧ s.t = (t : WithTop ℝ) ∧ MeshHit o dir V F e t ∧
        F[e]? = some f ∧ f.mapM (fun i => V[i]?) = some X ∧ IsWeights [s.lmbd.x, s.lmbd.y, s.lmbd.z] 3 ∧
        (fun i => o i + t * dir i) = comb [s.lmbd.x, s.lmbd.y, s.lmbd.z] X ∧
        ∀ e' t', MeshHit o dir V F e' t' → t ≤ t') := by
  obtain ⟨L, hc, hL⟩ := hT
  have H := traverse_bnb (V := V) (F := F) (T := T) (visit := rmVisit o dir V F) (addq := rmAdd) RmState.t (rmVal o dir V F)
    (RmGood o dir V F) F.length ?_ ?_ (fun _ _ _ => Or.inl rfl)
  · obtain ⟨s, h1, h2, -, h4⟩ := H (weight L) [(0, L)] ⟨⊤, -1, ⟨0, 0, 0⟩⟩ (by simpa using ⟨hc, fun e he => (hL e).mp he⟩)
      (Or.inl ⟨rfl, rfl, rfl⟩) (by simp)
    have low : ∀ e t, MeshHit o dir V F e t → s.t ≤ (t : WithTop ℝ) := by
      intro e t h
      have hlt : e < F.length := by
        obtain ⟨f, x, y, z, g, -⟩ := h
        exact (List.getElem?_eq_some_iff.mp g).1
      have := h4 (0, L) (by simp) e ((hL e).mpr hlt)
      rwa [(rmVal_eq hlt hM t).mpr h] at this
    refine ⟨weight L, s, fun fuel hf => traverse_mono _ _ _ _ h1 fuel hf, ?_⟩
    rcases h2 with ⟨a, b, c⟩ | ⟨e, t, f, X, -, a1, a2, a3, a4, a5, a6, a7⟩
    · left
      refine ⟨a, b, c, ?_⟩
      intro e t h
      have := low e t h
      rw [a] at this
      simp at this
    · right
      refine ⟨e, t, f, X, a1, a2, a3, a4, a5, a6, a7, ?_⟩
      intro e' t' h
      have := low e' t' h
      rw [a2, WithTop.coe_le_coe] at this
      exact this
  · intro s n e hn hch htri he hs
    obtain ⟨f, x, y, z, h1, h2, h3⟩ := hM.corners he
    unfold rmVisit
    simp only [if_true, htri, h3, Option.bind_eq_bind, Option.bind_some]
    cases hr : rayTriangleIntersect o dir x y z with
    | none =>
      refine ⟨_, _, rfl, hs, ?_⟩
      have : rmVal o dir V F e = ⊤ := by unfold rmVal; rw [h3]; simp only [hr]
      rw [this, min_top_right]
    | some r =>
      obtain ⟨t, p⟩ := r
      have hv : rmVal o dir V F e = (t : WithTop ℝ) := by unfold rmVal; rw [h3]; simp only [hr]
      have hhit := (rmVal_eq he hM t).mp hv
      simp only
      by_cases hb : (t : WithTop ℝ) < s.t
      · rw [if_pos hb]
        refine ⟨_, _, rfl, Or.inr ⟨e, t, f, [x, y, z], he, rfl, rfl, hhit, h1, h2, ?_⟩, ?_⟩
        · obtain ⟨f', x', y', z', g1, g2, g3, g4, w, hw, g5⟩ := hhit
          rw [h1] at g1; cases g1
          rw [h2] at g2; cases g2
          have hp := (((C29_ray_triangle o dir x y z).1 g3 t p).mp hr).2
          rw [← hp] at g5
          have := bary_hit g3 hw g5
          rw [← hp]
          exact this
        · show (t : WithTop ℝ) = _
          rw [hv, min_eq_right hb.le]
      · rw [if_neg hb]
        refine ⟨_, _, rfl, hs, ?_⟩
        rw [hv, min_eq_left (not_lt.mp hb)]
  · intro s n es hn hch hel hs
    unfold rmVisit
    obtain ⟨k, hk, -⟩ := npArgmax_some (fun i => |dir i|)
    simp only [Bool.false_eq_true, if_false, Option.bind_eq_bind, hk, Option.bind_some]
    have bound := fun e (he : e ∈ es) => rmVal_ge_box (o := o) (dir := dir) hM (hel e he).2 (hel e he).1 k
    cases hr : rayBoxIntersect o dir n.C n.W with
    | none =>
      refine ⟨_, _, rfl, hs, rfl, ?_⟩
      intro _ e he
      have := bound e he
      rw [hr] at this
      rw [this]; exact le_top
    | some x =>
      refine ⟨_, _, rfl, hs, rfl, ?_⟩
      intro hf e he
      have := bound e he
      rw [hr] at this
      have hf' := of_decide_eq_false hf
      exact (not_lt.mp hf').trans this

/-- C30, with the tree that `ray_mesh_intersect` builds itself: a ray meets the mesh (not parallel to the triangle, in the sense of the threshold) exactly if the
returned parameter is finite, and then it is the smallest. -/
theorem C30_own_tree (argsort : List ℝ → List ℕ) (hA : IsArgsort argsort) (o dir : Pt 3) (V : List (Pt 3)) (F : List (List ℕ)) (hne : F ≠ [])
    (hM : TriMesh V F) :
    ∃ (T : List (AabbNode 3)) (N : ℕ) (s : RmState), (∀ fuel, N ≤ fuel → initializeAabbtree argsort V F none none fuel = some T) ∧
      (∀ fuel, N ≤ fuel → rayMeshIntersect o dir V F T fuel = some s) ∧
      (s.t = ⊤ ↔ ∀ e t, ¬ MeshHit o dir V F e t) ∧
      ∀ t : ℝ, s.t = (t : WithTop ℝ) ↔ (∃ e, MeshHit o dir V F e t) ∧ ∀ e' t', MeshHit o dir V F e' t' → t ≤ t' := by
  have hR : ElemsInRange F V.length := by
    intro f hf
    obtain ⟨x, y, z, h1⟩ := hM f hf
    exact mapM_lt f _ h1
  have hV : V ≠ [] := by
    obtain ⟨f, hf⟩ := List.exists_mem_of_ne_nil _ hne
    obtain ⟨x, y, z, h1⟩ := hM f hf
    obtain ⟨i, t, -, a1, -⟩ := mapM_cons_inv h1
    rintro rfl
    simp at a1
  obtain ⟨T, t1, -, ⟨L, c, p⟩, -⟩ := C24_aabbtree argsort hA V F none none hV hne hR
    ⟨fun v h => by simp at h, fun v h => by simp at h⟩
  obtain ⟨N, s, s1, s2⟩ := C30_ray_mesh o dir V F T hM ⟨L, c, fun e => by rw [p.mem_iff, List.mem_range]⟩
  refine ⟨T, max N (2 * F.length), s, fun fuel hf => t1 fuel (le_trans (le_max_right _ _) hf),
    fun fuel hf => s1 fuel (le_trans (le_max_left _ _) hf), ?_⟩
  rcases s2 with ⟨a, -, -, b⟩ | ⟨e, t, f, X, -, a2, a3, -, -, -, -, a8⟩
  · refine ⟨⟨fun _ => b, fun _ => a⟩, ?_⟩
    intro t
    rw [a]
    constructor
    · intro h; simp at h
    · rintro ⟨⟨e, h⟩, -⟩; exact absurd h (b e t)
  · refine ⟨⟨?_, ?_⟩, ?_⟩
    · intro h; rw [a2] at h; simp at h
    · intro h; exact absurd a3 (h e t)
    · intro t'
      rw [a2, WithTop.coe_inj]
      constructor
      · rintro rfl; exact ⟨⟨e, a3⟩, a8⟩
      · rintro ⟨⟨e', h1⟩, h2⟩
        exact le_antisymm (a8 e' t' h1) (h2 e t a3)

/-- a mesh of two triangles and a ray that hits the first at parameter one -/
example : TriMesh [![0, 0, 0], ![1, 0, 0], ![0, 1, 0], ![0, 0, 1]] [[0, 1, 2], [1, 3, 2]] ∧
    MeshHit ![1/4, 1/4, 1] ![0, 0, -1] [![0, 0, 0], ![1, 0, 0], ![0, 1, 0], ![0, 0, 1]] [[0, 1, 2], [1, 3, 2]] 0 1 := by
  constructor
  · intro f hf
    simp only [List.mem_cons, List.not_mem_nil, or_false] at hf
    rcases hf with rfl | rfl
    · exact ⟨![0, 0, 0], ![1, 0, 0], ![0, 1, 0], rfl⟩
    · exact ⟨![1, 0, 0], ![0, 0, 1], ![0, 1, 0], rfl⟩
  · refine ⟨[0, 1, 2], ![0, 0, 0], ![1, 0, 0], ![0, 1, 0], rfl, rfl, ?_, by norm_num, ?_⟩
    · simp only [rayDet, pdot3, pcross, Pi.sub_apply, vec0, vec1, vec2]
      rw [le_abs]; norm_num
    · rw [weights3_iff]
      refine ⟨1/4, 1/4, by norm_num, by norm_num, by norm_num, ?_⟩
      funext i
      match i with
      | 0 => simp only [vec0]; norm_num
      | 1 => simp only [vec1]; norm_num
      | 2 => simp only [vec2]; norm_num

end Gpy
