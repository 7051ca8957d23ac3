import Verif.Model.Normals
import Verif.Props.HalfedgeEdgeMap
import Verif.Props.Mass
import Mathlib.Analysis.SpecialFunctions.Complex.Arg

/-! C69 - C71: `per_face_normals`, `per_vertex_normals`, `dihedral_angles`. -/

set_option autoImplicit false
namespace Gpy
open Np

/-- The (not normalised) normal of a triangle: the cross product of its first two edges, of length twice the area. -/
def triNormal (V : List (V3 ℝ)) (t : Tri) : V3 ℝ := V3.cross (V.getD t.b 0 - V.getD t.a 0) (V.getD t.c 0 - V.getD t.a 0)

theorem norm_eq_zero_iff (n : V3 ℝ) : n.norm = 0 ↔ n = 0 := by
  constructor
  · intro h
    have : V3.normSq n = 0 := by rw [← V3.norm_sq, h]; ring
    obtain ⟨h1, h2, h3⟩ := V3.eq_zero_of_normSq this
    exact V3.ext h1 h2 h3
  · rintro rfl
    unfold V3.norm V3.normSq V3.dot
    simp

theorem unitRow3_zero : unitRow3 0 = none := by
  unfold unitRow3; rw [if_pos ((norm_eq_zero_iff 0).mpr rfl)]

theorem unitRow3_some {n : V3 ℝ} (h : n ≠ 0) : unitRow3 n = some ((1 / n.norm) • n) := by
  unfold unitRow3
  rw [if_neg (fun hc => h ((norm_eq_zero_iff n).mp hc))]
  congr 1
  apply V3.ext <;> simp only [V3.smul_x, V3.smul_y, V3.smul_z] <;> ring

theorem perFaceNormals_eq {V : List (V3 ℝ)} {F : List Tri} (hF : InRange F V.length) (b : Bool) :
    perFaceNormals V F b = some (F.map (fun t => if b then unitRow3 (triNormal V t) else some (triNormal V t))) := by
  unfold perFaceNormals
  rw [mapM_eq_some_map (g := fun t => (V.getD t.a 0, V.getD t.b 0, V.getD t.c 0)) (fun t ht => cornersOf_some (hF t ht))]
  simp only [Option.bind_eq_bind, Option.bind_some, List.map_map]
  cases b <;> simp [Function.comp_def, triNormal]

/-- `n` is the unit normal of `t`: of length one, orthogonal to the triangle, and oriented by the right-hand rule. -/
def IsUnitNormal (V : List (V3 ℝ)) (t : Tri) (n : V3 ℝ) : Prop :=
  V3.normSq n = 1 ∧ V3.dot n (V.getD t.b 0 - V.getD t.a 0) = 0 ∧ V3.dot n (V.getD t.c 0 - V.getD t.a 0) = 0 ∧
    0 < V3.dot n (V3.cross (V.getD t.b 0 - V.getD t.a 0) (V.getD t.c 0 - V.getD t.a 0))

theorem isUnitNormal_unit {V : List (V3 ℝ)} {t : Tri} (h : PosArea V t) :
    ∃ n, unitRow3 (triNormal V t) = some n ∧ n = (1 / (triNormal V t).norm) • triNormal V t ∧ 0 < (triNormal V t).norm ∧
      IsUnitNormal V t n := by
  have hne : triNormal V t ≠ 0 := h
  have hp : 0 < (triNormal V t).norm :=
    lt_of_le_of_ne (V3.norm_nonneg _) (fun hc => hne ((norm_eq_zero_iff _).mp hc.symm))
  have hsq := V3.norm_sq (triNormal V t)
  refine ⟨_, unitRow3_some hne, rfl, hp, ?_, ?_, ?_, ?_⟩
  · have : V3.normSq ((1 / (triNormal V t).norm) • triNormal V t) = (1 / (triNormal V t).norm) ^ 2 * V3.normSq (triNormal V t) := by
      simp only [V3.normSq, V3.dot, V3.smul_x, V3.smul_y, V3.smul_z]; ring
    rw [this, ← hsq]
    field_simp
  · simp only [triNormal, V3.dot, V3.smul_x, V3.smul_y, V3.smul_z, V3.cross]; ring
  · simp only [triNormal, V3.dot, V3.smul_x, V3.smul_y, V3.smul_z, V3.cross]; ring
  · have : V3.dot ((1 / (triNormal V t).norm) • triNormal V t) (triNormal V t) = (1 / (triNormal V t).norm) * V3.normSq (triNormal V t) := by
      simp only [V3.normSq, V3.dot, V3.smul_x, V3.smul_y, V3.smul_z]; ring
    change 0 < V3.dot ((1 / (triNormal V t).norm) • triNormal V t) (triNormal V t)
    rw [this, ← hsq]
    positivity

/-- a triangle has only one unit normal -/
theorem IsUnitNormal.unique {V : List (V3 ℝ)} {t : Tri} {n n' : V3 ℝ} (h : IsUnitNormal V t n) (h' : IsUnitNormal V t n') :
    n = n' := by
  obtain ⟨h1, h2, h3, h4⟩ := h
  obtain ⟨g1, g2, g3, g4⟩ := h'
  generalize V.getD t.b 0 - V.getD t.a 0 = p at *
  generalize V.getD t.c 0 - V.getD t.a 0 = q at *
  set w := V3.cross p q with hw
  -- both are parallel to `w`
  have par : ∀ m : V3 ℝ, V3.dot m p = 0 → V3.dot m q = 0 → V3.normSq w • m = V3.dot m w • w := by
    intro m hp hq
    have hp' : m.x * p.x + m.y * p.y + m.z * p.z = 0 := hp
    have hq' : m.x * q.x + m.y * q.y + m.z * q.z = 0 := hq
    have key : V3.cross m w = 0 := by
      apply V3.ext <;> simp only [hw, V3.cross, V3.zero_x, V3.zero_y, V3.zero_z]
      · linear_combination p.x * hq' - q.x * hp'
      · linear_combination p.y * hq' - q.y * hp'
      · linear_combination p.z * hq' - q.z * hp'
    have kx := congrArg V3.x key
    have ky := congrArg V3.y key
    have kz := congrArg V3.z key
    simp only [V3.cross, V3.zero_x, V3.zero_y, V3.zero_z] at kx ky kz
    apply V3.ext <;> simp only [V3.smul_x, V3.smul_y, V3.smul_z, V3.normSq, V3.dot]
    · linear_combination w.y * kz - w.z * ky
    · linear_combination w.z * kx - w.x * kz
    · linear_combination w.x * ky - w.y * kx
  have e1 := par n h2 h3
  have e2 := par n' g2 g3
  set W := V3.normSq w
  have hW : 0 < W := by
    rcases lt_or_eq_of_le (V3.normSq_nonneg w) with h | h
    · exact h
    · exfalso
      obtain ⟨z1, z2, z3⟩ := V3.eq_zero_of_normSq h.symm
      have : V3.dot n w = 0 := by simp only [V3.dot, z1, z2, z3]; ring
      linarith
  -- `W² |n|² = (n·w)² W`, hence `(n·w)² = W`
  have len : ∀ m : V3 ℝ, V3.normSq m = 1 → W • m = V3.dot m w • w → (V3.dot m w) ^ 2 = W := by
    intro m hm he
    have hx := congrArg V3.x he
    have hy := congrArg V3.y he
    have hz := congrArg V3.z he
    simp only [V3.smul_x, V3.smul_y, V3.smul_z] at hx hy hz
    have : V3.dot m (W • m) = V3.dot m (V3.dot m w • w) := by rw [he]
    have l : V3.dot m (W • m) = W * V3.normSq m := by
      simp only [V3.normSq, V3.dot, V3.smul_x, V3.smul_y, V3.smul_z]; ring
    have r : V3.dot m (V3.dot m w • w) = V3.dot m w * V3.dot m w := by
      simp only [V3.dot, V3.smul_x, V3.smul_y, V3.smul_z]; ring
    rw [l, r, hm] at this
    rw [sq, ← this, mul_one]
  have l1 := len n h1 e1
  have l2 := len n' g1 e2
  have heq : V3.dot n w = V3.dot n' w := by nlinarith
  rw [heq, ← e2] at e1
  have hx := congrArg V3.x e1
  have hy := congrArg V3.y e1
  have hz := congrArg V3.z e1
  simp only [V3.smul_x, V3.smul_y, V3.smul_z] at hx hy hz
  exact V3.ext (mul_left_cancel₀ hW.ne' hx) (mul_left_cancel₀ hW.ne' hy) (mul_left_cancel₀ hW.ne' hz)

/-- C69: `per_face_normals` of a triangle mesh in space returns, for every triangle of positive area, its unit normal (right-hand
rule), and `nan` for every degenerate triangle; with `unit_norm=False` it returns the cross product, of length twice the area. -/
theorem C69_face_normals (V : List (V3 ℝ)) (F : List Tri) (hF : InRange F V.length) :
    ∃ N N', perFaceNormals V F true = some N ∧ perFaceNormals V F false = some N' ∧ N.length = F.length ∧ N'.length = F.length ∧
      ∀ (f : ℕ) (t : Tri), F[f]? = some t →
        (PosArea V t → ∃ n, N[f]? = some (some n) ∧ IsUnitNormal V t n) ∧
        (¬ PosArea V t → N[f]? = some none) ∧
        ∃ n', N'[f]? = some (some n') ∧ V3.dot n' (V.getD t.b 0 - V.getD t.a 0) = 0 ∧
          V3.dot n' (V.getD t.c 0 - V.getD t.a 0) = 0 ∧ n'.norm = 2 * triArea V t ∧
          ∀ n, N[f]? = some (some n) → n' = (2 * triArea V t) • n := by
  refine ⟨_, _, perFaceNormals_eq hF true, perFaceNormals_eq hF false, by simp, by simp, ?_⟩
  intro f t hf
  have hnorm : (triNormal V t).norm = 2 * triArea V t := by unfold triArea V3.norm triNormal; ring
  refine ⟨?_, ?_, triNormal V t, ?_, ?_, ?_, hnorm, ?_⟩
  · intro h
    obtain ⟨n, h1, _, _, h2⟩ := isUnitNormal_unit h
    exact ⟨n, by simp [List.getElem?_map, hf, h1], h2⟩
  · intro h
    have h0 : triNormal V t = 0 := not_not.mp h
    simp [List.getElem?_map, hf, h0, unitRow3_zero]
  · simp [List.getElem?_map, hf]
  · simp only [triNormal, V3.dot, V3.cross]; ring
  · simp only [triNormal, V3.dot, V3.cross]; ring
  · intro n hn
    simp only [List.getElem?_map, hf, Option.map_some, if_true, Option.some.injEq] at hn
    by_cases h : PosArea V t
    · obtain ⟨n', h1, h2, h3, _⟩ := isUnitNormal_unit h
      rw [hn] at h1
      cases h1
      rw [h2, ← hnorm]
      apply V3.ext <;> simp only [V3.smul_x, V3.smul_y, V3.smul_z] <;> field_simp
    · have h0 : triNormal V t = 0 := not_not.mp h
      rw [h0, unitRow3_zero] at hn
      cases hn

/-- C69 for polylines in the plane: the normal of an edge of positive length is the unit vector orthogonal to it that points to
its right (clockwise); an edge of length zero gives `nan`. -/
theorem C69_edge_normals (V : List (ℝ × ℝ)) (E : List Edge) (hE : ∀ e ∈ E, e.s < V.length ∧ e.t < V.length) :
    ∃ N, perFaceNormals2 V E true = some N ∧ N.length = E.length ∧
      ∀ (k : ℕ) (e : Edge) (p q : ℝ × ℝ), E[k]? = some e → V[e.s]? = some p → V[e.t]? = some q →
        (p ≠ q → ∃ n : ℝ × ℝ, N[k]? = some (some n) ∧ n.1 ^ 2 + n.2 ^ 2 = 1 ∧ n.1 * (q.1 - p.1) + n.2 * (q.2 - p.2) = 0 ∧
          (q.1 - p.1) * n.2 - (q.2 - p.2) * n.1 < 0) ∧
        (p = q → N[k]? = some none) := by
  set g : Edge → Option (ℝ × ℝ) := fun e =>
    let v0 := V.getD e.s 0
    let v1 := V.getD e.t 0
    let n : ℝ × ℝ := (v1.2 - v0.2, -(v1.1 - v0.1))
    let l := Real.sqrt (n.1 * n.1 + n.2 * n.2)
    if l = 0 then none else some (n.1 / l, n.2 / l) with hg
  have hmap : perFaceNormals2 V E true = some (E.map g) := by
    unfold perFaceNormals2
    apply mapM_eq_some_map
    intro e he
    obtain ⟨h1, h2⟩ := hE e he
    simp only [List.getElem?_eq_getElem h1, List.getElem?_eq_getElem h2, Option.bind_eq_bind, Option.bind_some, if_true, hg,
      List.getD_eq_getElem?_getD, Option.getD_some]
    rfl
  refine ⟨E.map g, hmap, by simp, ?_⟩
  intro k e p q hk hp hq
  have hgk : (E.map g)[k]? = some (g e) := by simp [List.getElem?_map, hk]
  have hge : g e = if Real.sqrt ((q.2 - p.2) * (q.2 - p.2) + -(q.1 - p.1) * -(q.1 - p.1)) = 0 then none else
      some ((q.2 - p.2) / Real.sqrt ((q.2 - p.2) * (q.2 - p.2) + -(q.1 - p.1) * -(q.1 - p.1)),
        -(q.1 - p.1) / Real.sqrt ((q.2 - p.2) * (q.2 - p.2) + -(q.1 - p.1) * -(q.1 - p.1))) := by
    simp only [hg, List.getD_eq_getElem?_getD, hp, hq, Option.getD_some]
  rw [hgk, hge]
  set D := (q.2 - p.2) * (q.2 - p.2) + -(q.1 - p.1) * -(q.1 - p.1) with hD
  constructor
  · intro hpq
    have hDpos : 0 < D := by
      rcases lt_or_eq_of_le (by rw [hD]; nlinarith [mul_self_nonneg (q.2 - p.2), mul_self_nonneg (q.1 - p.1)] : 0 ≤ D) with h | h
      · exact h
      · exfalso
        apply hpq
        have a1 : q.1 - p.1 = 0 := by nlinarith [mul_self_nonneg (q.2 - p.2), mul_self_nonneg (q.1 - p.1)]
        have a2 : q.2 - p.2 = 0 := by nlinarith [mul_self_nonneg (q.2 - p.2), mul_self_nonneg (q.1 - p.1)]
        exact Prod.ext (by linarith) (by linarith)
    have hs := Real.sqrt_pos.mpr hDpos
    have hsq := Real.sq_sqrt hDpos.le
    rw [if_neg hs.ne']
    refine ⟨_, rfl, ?_, ?_, ?_⟩
    · simp only
      rw [div_pow, div_pow, hsq, ← add_div, div_eq_one_iff_eq hDpos.ne']
      rw [hD]; ring
    · simp only; field_simp; ring
    · simp only
      have : (q.1 - p.1) * (-(q.1 - p.1) / Real.sqrt D) - (q.2 - p.2) * ((q.2 - p.2) / Real.sqrt D) = - (D / Real.sqrt D) := by
        rw [hD]; ring
      rw [this]
      have := div_pos hDpos hs
      linarith
  · rintro rfl
    have : D = 0 := by rw [hD]; ring
    rw [this, Real.sqrt_zero, if_pos rfl]

/-! ## C70 -/

theorem sumRows_some (l : List (V3 ℝ)) (s : V3 ℝ) :
    (l.map some).foldl (fun s x => do let s ← s; let x ← x; some (s + x)) (some s) =
      some ⟨s.x + (l.map (·.x)).sum, s.y + (l.map (·.y)).sum, s.z + (l.map (·.z)).sum⟩ := by
  induction l generalizing s with
  | nil => simp
  | cons a t ih =>
    rw [List.map_cons, List.foldl_cons]
    simp only [Option.bind_eq_bind, Option.bind_some]
    have := ih (s + a)
    simp only [Option.bind_eq_bind] at this
    rw [this]
    simp only [List.map_cons, List.sum_cons, V3.add_x, V3.add_y, V3.add_z]
    congr 1
    apply V3.ext <;> simp only <;> ring

theorem sumRows_none_acc (l : List (Option (V3 ℝ))) :
    l.foldl (fun s x => do let s ← s; let x ← x; some (s + x)) (none : Option (V3 ℝ)) = none := by
  induction l with
  | nil => rfl
  | cons a t ih => rw [List.foldl_cons]; exact ih

theorem sumRows_none {l : List (Option (V3 ℝ))} (h : none ∈ l) : sumRows l = none := by
  unfold sumRows
  generalize (some 0 : Option (V3 ℝ)) = s
  induction l generalizing s with
  | nil => simp at h
  | cons a t ih =>
    rw [List.foldl_cons]
    rcases List.mem_cons.mp h with h | h
    · subst h
      cases s <;> exact sumRows_none_acc t
    · exact ih h _

theorem sumRows_filter (L : List (ℕ × ℕ × ℝ)) (v : ℕ) (g : ℕ × ℕ × ℝ → Option (V3 ℝ)) (h : ℕ × ℕ × ℝ → V3 ℝ)
    (hg : ∀ t ∈ L, t.1 = v → g t = some (h t)) :
    sumRows ((L.filter (fun t => t.1 = v)).map g) = some
      ⟨(L.map (fun t => if t.1 = v then (h t).x else 0)).sum, (L.map (fun t => if t.1 = v then (h t).y else 0)).sum,
        (L.map (fun t => if t.1 = v then (h t).z else 0)).sum⟩ := by
  have hm : (L.filter (fun t => t.1 = v)).map g = ((L.filter (fun t => t.1 = v)).map h).map some := by
    rw [List.map_map]
    apply List.map_congr_left
    intro t ht
    rw [List.mem_filter] at ht
    exact hg t ht.1 (of_decide_eq_true ht.2)
  rw [hm]
  unfold sumRows
  rw [sumRows_some]
  have hfil : ∀ (k : V3 ℝ → ℝ), (((L.filter (fun t => t.1 = v)).map h).map k).sum = (L.map (fun t => if t.1 = v then k (h t) else 0)).sum := by
    intro k
    clear hm hg
    induction L with
    | nil => rfl
    | cons a t ih =>
      rw [List.filter_cons]
      by_cases ha : a.1 = v
      · simp [ha, ← ih]
      · simp only [ha, decide_false, Bool.false_eq_true, if_false, List.map_cons, List.sum_cons, zero_add]; exact ih
  rw [hfil (·.x), hfil (·.y), hfil (·.z)]
  simp

/-- The area-weighted sum of the normals of the triangles at `v`: the sum over all triangle corners at `v` of the cross product
`(b-a)×(c-a)`, i.e. of the unit normal times twice the area. -/
noncomputable def starNormal (V : List (V3 ℝ)) (F : List Tri) (v : ℕ) : V3 ℝ :=
  ⟨(F.map (fun t => ([t.a, t.b, t.c].count v : ℝ) * (triNormal V t).x)).sum,
   (F.map (fun t => ([t.a, t.b, t.c].count v : ℝ) * (triNormal V t).y)).sum,
   (F.map (fun t => ([t.a, t.b, t.c].count v : ℝ) * (triNormal V t).z)).sum⟩

/-- triplets of the weight matrix -/
noncomputable def pvTrip (V : List (V3 ℝ)) (F : List Tri) : List (ℕ × ℕ × ℝ) :=
  F.zipIdx.map (fun p => (p.1.a, p.2, (triNormal V p.1).norm)) ++ F.zipIdx.map (fun p => (p.1.b, p.2, (triNormal V p.1).norm)) ++
    F.zipIdx.map (fun p => (p.1.c, p.2, (triNormal V p.1).norm))

theorem zip3_zipIdx_nrm {α : Type} {K : Type} (F : List α) (f : α → ℕ) (h : α → K) :
    zip3 (F.map f) (List.range F.length) (F.map h) = F.zipIdx.map (fun p => (f p.1, p.2, h p.1)) := by
  unfold zip3
  apply List.ext_getElem
  · simp
  · intro i h1 h2; simp

theorem doublearea_extrinsic {V : List (V3 ℝ)} {F : List Tri} :
    doubleareaIntrinsic (F.map (fun t => lens (V.getD t.a 0) (V.getD t.b 0) (V.getD t.c 0))) F =
      some (F.map (fun t => (triNormal V t).norm)) := by
  unfold doubleareaIntrinsic
  rw [if_pos]
  · rw [List.map_map]
    congr 1
    apply List.map_congr_left
    intro t _
    simp only [Function.comp, dblArea_lens, cross_cyc]; rfl
  · refine ⟨by simp, ?_⟩
    intro r hr
    obtain ⟨t, _, rfl⟩ := List.mem_map.mp hr
    exact ⟨V3.normSq_nonneg _, V3.normSq_nonneg _, V3.normSq_nonneg _⟩

/-- C70: `per_vertex_normals` returns one row per vertex.  The row of `v` is the normalised area-weighted sum of the normals
of the triangles at `v`; it is `nan` exactly if one of these triangles is degenerate or the sum vanishes (in particular for
vertices that belong to no triangle). -/
theorem C70_vertex_normals (V : List (V3 ℝ)) (F : List Tri) (hne : F ≠ []) (hF : InRange F V.length) :
    ∃ N, perVertexNormals V F = some N ∧ N.length = V.length ∧
      ∀ v < V.length,
        ((∀ t ∈ F, v ∈ [t.a, t.b, t.c] → PosArea V t) → starNormal V F v ≠ 0 →
          ∃ n, N[v]? = some (some n) ∧ V3.normSq n = 1 ∧ ∃ s : ℝ, 0 < s ∧ starNormal V F v = s • n) ∧
        ((∃ t ∈ F, v ∈ [t.a, t.b, t.c] ∧ ¬ PosArea V t) ∨ starNormal V F v = 0 → N[v]? = some none) := by
  set Nf := F.map (fun t => unitRow3 (triNormal V t)) with hNf
  have hpf : perFaceNormals V F true = some Nf := by rw [perFaceNormals_eq hF]; simp [hNf]
  set row : ℕ → Option (V3 ℝ) := fun v =>
    (sumRows (((pvTrip V F).filter (fun t => t.1 = v)).map (fun t => weighted t.2.2 (Nf.getD t.2.1 none)))).bind unitRow3 with hrow
  have hmain : perVertexNormals V F = some ((List.range V.length).map row) := by
    unfold perVertexNormals
    rw [hpf, hls_some hne hF]
    simp only [Option.bind_eq_bind, Option.bind_some]
    rw [doublearea_extrinsic]
    simp only [Option.bind_some]
    have hb : ∀ (f : Tri → ℕ), (∀ t ∈ F, f t < V.length) → ∀ i ∈ F.map f, i < V.length := by
      intro f hf i hi
      obtain ⟨t, ht, rfl⟩ := List.mem_map.mp hi
      exact hf t ht
    have ha := hb (·.a) (fun t ht => (hF t ht).1)
    have hbb := hb (·.b) (fun t ht => (hF t ht).2.1)
    have hc := hb (·.c) (fun t ht => (hF t ht).2.2)
    rw [csrMatrix_some (by simp) (by simp)]
    · simp only [Option.bind_some]
      have htr : zip3 (F.map (·.a) ++ F.map (·.b) ++ F.map (·.c)) (List.range F.length ++ List.range F.length ++ List.range F.length)
          (F.map (fun t => (triNormal V t).norm) ++ F.map (fun t => (triNormal V t).norm) ++ F.map (fun t => (triNormal V t).norm)) =
          pvTrip V F := by
        rw [zip3_append (by simp) (by simp), zip3_append (by simp) (by simp), zip3_zipIdx_nrm, zip3_zipIdx_nrm, zip3_zipIdx_nrm]
        rfl
      rw [htr]
      rfl
    · intro i hi
      simp only [List.mem_append] at hi
      rcases hi with (h | h) | h
      · exact ha i h
      · exact hbb i h
      · exact hc i h
    · intro j hj
      simp only [List.mem_append, List.mem_range, or_self] at hj
      exact hj
  -- a stored entry times the face normal is the cross product, or `nan`
  have hmem : ∀ t ∈ pvTrip V F, ∃ τ, F[t.2.1]? = some τ ∧ t.1 ∈ [τ.a, τ.b, τ.c] ∧ t.2.2 = (triNormal V τ).norm := by
    intro t ht
    simp only [pvTrip, List.mem_append, List.mem_map] at ht
    rcases ht with (⟨p, hp, rfl⟩ | ⟨p, hp, rfl⟩) | ⟨p, hp, rfl⟩ <;>
      (rw [List.mem_zipIdx_iff_getElem?] at hp; exact ⟨p.1, hp, by simp, rfl⟩)
  have hw : ∀ t ∈ pvTrip V F, ∀ τ, F[t.2.1]? = some τ → weighted t.2.2 (Nf.getD t.2.1 none) =
      (unitRow3 (triNormal V τ)).map (fun _ => triNormal V τ) := by
    intro t ht τ hτ
    obtain ⟨τ', h1, _, h3⟩ := hmem t ht
    rw [hτ] at h1
    cases h1
    have : Nf.getD t.2.1 none = unitRow3 (triNormal V τ) := by
      rw [List.getD_eq_getElem?_getD, hNf, List.getElem?_map, hτ]; rfl
    rw [this, h3]
    by_cases h0 : triNormal V τ = 0
    · rw [h0, unitRow3_zero]; rfl
    · have hn : (triNormal V τ).norm ≠ 0 := fun hc => h0 ((norm_eq_zero_iff _).mp hc)
      rw [unitRow3_some h0]
      simp only [weighted, Option.map_some]
      congr 1
      apply V3.ext <;> simp only [V3.smul_x, V3.smul_y, V3.smul_z] <;> field_simp
  refine ⟨_, hmain, by simp, ?_⟩
  intro v hv
  have hget : ((List.range V.length).map row)[v]? = some (row v) := by
    rw [List.getElem?_map, List.getElem?_range hv]; rfl
  rw [hget]
  -- value of the row if all triangles at `v` have positive area
  have hgood : (∀ t ∈ F, v ∈ [t.a, t.b, t.c] → PosArea V t) → row v = unitRow3 (starNormal V F v) := by
    intro hpos
    have := sumRows_filter (pvTrip V F) v (fun t => weighted t.2.2 (Nf.getD t.2.1 none))
      (fun t => triNormal V ((F[t.2.1]?).getD ⟨0, 0, 0⟩)) (by
        intro t ht htv
        obtain ⟨τ, h1, h2, _⟩ := hmem t ht
        rw [hw t ht τ h1]
        rw [htv] at h2
        obtain ⟨n, hn, _⟩ := isUnitNormal_unit (hpos τ (List.mem_of_getElem? h1) h2)
        rw [hn, h1]; rfl)
    simp only [hrow]
    rw [this, Option.bind_some]
    congr 1
    have key : ∀ k : V3 ℝ → ℝ, ((pvTrip V F).map (fun t => if t.1 = v then k (triNormal V ((F[t.2.1]?).getD ⟨0, 0, 0⟩)) else 0)).sum =
        (F.map (fun t => ([t.a, t.b, t.c].count v : ℝ) * k (triNormal V t))).sum := by
      intro k
      have hz : ∀ (f : Tri → ℕ), ((F.zipIdx.map (fun p => (f p.1, p.2, (triNormal V p.1).norm))).map
          (fun t => if t.1 = v then k (triNormal V ((F[t.2.1]?).getD ⟨0, 0, 0⟩)) else 0)).sum =
          (F.map (fun t => if f t = v then k (triNormal V t) else 0)).sum := by
        intro f
        rw [List.map_map]
        congr 1
        apply List.ext_getElem
        · simp
        · intro i h1 h2
          simp only [List.length_map, List.length_zipIdx] at h1
          simp [List.getElem?_eq_getElem h1]
      unfold pvTrip
      rw [List.map_append, List.map_append, List.sum_append, List.sum_append, hz (·.a), hz (·.b), hz (·.c)]
      clear hz
      generalize F = L
      induction L with
      | nil => simp
      | cons t l ih =>
        rw [List.map_cons, List.sum_cons, List.map_cons, List.sum_cons, List.map_cons, List.sum_cons, List.map_cons,
          List.sum_cons, ← ih]
        simp only [List.count_cons, List.count_nil, beq_iff_eq]
        push_cast
        split_ifs <;> ring
    unfold starNormal
    rw [key (·.x), key (·.y), key (·.z)]
  constructor
  · intro hpos hs
    rw [hgood hpos, unitRow3_some hs]
    have hp : 0 < (starNormal V F v).norm :=
      lt_of_le_of_ne (V3.norm_nonneg _) (fun hc => hs ((norm_eq_zero_iff _).mp hc.symm))
    refine ⟨_, rfl, ?_, (starNormal V F v).norm, hp, ?_⟩
    · have : V3.normSq ((1 / (starNormal V F v).norm) • starNormal V F v) = (1 / (starNormal V F v).norm) ^ 2 * V3.normSq (starNormal V F v) := by
        simp only [V3.normSq, V3.dot, V3.smul_x, V3.smul_y, V3.smul_z]; ring
      rw [this, ← V3.norm_sq]
      field_simp
    · apply V3.ext <;> simp only [V3.smul_x, V3.smul_y, V3.smul_z] <;> field_simp
  · intro hbad
    by_cases hpos : ∀ t ∈ F, v ∈ [t.a, t.b, t.c] → PosArea V t
    · rcases hbad with ⟨t, ht, hv', hn⟩ | h0
      · exact absurd (hpos t ht hv') hn
      · rw [hgood hpos, h0, unitRow3_zero]
    · push Not at hpos
      obtain ⟨τ, hτ, hvτ, hn⟩ := hpos
      have hzero : triNormal V τ = 0 := not_not.mp hn
      obtain ⟨k, hk⟩ := List.mem_iff_getElem?.mp hτ
      have hzi : (τ, k) ∈ F.zipIdx := List.mem_zipIdx_iff_getElem?.mpr hk
      have htrip : (v, k, (triNormal V τ).norm) ∈ pvTrip V F := by
        simp only [pvTrip, List.mem_append, List.mem_map]
        simp only [List.mem_cons, List.not_mem_nil, or_false] at hvτ
        rcases hvτ with rfl | rfl | rfl
        · exact Or.inl (Or.inl ⟨(τ, k), hzi, rfl⟩)
        · exact Or.inl (Or.inr ⟨(τ, k), hzi, rfl⟩)
        · exact Or.inr ⟨(τ, k), hzi, rfl⟩
      simp only [hrow]
      rw [sumRows_none]
      · rfl
      · rw [List.mem_map]
        refine ⟨_, List.mem_filter.mpr ⟨htrip, by simp⟩, ?_⟩
        rw [hw _ htrip τ hk, hzero, unitRow3_zero]; rfl

/-! ## C71 -/

theorem angleBetween_eq {n1 n2 : V3 ℝ} (h1 : V3.normSq n1 = 1) (h2 : V3.normSq n2 = 1) :
    angleBetween n1 n2 = Real.arccos (V3.dot n1 n2) := by
  unfold angleBetween npArctan2
  have hl := V3.lagrange n1 n2
  rw [h1, h2] at hl
  have hsq := V3.norm_sq (V3.cross n1 n2)
  set z : ℂ := ⟨V3.dot n1 n2, (V3.cross n1 n2).norm⟩ with hz
  have hn : ‖z‖ = 1 := by
    rw [Complex.norm_def, Complex.normSq_mk]
    rw [show V3.dot n1 n2 * V3.dot n1 n2 + (V3.cross n1 n2).norm * (V3.cross n1 n2).norm = 1 by nlinarith]
    exact Real.sqrt_one
  have hz0 : z ≠ 0 := by intro h; rw [h, norm_zero] at hn; exact zero_ne_one hn
  rw [Complex.arg_of_im_nonneg_of_ne_zero (V3.norm_nonneg _) hz0, hn, div_one]

/-- C71: for a consistently oriented manifold mesh of nondegenerate triangles, entry `(f,i)` of `dihedral_angles` is `nan` if
side `i` of triangle `f` is a boundary edge; otherwise it is the angle in `[0,π]` between the unit normals of the two triangles
at that side, and the other triangle's entry for the same side is equal. -/
theorem C71_dihedral_angles (V : List (V3 ℝ)) (F : List Tri) (hne : F ≠ []) (hF : InRange F V.length)
    (hman : OrientedManifold F) (hA : ∀ t ∈ F, PosArea V t) :
    ∃ Θ, dihedralAngles V F = some Θ ∧ Θ.length = F.length ∧
      ∀ (f : ℕ) (t : Tri) (i : Fin 3), F[f]? = some t →
        ∃ r, Θ[f]? = some r ∧
          ((incid F (t.side i) = 1 ∧ r.get i = none) ∨
           (∃ (g : ℕ) (u : Tri) (j : Fin 3) (n m : V3 ℝ) (θ : ℝ) (r' : Row3 (Option ℝ)), F[g]? = some u ∧
              u.side j = (t.side i).flip ∧ IsUnitNormal V t n ∧ IsUnitNormal V u m ∧
              r.get i = some θ ∧ 0 ≤ θ ∧ θ ≤ Real.pi ∧ Real.cos θ = V3.dot n m ∧
              Θ[g]? = some r' ∧ r'.get j = some θ)) := by
  obtain ⟨TT, TTi, ht1, ht2, _, ht4⟩ := C06_triangle_triangle_adjacency F hne hman
  set Nf := F.map (fun t => unitRow3 (triNormal V t)) with hNf
  have hpf : perFaceNormals V F true = some Nf := by rw [perFaceNormals_eq hF]; simp [hNf]
  set entry : Option (V3 ℝ) → Int → Option ℝ := fun n1 nb =>
    if 0 ≤ nb then n1.bind (fun n1 => (Nf.getD nb.toNat none).bind (fun n2 => some (angleBetween n1 n2))) else none with hentry
  set rowOf : Option (V3 ℝ) × Row3 Int → Row3 (Option ℝ) := fun p => ⟨entry p.1 p.2.x0, entry p.1 p.2.x1, entry p.1 p.2.x2⟩ with hrow
  have hmain : dihedralAngles V F = some ((Nf.zip TT).map rowOf) := by
    unfold dihedralAngles
    rw [hpf, ht1]
    rfl
  refine ⟨_, hmain, by simp [hNf, ht2], ?_⟩
  -- row of face `f`
  have hNget : ∀ (f : ℕ) (t : Tri), F[f]? = some t → ∃ n, Nf[f]? = some (some n) ∧ IsUnitNormal V t n := by
    intro f t hf
    obtain ⟨n, h1, _, _, h2⟩ := isUnitNormal_unit (hA t (List.mem_of_getElem? hf))
    exact ⟨n, by rw [hNf, List.getElem?_map, hf, Option.map_some, h1], h2⟩
  have hrowget : ∀ (f : ℕ) (n : V3 ℝ) (r : Row3 Int), Nf[f]? = some (some n) → TT[f]? = some r →
      ((Nf.zip TT).map rowOf)[f]? = some (rowOf (some n, r)) := by
    intro f n r h1 h2
    have hz : (Nf.zip TT)[f]? = some (some n, r) := List.getElem?_zip_eq_some.mpr ⟨h1, h2⟩
    rw [List.getElem?_map, hz]; rfl
  have hrg : ∀ (p : Option (V3 ℝ) × Row3 Int) (i : Fin 3), (rowOf p).get i = entry p.1 (p.2.get i) := by
    intro p i; fin_cases i <;> rfl
  intro f t i hf
  obtain ⟨n, hn1, hn2⟩ := hNget f t hf
  obtain ⟨r, ri, hr, _, hcase⟩ := ht4 f t i hf
  refine ⟨_, hrowget f n r hn1 hr, ?_⟩
  rw [hrg]
  rcases hcase with ⟨c1, _, c3, _⟩ | ⟨g, u, j, c1, _, c3, c4, _, r', ri', c6, _, c8, _⟩
  · left
    refine ⟨c3, ?_⟩
    simp only [hentry, c1]
    rfl
  · right
    obtain ⟨m, hm1, hm2⟩ := hNget g u c3
    have hval : ∀ (k : ℕ) (x y : V3 ℝ), Nf[k]? = some (some y) → entry (some x) (k : Int) = some (angleBetween x y) := by
      intro k x y hk
      simp only [hentry]
      rw [if_pos (Int.natCast_nonneg k), Int.toNat_natCast, List.getD_eq_getElem?_getD, hk]
      rfl
    have hang := angleBetween_eq hn2.1 hm2.1
    have hang' := angleBetween_eq hm2.1 hn2.1
    have hcomm : V3.dot m n = V3.dot n m := by simp only [V3.dot]; ring
    refine ⟨g, u, j, n, m, angleBetween n m, _, c3, c4, hn2, hm2, ?_, ?_, ?_, ?_, hrowget g m r' hm1 c6, ?_⟩
    · simp only
      rw [c1]
      exact hval g n m hm1
    · rw [hang]; exact Real.arccos_nonneg _
    · rw [hang]; exact Real.arccos_le_pi _
    · rw [hang]
      have hl := V3.lagrange n m
      rw [hn2.1, hm2.1] at hl
      have := V3.normSq_nonneg (V3.cross n m)
      apply Real.cos_arccos <;> nlinarith
    · rw [hrg]
      simp only
      rw [c8, hval f m n hn1, hang, hang', hcomm]

/-- two triangles folded along an edge, and a vertex (4) without triangles, meet the hypotheses -/
example : let V : List (V3 ℝ) := [⟨0, 0, 0⟩, ⟨1, 0, 0⟩, ⟨0, 1, 0⟩, ⟨0, 0, 1⟩, ⟨5, 5, 5⟩]
    let F : List Tri := [⟨0, 1, 2⟩, ⟨1, 0, 3⟩]
    InRange F V.length ∧ OrientedManifold F ∧ (∀ t ∈ F, PosArea V t) ∧ incid F ((⟨0, 1, 2⟩ : Tri).side 2) = 2 ∧
      starNormal V F 0 ≠ 0 ∧ starNormal V F 4 = 0 := by
  refine ⟨by simp [InRange], by decide +kernel, ?_, by decide +kernel, ?_, ?_⟩
  · intro t ht
    simp only [List.mem_cons, List.not_mem_nil, or_false] at ht
    rcases ht with rfl | rfl
    · intro h
      have := congrArg V3.z h
      norm_num [V3.cross, List.getD] at this
    · intro h
      have := congrArg V3.y h
      norm_num [V3.cross, List.getD] at this
  · intro h
    have := congrArg V3.z h
    norm_num [starNormal, triNormal, V3.cross, List.getD, List.count_cons] at this
  · apply V3.ext <;> norm_num [starNormal, triNormal, V3.cross, List.getD, List.count_cons]

end Gpy
