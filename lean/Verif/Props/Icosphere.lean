import Verif.Model.Icosphere
import Verif.Props.Subdivide
import Mathlib.Algebra.BigOperators.Fin
import Mathlib.Tactic.IntervalCases

/-! C61: `icosphere`. -/

set_option autoImplicit false
namespace Gpy

/-- the mesh is closed: every side of a triangle is traversed backwards by a triangle -/
def ClosedMesh (F : List Tri) : Prop := ∀ e ∈ sides F, e.flip ∈ sides F

instance (F : List Tri) : Decidable (ClosedMesh F) := by unfold ClosedMesh; infer_instance

/-- `x · (y × z)` -/
def triple {K : Type} [CommRing K] (x y z : Fin 3 → K) : K :=
  x 0 * (y 1 * z 2 - y 2 * z 1) + x 1 * (y 2 * z 0 - y 0 * z 2) + x 2 * (y 0 * z 1 - y 1 * z 0)

/-- The triangle `x y z` is seen counterclockwise from outside of the origin: its right-hand normal `(y-x)×(z-x)` points away from the
origin, i.e. has a positive product with each of the corners. -/
def Outward (x y z : Pt 3) : Prop := 0 < triple x (y - x) (z - x)

theorem outward_iff (x y z : Pt 3) : Outward x y z ↔ 0 < triple x y z := by
  unfold Outward
  have : triple x (y - x) (z - x) = triple x y z := by unfold triple; simp only [Pi.sub_apply]; ring
  rw [this]

/-- Number of edges of a closed mesh -/
theorem closed_edges {F : List Tri} {E : List Edge} (hF : OrientedManifold F) (hc : ClosedMesh F) (hE : IsEdgeList F E) :
    2 * E.length = 3 * F.length := by
  have hlen : (sides F).length = 3 * F.length := by
    unfold sides
    rw [List.length_flatMap]
    simp; ring
  have hmem : ∀ e ∈ E, e ∈ sides F := by
    intro e he
    obtain ⟨e', h1, h2⟩ := (hE.2 e).mp ⟨e, he, Or.inl rfl⟩
    rcases h2 with h | h
    · rw [h]; exact h1
    · rw [h]; exact hc e' h1
  have hne : ∀ e ∈ sides F, e.s ≠ e.t := by
    intro e he
    obtain ⟨t, ht, he⟩ := List.mem_flatMap.mp he
    have := hF.2 t ht
    simp only [List.mem_cons, List.not_mem_nil, or_false] at he
    rcases he with rfl | rfl | rfl
    · exact this.2.1
    · exact this.2.2
    · exact this.1
  have hperm : (E ++ E.map Edge.flip).Perm (sides F) := by
    rw [List.perm_ext_iff_of_nodup _ hF.1]
    · intro e
      rw [List.mem_append, List.mem_map]
      constructor
      · rintro (h | ⟨e', h, rfl⟩)
        · exact hmem e h
        · exact hc e' (hmem e' h)
      · intro he
        obtain ⟨e', h1, h2⟩ := (hE.2 e).mpr ⟨e, he, Or.inl rfl⟩
        rcases h2 with h | h
        · left; rw [h]; exact h1
        · right; exact ⟨e', h1, h.symm⟩
    · rw [List.nodup_append]
      have hp : E.Nodup := hE.1.imp (fun h h' => h (Or.inl h'.symm))
      refine ⟨hp, ?_, ?_⟩
      · rw [List.nodup_map_iff_inj_on hp]
        intro x _ y _ h
        unfold Edge.flip at h
        cases x; cases y; simp_all
      · intro x hx y hy hxy
        obtain ⟨z, hz, rfl⟩ := List.mem_map.mp hy
        -- x = flip z, both in E: they are the same element of E
        have hxz : x = z := by
          by_contra hne'
          obtain ⟨i, hi⟩ := List.mem_iff_getElem?.mp hx
          obtain ⟨j, hj⟩ := List.mem_iff_getElem?.mp hz
          have hij : i ≠ j := fun h => hne' (by rw [h, hj] at hi; exact (Option.some.inj hi).symm)
          obtain ⟨hi', rfl⟩ := List.getElem?_eq_some_iff.mp hi
          obtain ⟨hj', rfl⟩ := List.getElem?_eq_some_iff.mp hj
          have hpw := List.pairwise_iff_getElem.mp hE.1
          rcases lt_or_gt_of_ne hij with h | h
          · exact hpw i j hi' hj' h (Or.inr (by rw [hxy]; rfl))
          · exact hpw j i hj' hi' h (Or.inr hxy)
        rw [hxz] at hxy
        have := hne z (hmem z hz)
        apply this
        have := congrArg Edge.s hxy
        exact this
  have := hperm.length_eq
  rw [List.length_append, List.length_map, hlen] at this
  omega

/-- the invariant -/
structure IcoInv (V : List (Pt 3)) (F : List Tri) : Prop where
  ne : F ≠ []
  man : OrientedManifold F
  twin : NoTwin F
  range : InRange F V.length
  closed : ClosedMesh F
  unit : ∀ x ∈ V, pdot x x = 1
  pos : ∀ t ∈ F, 0 < pdot (vpos V t.a) (vpos V t.b) ∧ 0 < pdot (vpos V t.b) (vpos V t.c) ∧ 0 < pdot (vpos V t.c) (vpos V t.a)
  out : ∀ t ∈ F, 0 < triple (vpos V t.a) (vpos V t.b) (vpos V t.c)

theorem pdot3 (x y : Pt 3) : pdot x y = x 0 * y 0 + x 1 * y 1 + x 2 * y 2 := by
  simp [pdot, Fin.sum_univ_three]

theorem pnorm3_pos {x : Pt 3} (h : 0 < pdot x x) : 0 < pnorm x := by
  unfold pnorm
  apply Real.sqrt_pos.mpr
  have : psq x = pdot x x := by simp [psq, pdot, sq]
  rw [this]; exact h

theorem pnorm3_mul_self {x : Pt 3} (h : 0 < pdot x x) : pnorm x * pnorm x = pdot x x := by
  have : psq x = pdot x x := by simp [psq, pdot, sq]
  unfold pnorm
  rw [Real.mul_self_sqrt (by rw [this]; exact h.le), this]

theorem normalize_unit {x : Pt 3} (h : 0 < pdot x x) : pdot (normalizeRow x) (normalizeRow x) = 1 := by
  have hp := pnorm3_pos h
  have hs := pnorm3_mul_self h
  have : pdot (normalizeRow x) (normalizeRow x) = pdot x x / (pnorm x * pnorm x) := by
    rw [pdot3, pdot3]; unfold normalizeRow; field_simp
  rw [this, hs, div_self h.ne']

theorem normalize_dot {x y : Pt 3} (hx : 0 < pdot x x) (hy : 0 < pdot y y) (h : 0 < pdot x y) : 0 < pdot (normalizeRow x) (normalizeRow y) := by
  have hpx := pnorm3_pos hx
  have hpy := pnorm3_pos hy
  have : pdot (normalizeRow x) (normalizeRow y) = pdot x y / (pnorm x * pnorm y) := by
    rw [pdot3, pdot3]; unfold normalizeRow; field_simp
  rw [this]; positivity

theorem normalize_triple {x y z : Pt 3} (hx : 0 < pdot x x) (hy : 0 < pdot y y) (hz : 0 < pdot z z) (h : 0 < triple x y z) :
    0 < triple (normalizeRow x) (normalizeRow y) (normalizeRow z) := by
  have hpx := pnorm3_pos hx
  have hpy := pnorm3_pos hy
  have hpz := pnorm3_pos hz
  have : triple (normalizeRow x) (normalizeRow y) (normalizeRow z) = triple x y z / (pnorm x * pnorm y * pnorm z) := by
    unfold triple normalizeRow; field_simp
  rw [this]; positivity

theorem vpos_map_normalize (V : List (Pt 3)) (i : ℕ) (hi : i < V.length) : vpos (V.map normalizeRow) i = normalizeRow (vpos V i) := by
  unfold vpos
  rw [List.getD_eq_getElem?_getD, List.getD_eq_getElem?_getD, List.getElem?_map, List.getElem?_eq_getElem hi]
  rfl

/-- the half sum of two rows -/
noncomputable def midPt (x y : Pt 3) : Pt 3 := fun c => (x c + y c) / 2

theorem mid_pos {x y : Pt 3} (hx : pdot x x = 1) (hy : pdot y y = 1) (h : 0 < pdot x y) : 0 < pdot (midPt x y) (midPt x y) := by
  have : pdot (midPt x y) (midPt x y) = (pdot x x + pdot y y + 2 * pdot x y) / 4 := by
    rw [pdot3, pdot3, pdot3, pdot3]; unfold midPt; ring
  rw [this, hx, hy]; linarith

/-- from the unnormalised upsampled mesh to the normalised one -/
theorem icoInv_normalize {V : List (Pt 3)} {F : List Tri} (ne : F ≠ []) (man : OrientedManifold F) (twin : NoTwin F) (range : InRange F V.length)
    (closed : ClosedMesh F) (nz : ∀ x ∈ V, 0 < pdot x x)
    (pos : ∀ t ∈ F, 0 < pdot (vpos V t.a) (vpos V t.b) ∧ 0 < pdot (vpos V t.b) (vpos V t.c) ∧ 0 < pdot (vpos V t.c) (vpos V t.a))
    (out : ∀ t ∈ F, 0 < triple (vpos V t.a) (vpos V t.b) (vpos V t.c)) : IcoInv (V.map normalizeRow) F := by
  have hv : ∀ i, i < V.length → 0 < pdot (vpos V i) (vpos V i) := by
    intro i hi
    apply nz
    unfold vpos
    rw [List.getD_eq_getElem?_getD, List.getElem?_eq_getElem hi]
    exact List.getElem_mem hi
  refine ⟨ne, man, twin, by rw [List.length_map]; exact range, closed, ?_, ?_, ?_⟩
  · intro x hx
    obtain ⟨y, hy, rfl⟩ := List.mem_map.mp hx
    exact normalize_unit (nz y hy)
  · intro t ht
    obtain ⟨ra, rb, rc⟩ := range t ht
    obtain ⟨p1, p2, p3⟩ := pos t ht
    rw [vpos_map_normalize V _ ra, vpos_map_normalize V _ rb, vpos_map_normalize V _ rc]
    exact ⟨normalize_dot (hv _ ra) (hv _ rb) p1, normalize_dot (hv _ rb) (hv _ rc) p2, normalize_dot (hv _ rc) (hv _ ra) p3⟩
  · intro t ht
    obtain ⟨ra, rb, rc⟩ := range t ht
    rw [vpos_map_normalize V _ ra, vpos_map_normalize V _ rb, vpos_map_normalize V _ rc]
    exact normalize_triple (hv _ ra) (hv _ rb) (hv _ rc) (out t ht)

theorem noTwin_of {F : List Tri}
    (h : F.Pairwise (fun t u => ¬ ((t.a = u.a ∨ t.a = u.b ∨ t.a = u.c) ∧ (t.b = u.a ∨ t.b = u.b ∨ t.b = u.c) ∧ (t.c = u.a ∨ t.c = u.b ∨ t.c = u.c)))) :
    NoTwin F :=
  h.imp (fun h1 h2 => h1 ⟨(h2 _).mp (Or.inl rfl), (h2 _).mp (Or.inr (Or.inl rfl)), (h2 _).mp (Or.inr (Or.inr rfl))⟩)

def castRow (x : Fin 3 → ℚ) : Pt 3 := fun c => (x c : ℝ)

theorem ico_base : IcoInv (icoCentred.map (fun x => normalizeRow (fun c => (x c : ℝ)))) icoF := by
  have e : icoCentred.map (fun x => normalizeRow (fun c => (x c : ℝ))) = (icoCentred.map castRow).map normalizeRow := by
    rw [List.map_map]; rfl
  have hl : icoCentred.length = 12 := rfl
  have hget : ∀ i, i < 12 → vpos (icoCentred.map castRow) i = castRow (icoCentred.getD i 0) := by
    intro i hi
    unfold vpos
    rw [List.getD_eq_getElem?_getD, List.getD_eq_getElem?_getD, List.getElem?_map, List.getElem?_eq_getElem (by rw [hl]; exact hi)]
    rfl
  have hr : InRange icoF 12 := by decide
  have hdot : ∀ x y : Fin 3 → ℚ, pdot (castRow x) (castRow y) = ((x 0 * y 0 + x 1 * y 1 + x 2 * y 2 : ℚ) : ℝ) := by
    intro x y; rw [pdot3]; unfold castRow; push_cast; ring
  have htr : ∀ x y z : Fin 3 → ℚ, triple (castRow x) (castRow y) (castRow z) = ((triple x y z : ℚ) : ℝ) := by
    intro x y z; unfold triple castRow; push_cast; ring
  rw [e]
  apply icoInv_normalize
  · decide
  · decide +kernel
  · exact noTwin_of (by decide +kernel)
  · rw [List.length_map, hl]; exact hr
  · decide +kernel
  · have h : ∀ x ∈ icoCentred, 0 < x 0 * x 0 + x 1 * x 1 + x 2 * x 2 := by decide +kernel
    intro y hy
    obtain ⟨x, hx, rfl⟩ := List.mem_map.mp hy
    rw [hdot]
    exact_mod_cast h x hx
  · have h : ∀ t ∈ icoF, (0 < icoCentred.getD t.a 0 0 * icoCentred.getD t.b 0 0 + icoCentred.getD t.a 0 1 * icoCentred.getD t.b 0 1 + icoCentred.getD t.a 0 2 * icoCentred.getD t.b 0 2) ∧
        (0 < icoCentred.getD t.b 0 0 * icoCentred.getD t.c 0 0 + icoCentred.getD t.b 0 1 * icoCentred.getD t.c 0 1 + icoCentred.getD t.b 0 2 * icoCentred.getD t.c 0 2) ∧
        (0 < icoCentred.getD t.c 0 0 * icoCentred.getD t.a 0 0 + icoCentred.getD t.c 0 1 * icoCentred.getD t.a 0 1 + icoCentred.getD t.c 0 2 * icoCentred.getD t.a 0 2) := by
      decide +kernel
    intro t ht
    obtain ⟨ra, rb, rc⟩ := hr t ht
    rw [hget _ ra, hget _ rb, hget _ rc, hdot, hdot, hdot]
    exact_mod_cast h t ht
  · have h : ∀ t ∈ icoF, 0 < triple (icoCentred.getD t.a 0) (icoCentred.getD t.b 0) (icoCentred.getD t.c 0) := by
      decide +kernel
    intro t ht
    obtain ⟨ra, rb, rc⟩ := hr t ht
    rw [hget _ ra, hget _ rb, hget _ rc, htr]
    exact_mod_cast h t ht

/-- one round -/
theorem ico_step {V : List (Pt 3)} {F : List Tri} (h : IcoInv V F) : ∃ Vu Fu S he, upsampleTriangleMesh (some V) F = some (⟨some Vu, Fu, S⟩, he) ∧
    IcoInv (Vu.map normalizeRow) Fu ∧ Fu.length = 4 * F.length ∧ 2 * Vu.length = 2 * V.length + 3 * F.length := by
  obtain ⟨Vu, Fu, S, he, hup, mid, hinj, hk, ⟨E, hE, hEl⟩, hold, hmid, hlen, hch, -⟩ := C18_upsample_step V F h.ne h.man h.range
  obtain ⟨Vu', Fu', S', he', hup', -, hman, htw, hrg, -⟩ := upsample_step_aux (two_ne_zero) V F h.ne h.man h.range h.twin
  rw [hup] at hup'
  injection hup' with hup'
  injection hup' with hup' h3
  have hVu : Vu = Vu' := by injection hup' with h; injection h
  have hFu : Fu = Fu' := by injection hup'
  subst hVu hFu
  have hce := closed_edges h.man h.closed hE
  -- the sides of a face
  have hs : ∀ t ∈ F, (⟨t.a, t.b⟩ : Edge) ∈ sides F ∧ (⟨t.b, t.c⟩ : Edge) ∈ sides F ∧ (⟨t.c, t.a⟩ : Edge) ∈ sides F := by
    intro t ht
    refine ⟨?_, ?_, ?_⟩ <;> exact List.mem_flatMap.mpr ⟨t, ht, by simp [Tri.side]⟩
  -- children
  have hmem : ∀ u, u ∈ Fu ↔ ∃ t ∈ F, u = ⟨t.a, mid ⟨t.a, t.b⟩, mid ⟨t.c, t.a⟩⟩ ∨ u = ⟨mid ⟨t.a, t.b⟩, t.b, mid ⟨t.b, t.c⟩⟩ ∨
      u = ⟨mid ⟨t.c, t.a⟩, mid ⟨t.b, t.c⟩, t.c⟩ ∨ u = ⟨mid ⟨t.c, t.a⟩, mid ⟨t.a, t.b⟩, mid ⟨t.b, t.c⟩⟩ := by
    intro u
    constructor
    · intro hu
      obtain ⟨g, hg⟩ := List.mem_iff_getElem?.mp hu
      have hgl := (List.getElem?_eq_some_iff.mp hg).1
      rw [hlen] at hgl
      have hx : ∃ k f, k < 4 ∧ f < F.length ∧ g = k * F.length + f := by
        by_cases h1 : g < F.length
        · exact ⟨0, g, by omega, h1, by omega⟩
        · by_cases h2 : g < 2 * F.length
          · exact ⟨1, g - F.length, by omega, by omega, by omega⟩
          · by_cases h3 : g < 3 * F.length
            · exact ⟨2, g - 2 * F.length, by omega, by omega, by omega⟩
            · exact ⟨3, g - 3 * F.length, by omega, by omega, by omega⟩
      obtain ⟨k, f, hk4, hf, rfl⟩ := hx
      obtain ⟨c0, c1, c2, c3⟩ := hch f _ (List.getElem?_eq_getElem hf)
      refine ⟨F[f], List.getElem_mem hf, ?_⟩
      interval_cases k
      · left; rw [show 0 * F.length + f = f by omega, c0] at hg; exact (Option.some.inj hg).symm
      · right; left; rw [show 1 * F.length + f = F.length + f by omega, c1] at hg; exact (Option.some.inj hg).symm
      · right; right; left; rw [c2] at hg; exact (Option.some.inj hg).symm
      · right; right; right; rw [c3] at hg; exact (Option.some.inj hg).symm
    · rintro ⟨t, ht, hu⟩
      obtain ⟨f, hf⟩ := List.mem_iff_getElem?.mp ht
      obtain ⟨c0, c1, c2, c3⟩ := hch f t hf
      rcases hu with rfl | rfl | rfl | rfl
      · exact List.mem_of_getElem? c0
      · exact List.mem_of_getElem? c1
      · exact List.mem_of_getElem? c2
      · exact List.mem_of_getElem? c3
  have hmemS : ∀ e, e ∈ sides Fu ↔ ∃ t ∈ Fu, e = ⟨t.b, t.c⟩ ∨ e = ⟨t.c, t.a⟩ ∨ e = ⟨t.a, t.b⟩ := by
    intro e
    unfold sides
    rw [List.mem_flatMap]
    simp [Tri.side]
  have hflip : ∀ e ∈ sides F, mid e.flip = mid e := fun e he =>
    (hinj _ (h.closed e he) e he).mpr (Or.inr rfl)
  -- the two halves of a side of F are sides of the children
  have half : ∀ e ∈ sides F, (⟨e.s, mid e⟩ : Edge) ∈ sides Fu ∧ (⟨mid e, e.t⟩ : Edge) ∈ sides Fu := by
    intro e he
    obtain ⟨t, ht, he⟩ := List.mem_flatMap.mp he
    simp only [List.mem_cons, List.not_mem_nil, or_false] at he
    rcases he with rfl | rfl | rfl
    · exact ⟨(hmemS _).mpr ⟨_, (hmem _).mpr ⟨t, ht, Or.inr (Or.inl rfl)⟩, Or.inl rfl⟩,
        (hmemS _).mpr ⟨_, (hmem _).mpr ⟨t, ht, Or.inr (Or.inr (Or.inl rfl))⟩, Or.inl rfl⟩⟩
    · exact ⟨(hmemS _).mpr ⟨_, (hmem _).mpr ⟨t, ht, Or.inr (Or.inr (Or.inl rfl))⟩, Or.inr (Or.inl rfl)⟩,
        (hmemS _).mpr ⟨_, (hmem _).mpr ⟨t, ht, Or.inl rfl⟩, Or.inr (Or.inl rfl)⟩⟩
    · exact ⟨(hmemS _).mpr ⟨_, (hmem _).mpr ⟨t, ht, Or.inl rfl⟩, Or.inr (Or.inr rfl)⟩,
        (hmemS _).mpr ⟨_, (hmem _).mpr ⟨t, ht, Or.inr (Or.inl rfl)⟩, Or.inr (Or.inr rfl)⟩⟩
  have half' : ∀ e ∈ sides F, (⟨e.s, mid e⟩ : Edge).flip ∈ sides Fu ∧ (⟨mid e, e.t⟩ : Edge).flip ∈ sides Fu := by
    intro e he
    have := half _ (h.closed e he)
    rw [hflip e he] at this
    exact ⟨this.2, this.1⟩
  have hclosed : ClosedMesh Fu := by
    intro e he
    obtain ⟨u, hu, heu⟩ := (hmemS e).mp he
    obtain ⟨t, ht, hut⟩ := (hmem u).mp hu
    obtain ⟨s1, s2, s3⟩ := hs t ht
    have m0 : _ ∈ Fu := (hmem _).mpr ⟨t, ht, Or.inl rfl⟩
    have m1 : _ ∈ Fu := (hmem _).mpr ⟨t, ht, Or.inr (Or.inl rfl)⟩
    have m2 : _ ∈ Fu := (hmem _).mpr ⟨t, ht, Or.inr (Or.inr (Or.inl rfl))⟩
    have m3 : _ ∈ Fu := (hmem _).mpr ⟨t, ht, Or.inr (Or.inr (Or.inr rfl))⟩
    rcases hut with rfl | rfl | rfl | rfl
    · rcases heu with rfl | rfl | rfl
      · exact (hmemS _).mpr ⟨_, m3, Or.inr (Or.inr rfl)⟩
      · exact (half' _ s3).2
      · exact (half' _ s1).1
    · rcases heu with rfl | rfl | rfl
      · exact (half' _ s2).1
      · exact (hmemS _).mpr ⟨_, m3, Or.inl rfl⟩
      · exact (half' _ s1).2
    · rcases heu with rfl | rfl | rfl
      · exact (half' _ s2).2
      · exact (half' _ s3).1
      · exact (hmemS _).mpr ⟨_, m3, Or.inr (Or.inl rfl)⟩
    · rcases heu with rfl | rfl | rfl
      · exact (hmemS _).mpr ⟨_, m1, Or.inr (Or.inl rfl)⟩
      · exact (hmemS _).mpr ⟨_, m2, Or.inr (Or.inr rfl)⟩
      · exact (hmemS _).mpr ⟨_, m0, Or.inl rfl⟩
  -- positions
  have hpo : ∀ i < V.length, vpos Vu i = vpos V i := by
    intro i hi; unfold vpos; rw [List.getD, List.getD, hold i hi]
  have hv : ∀ i < V.length, V[i]? = some (vpos V i) := by
    intro i hi; unfold vpos; rw [List.getD, List.getElem?_eq_getElem hi]; rfl
  have hun : ∀ i < V.length, pdot (vpos V i) (vpos V i) = 1 := fun i hi => h.unit _ (List.mem_of_getElem? (hv i hi))
  have hpm : ∀ e ∈ sides F, e.s < V.length → e.t < V.length → vpos Vu (mid e) = midPt (vpos V e.s) (vpos V e.t) := by
    intro e he h1 h2
    exact vpos_of_get (hmid e he _ _ (hv _ h1) (hv _ h2))
  have hpts : ∀ t ∈ F, vpos Vu t.a = vpos V t.a ∧ vpos Vu t.b = vpos V t.b ∧ vpos Vu t.c = vpos V t.c ∧
      vpos Vu (mid ⟨t.a, t.b⟩) = midPt (vpos V t.a) (vpos V t.b) ∧ vpos Vu (mid ⟨t.b, t.c⟩) = midPt (vpos V t.b) (vpos V t.c) ∧
      vpos Vu (mid ⟨t.c, t.a⟩) = midPt (vpos V t.c) (vpos V t.a) := by
    intro t ht
    obtain ⟨ra, rb, rc⟩ := h.range t ht
    obtain ⟨s1, s2, s3⟩ := hs t ht
    exact ⟨hpo _ ra, hpo _ rb, hpo _ rc, hpm _ s1 ra rb, hpm _ s2 rb rc, hpm _ s3 rc ra⟩
  refine ⟨Vu, Fu, S, he, hup, icoInv_normalize ?_ hman htw hrg hclosed ?_ ?_ ?_, hlen, by omega⟩
  · intro h0
    have := List.length_pos_iff.mpr h.ne
    rw [h0, List.length_nil] at hlen
    omega
  · intro x hx
    obtain ⟨k, hkx⟩ := List.mem_iff_getElem?.mp hx
    have hkl := (List.getElem?_eq_some_iff.mp hkx).1
    rw [← vpos_of_get hkx]
    by_cases hk1 : k < V.length
    · rw [hpo k hk1, hun k hk1]; exact one_pos
    · obtain ⟨e, he, rfl⟩ := (hk k).mp ⟨by omega, hkl⟩
      obtain ⟨t, ht, he⟩ := List.mem_flatMap.mp he
      obtain ⟨ra, rb, rc⟩ := h.range t ht
      obtain ⟨p1, p2, p3⟩ := h.pos t ht
      obtain ⟨-, -, -, q1, q2, q3⟩ := hpts t ht
      simp only [List.mem_cons, List.not_mem_nil, or_false] at he
      rcases he with rfl | rfl | rfl
      · show 0 < pdot (vpos Vu (mid ⟨t.b, t.c⟩)) (vpos Vu (mid ⟨t.b, t.c⟩)); rw [q2]; exact mid_pos (hun _ rb) (hun _ rc) p2
      · show 0 < pdot (vpos Vu (mid ⟨t.c, t.a⟩)) (vpos Vu (mid ⟨t.c, t.a⟩)); rw [q3]; exact mid_pos (hun _ rc) (hun _ ra) p3
      · show 0 < pdot (vpos Vu (mid ⟨t.a, t.b⟩)) (vpos Vu (mid ⟨t.a, t.b⟩)); rw [q1]; exact mid_pos (hun _ ra) (hun _ rb) p1
  · intro u hu
    obtain ⟨t, ht, hut⟩ := (hmem u).mp hu
    obtain ⟨ra, rb, rc⟩ := h.range t ht
    obtain ⟨p1, p2, p3⟩ := h.pos t ht
    obtain ⟨q1, q2, q3, q4, q5, q6⟩ := hpts t ht
    have u1 := hun _ ra
    have u2 := hun _ rb
    have u3 := hun _ rc
    rw [pdot3] at p1 p2 p3 u1 u2 u3
    rcases hut with rfl | rfl | rfl | rfl
    · simp only [q1, q2, q3, q4, q5, q6, pdot3]; unfold midPt; refine ⟨?_, ?_, ?_⟩ <;> nlinarith
    · simp only [q1, q2, q3, q4, q5, q6, pdot3]; unfold midPt; refine ⟨?_, ?_, ?_⟩ <;> nlinarith
    · simp only [q1, q2, q3, q4, q5, q6, pdot3]; unfold midPt; refine ⟨?_, ?_, ?_⟩ <;> nlinarith
    · simp only [q1, q2, q3, q4, q5, q6, pdot3]; unfold midPt; refine ⟨?_, ?_, ?_⟩ <;> nlinarith
  · intro u hu
    obtain ⟨t, ht, hut⟩ := (hmem u).mp hu
    obtain ⟨q1, q2, q3, q4, q5, q6⟩ := hpts t ht
    have o := h.out t ht
    unfold triple at o ⊢
    rcases hut with rfl | rfl | rfl | rfl
    · simp only [q1, q2, q3, q4, q5, q6]; unfold midPt; nlinarith
    · simp only [q1, q2, q3, q4, q5, q6]; unfold midPt; nlinarith
    · simp only [q1, q2, q3, q4, q5, q6]; unfold midPt; nlinarith
    · simp only [q1, q2, q3, q4, q5, q6]; unfold midPt; nlinarith

/-- **C61.** For every `n`, `icosphere(n)` returns a mesh with `20·4ⁿ` faces and `10·4ⁿ + 2` vertices; every vertex lies on the unit sphere; all
face indices are rows of `V`; the mesh is a closed, consistently oriented manifold (every directed side occurs once, and so does its reverse);
and every face is seen counterclockwise from outside. -/
theorem C61_icosphere (n : ℕ) : ∃ V F, icosphere n = some (V, F) ∧
    F.length = 20 * 4 ^ n ∧ V.length = 10 * 4 ^ n + 2 ∧
    (∀ x ∈ V, x 0 ^ 2 + x 1 ^ 2 + x 2 ^ 2 = 1) ∧
    InRange F V.length ∧ OrientedManifold F ∧ ClosedMesh F ∧
    ∀ t ∈ F, ∀ x y z, V[t.a]? = some x → V[t.b]? = some y → V[t.c]? = some z → Outward x y z := by
  have key : ∃ V F, icosphere n = some (V, F) ∧ IcoInv V F ∧ F.length = 20 * 4 ^ n ∧ V.length = 10 * 4 ^ n + 2 := by
    induction n with
    | zero => exact ⟨_, _, rfl, ico_base, rfl, rfl⟩
    | succ n ih =>
      obtain ⟨V, F, h1, h2, h3, h4⟩ := ih
      obtain ⟨Vu, Fu, S, he, hup, hinv, hl, hvl⟩ := ico_step h2
      refine ⟨Vu.map normalizeRow, Fu, ?_, hinv, ?_, ?_⟩
      · rw [icosphere, h1]
        simp only [Option.bind_eq_bind, Option.bind_some, hup]
      · rw [hl, h3, pow_succ]; ring
      · rw [List.length_map]
        rw [pow_succ]; omega
  obtain ⟨V, F, h1, h2, h3, h4⟩ := key
  refine ⟨V, F, h1, h3, h4, ?_, h2.range, h2.man, h2.closed, ?_⟩
  · intro x hx
    have := h2.unit x hx
    rw [pdot3] at this
    linarith [this, sq (x 0), sq (x 1), sq (x 2)]
  · intro t ht x y z hx hy hz
    rw [outward_iff, ← vpos_of_get hx, ← vpos_of_get hy, ← vpos_of_get hz]
    exact h2.out t ht

end Gpy
