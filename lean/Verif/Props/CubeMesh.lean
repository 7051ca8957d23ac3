import Verif.Proofs.CubeMesh
import Verif.Props.Generators

/-! Property C32 (and C56): `regular_cube_mesh`. -/

set_option autoImplicit false
namespace Gpy
open Np

/-! ## C32 -/

/-- C32, indices: `nx*ny*nz` vertices, five or six tetrahedra per cell, all indices in range. -/
theorem C32_cube_mesh_indices (type : CubeType) (nx ny nz : ℕ) (hx : 2 ≤ nx) (hy : 2 ≤ ny) (hz : 2 ≤ nz) :
    (cubeV nx ny nz).length = nx * ny * nz ∧
    (cubeT type nx ny nz).length = (if type = .five then 5 else 6) * ((nx - 1) * (ny - 1) * (nz - 1)) ∧
    TetInRange (nx * ny * nz) (cubeT type nx ny nz) := by
  refine ⟨?_, ?_, ?_⟩
  · unfold cubeV; simp [List.length_flatMap]; ring
  · rw [cubeT_eq, List.length_flatMap]
    simp only [List.length_map, length_cubeCells]
    cases type <;> simp [tetTable] <;> ring
  · intro t ht
    obtain ⟨τ, h1, q, h2, rfl⟩ := mem_cubeT.mp ht
    obtain ⟨a, b, c, d⟩ := tetTable_ok type τ h1
    exact ⟨crn_lt a h2, crn_lt b h2, crn_lt c h2, crn_lt d h2⟩

theorem cubeT_geom {type : CubeType} {nx ny nz : ℕ} {τ : TetOff} (h1 : τ ∈ tetTable type) {q : Cell} (h2 : q ∈ cubeCells nx ny nz) :
    (cubeV nx ny nz)[(mkTet nx nz τ q).a]? = some (cpos nx ny nz τ.a q) ∧ (cubeV nx ny nz)[(mkTet nx nz τ q).b]? = some (cpos nx ny nz τ.b q) ∧
    (cubeV nx ny nz)[(mkTet nx nz τ q).c]? = some (cpos nx ny nz τ.c q) ∧ (cubeV nx ny nz)[(mkTet nx nz τ q).d]? = some (cpos nx ny nz τ.d q) := by
  obtain ⟨a, b, c, d⟩ := tetTable_ok type τ h1
  exact ⟨cubeV_crn a h2, cubeV_crn b h2, cubeV_crn c h2, cubeV_crn d h2⟩

/-- C32, orientation: every tetrahedron has positive signed volume. -/
theorem C32_cube_mesh_positive (type : CubeType) (nx ny nz : ℕ) (hx : 2 ≤ nx) (hy : 2 ≤ ny) (hz : 2 ≤ nz) : ∀ t ∈ cubeT type nx ny nz,
    ∃ a b c d : V3 ℝ, (cubeV nx ny nz)[t.a]? = some a ∧ (cubeV nx ny nz)[t.b]? = some b ∧ (cubeV nx ny nz)[t.c]? = some c ∧
      (cubeV nx ny nz)[t.d]? = some d ∧ 0 < sixVol a b c d / 6 := by
  intro t ht
  obtain ⟨τ, h1, q, h2, rfl⟩ := mem_cubeT.mp ht
  obtain ⟨a, b, c, d⟩ := cubeT_geom h1 h2
  refine ⟨_, _, _, _, a, b, c, d, ?_⟩
  rw [sixVol_cpos]
  have px := ucell_pos hx
  have py := ucell_pos hy
  have pz := ucell_pos hz
  have : (1 : ℝ) ≤ (offVol τ : ℝ) := by exact_mod_cast offVol_pos type τ h1
  positivity

/-- signed volume of a row of `T` (a missing vertex counts as the origin; there is none by `C32_cube_mesh_indices`) -/
noncomputable def rowVol (V : List (V3 ℝ)) (t : Tet) : ℝ :=
  sixVol (V[t.a]?.getD 0) (V[t.b]?.getD 0) (V[t.c]?.getD 0) (V[t.d]?.getD 0) / 6

/-- C32, the volumes sum to one. -/
theorem C32_cube_mesh_total_volume (type : CubeType) (nx ny nz : ℕ) (hx : 2 ≤ nx) (hy : 2 ≤ ny) (hz : 2 ≤ nz) :
    ((cubeT type nx ny nz).map (rowVol (cubeV nx ny nz))).sum = 1 := by
  rw [cubeT_eq, List.map_flatMap]
  have e : ∀ τ ∈ tetTable type, ((cubeCells nx ny nz).map (mkTet nx nz τ)).map (rowVol (cubeV nx ny nz)) =
      List.replicate (cubeCells nx ny nz).length (ucell nx * ucell ny * ucell nz * (offVol τ : ℝ) / 6) := by
    intro τ h1
    rw [List.map_map, List.eq_replicate_iff]
    refine ⟨by simp, ?_⟩
    intro x hx
    obtain ⟨q, h2, rfl⟩ := List.mem_map.mp hx
    obtain ⟨a, b, c, d⟩ := cubeT_geom h1 h2
    simp only [Function.comp_apply, rowVol, a, b, c, d, Option.getD_some]
    rw [sixVol_cpos]
  rw [List.flatMap_def, List.map_congr_left e, List.sum_flatten, List.map_map]
  have e2 : (List.sum ∘ fun τ : TetOff => List.replicate (cubeCells nx ny nz).length (ucell nx * ucell ny * ucell nz * (offVol τ : ℝ) / 6)) =
      fun τ => ((cubeCells nx ny nz).length * (ucell nx * ucell ny * ucell nz) / 6) * (offVol τ : ℝ) := by
    funext τ; simp only [Function.comp_apply, List.sum_replicate, nsmul_eq_mul]; ring
  rw [e2, List.sum_map_mul_left]
  have e3 : ((tetTable type).map (fun τ => (offVol τ : ℝ))).sum = 6 := by
    have := congrArg (fun z : ℤ => (z : ℝ)) (offVol_sum type)
    rw [Int.cast_list_sum, List.map_map] at this
    simpa [Function.comp_def] using this
  rw [e3, length_cubeCells]
  push_cast [show 1 ≤ nx by omega, show 1 ≤ ny by omega, show 1 ≤ nz by omega]
  have a := ucell_mul hx
  have b := ucell_mul hy
  have c := ucell_mul hz
  calc _ = (((nx : ℝ) - 1) * ucell nx) * (((ny : ℝ) - 1) * ucell ny) * (((nz : ℝ) - 1) * ucell nz) := by ring
    _ = 1 := by rw [a, b, c]; norm_num

theorem find_ucell {n : ℕ} (h : 2 ≤ n) {x : ℝ} (h1 : 0 ≤ x) (h2 : x ≤ 1) : ∃ i : ℕ, i < n - 1 ∧ ∃ s : ℝ, 0 ≤ s ∧ s ≤ 1 ∧ x = (i + s) * ucell n := by
  obtain ⟨i, hi, s, s0, s1, e⟩ := find_cell h (x := 2 * x - 1) (by linarith) (by linarith)
  refine ⟨i, hi, s, s0, s1, ?_⟩
  have : cell n = 2 * ucell n := by unfold cell ucell; ring
  rw [this] at e
  linarith

/-- weights of a point in a tetrahedron of the unit cell -/
def LocalBary (τ : TetOff) (s q w : ℝ) (a b c d : ℝ) : Prop :=
  a + b + c + d = 1 ∧ s = a * τ.a.x + b * τ.b.x + c * τ.c.x + d * τ.d.x ∧ q = a * τ.a.y + b * τ.b.y + c * τ.c.y + d * τ.d.y ∧
    w = a * τ.a.z + b * τ.b.z + c * τ.c.z + d * τ.d.z

/-- the tetrahedra of a cell cover it -/
theorem local_cover (type : CubeType) {s q w : ℝ} (s0 : 0 ≤ s) (s1 : s ≤ 1) (q0 : 0 ≤ q) (q1 : q ≤ 1) (t0 : 0 ≤ w) (t1 : w ≤ 1) :
    ∃ τ ∈ tetTable type, ∃ a b c d : ℝ, 0 ≤ a ∧ 0 ≤ b ∧ 0 ≤ c ∧ 0 ≤ d ∧ LocalBary τ s q w a b c d := by
  have fin : ∀ (τ : TetOff), τ ∈ tetTable type → ∀ a b c d : ℝ, (0 ≤ a ∧ 0 ≤ b ∧ 0 ≤ c ∧ 0 ≤ d) → LocalBary τ s q w a b c d →
      ∃ τ ∈ tetTable type, ∃ a b c d : ℝ, 0 ≤ a ∧ 0 ≤ b ∧ 0 ≤ c ∧ 0 ≤ d ∧ LocalBary τ s q w a b c d :=
    fun τ h a b c d hp hl => ⟨τ, h, a, b, c, d, hp.1, hp.2.1, hp.2.2.1, hp.2.2.2, hl⟩
  cases type with
  | five =>
    by_cases c1 : s + q + w ≤ 1
    · refine fin ⟨w5, w3, w2, w1⟩ (by decide) w q s (1 - s - q - w) ?_ ?_
      · refine ⟨?_, ?_, ?_, ?_⟩ <;> linarith
      · refine ⟨?_, ?_, ?_, ?_⟩ <;> norm_num <;> ring
    by_cases c2 : 1 + w ≤ s + q
    · refine fin ⟨w3, w4, w8, w2⟩ (by decide) (1 - s) (s + q - w - 1) w (1 - q) ?_ ?_
      · refine ⟨?_, ?_, ?_, ?_⟩ <;> linarith
      · refine ⟨?_, ?_, ?_, ?_⟩ <;> norm_num <;> ring
    by_cases c3 : 1 + s ≤ q + w
    · refine fin ⟨w3, w8, w7, w5⟩ (by decide) (1 - w) s (q + w - s - 1) (1 - q) ?_ ?_
      · refine ⟨?_, ?_, ?_, ?_⟩ <;> linarith
      · refine ⟨?_, ?_, ?_, ?_⟩ <;> norm_num <;> ring
    by_cases c4 : 1 + q ≤ s + w
    · refine fin ⟨w2, w6, w8, w5⟩ (by decide) (1 - w) (s + w - q - 1) q (1 - s) ?_ ?_
      · refine ⟨?_, ?_, ?_, ?_⟩ <;> linarith
      · refine ⟨?_, ?_, ?_, ?_⟩ <;> norm_num <;> ring
    · refine fin ⟨w3, w2, w8, w5⟩ (by decide) ((1 - s - w + q) / 2) ((1 - q - w + s) / 2) ((s + q + w - 1) / 2) ((1 - s - q + w) / 2) ?_ ?_
      · refine ⟨?_, ?_, ?_, ?_⟩ <;> linarith
      · refine ⟨?_, ?_, ?_, ?_⟩ <;> norm_num <;> ring
  | reflectionally =>
    rcases le_total s q with c1 | c1
    · by_cases c2 : s + w ≤ q
      · refine fin ⟨w3, w4, w7, w1⟩ (by decide) (q - s - w) s w (1 - q) ?_ ?_
        · refine ⟨?_, ?_, ?_, ?_⟩ <;> linarith
        · refine ⟨?_, ?_, ?_, ?_⟩ <;> norm_num <;> ring
      by_cases c3 : s + w ≤ 1
      · refine fin ⟨w4, w5, w7, w1⟩ (by decide) s (w - q + s) (q - s) (1 - s - w) ?_ ?_
        · refine ⟨?_, ?_, ?_, ?_⟩ <;> linarith
        · refine ⟨?_, ?_, ?_, ?_⟩ <;> norm_num <;> ring
      · refine fin ⟨w4, w8, w7, w5⟩ (by decide) (1 - w) (s + w - 1) (q - s) (1 - q) ?_ ?_
        · refine ⟨?_, ?_, ?_, ?_⟩ <;> linarith
        · refine ⟨?_, ?_, ?_, ?_⟩ <;> norm_num <;> ring
    · by_cases c2 : 1 + q ≤ s + w
      · refine fin ⟨w2, w6, w8, w5⟩ (by decide) (1 - w) (s + w - 1 - q) q (1 - s) ?_ ?_
        · refine ⟨?_, ?_, ?_, ?_⟩ <;> linarith
        · refine ⟨?_, ?_, ?_, ?_⟩ <;> norm_num <;> ring
      by_cases c3 : 1 ≤ s + w
      · refine fin ⟨w4, w2, w8, w5⟩ (by decide) (q - w + 1 - s) (s - q) (w - 1 + s) (1 - s) ?_ ?_
        · refine ⟨?_, ?_, ?_, ?_⟩ <;> linarith
        · refine ⟨?_, ?_, ?_, ?_⟩ <;> norm_num <;> ring
      · refine fin ⟨w4, w2, w5, w1⟩ (by decide) q (s - q) w (1 - s - w) ?_ ?_
        · refine ⟨?_, ?_, ?_, ?_⟩ <;> linarith
        · refine ⟨?_, ?_, ?_, ?_⟩ <;> norm_num <;> ring
  | rotationally =>
    rcases le_total s q with c1 | c1 <;> rcases le_total q w with c2 | c2 <;> rcases le_total s w with c3 | c3
    · refine fin ⟨w1, w8, w7, w5⟩ (by decide) (1 - w) s (q - s) (w - q) ?_ ?_
      · refine ⟨?_, ?_, ?_, ?_⟩ <;> linarith
      · refine ⟨?_, ?_, ?_, ?_⟩ <;> norm_num <;> ring
    · refine fin ⟨w1, w8, w7, w5⟩ (by decide) (1 - w) s (q - s) (w - q) ?_ ?_
      · refine ⟨?_, ?_, ?_, ?_⟩ <;> linarith
      · refine ⟨?_, ?_, ?_, ?_⟩ <;> norm_num <;> ring
    · refine fin ⟨w1, w3, w7, w8⟩ (by decide) (1 - q) (q - w) (w - s) s ?_ ?_
      · refine ⟨?_, ?_, ?_, ?_⟩ <;> linarith
      · refine ⟨?_, ?_, ?_, ?_⟩ <;> norm_num <;> ring
    · refine fin ⟨w1, w3, w8, w4⟩ (by decide) (1 - q) (q - s) w (s - w) ?_ ?_
      · refine ⟨?_, ?_, ?_, ?_⟩ <;> linarith
      · refine ⟨?_, ?_, ?_, ?_⟩ <;> norm_num <;> ring
    · refine fin ⟨w1, w6, w8, w5⟩ (by decide) (1 - w) (s - q) q (w - s) ?_ ?_
      · refine ⟨?_, ?_, ?_, ?_⟩ <;> linarith
      · refine ⟨?_, ?_, ?_, ?_⟩ <;> norm_num <;> ring
    · refine fin ⟨w1, w2, w8, w6⟩ (by decide) (1 - s) (s - w) q (w - q) ?_ ?_
      · refine ⟨?_, ?_, ?_, ?_⟩ <;> linarith
      · refine ⟨?_, ?_, ?_, ?_⟩ <;> norm_num <;> ring
    · refine fin ⟨w1, w4, w8, w2⟩ (by decide) (1 - s) (q - w) w (s - q) ?_ ?_
      · refine ⟨?_, ?_, ?_, ?_⟩ <;> linarith
      · refine ⟨?_, ?_, ?_, ?_⟩ <;> norm_num <;> ring
    · refine fin ⟨w1, w4, w8, w2⟩ (by decide) (1 - s) (q - w) w (s - q) ?_ ?_
      · refine ⟨?_, ?_, ?_, ?_⟩ <;> linarith
      · refine ⟨?_, ?_, ?_, ?_⟩ <;> norm_num <;> ring

/-- C32, geometry: the tetrahedra cover the unit cube ... -/
theorem C32_cube_mesh_covers (type : CubeType) (nx ny nz : ℕ) (hx : 2 ≤ nx) (hy : 2 ≤ ny) (hz : 2 ≤ nz) (p : V3 ℝ)
    (h1 : 0 ≤ p.x ∧ p.x ≤ 1) (h2 : 0 ≤ p.y ∧ p.y ≤ 1) (h3 : 0 ≤ p.z ∧ p.z ≤ 1) :
    ∃ t ∈ cubeT type nx ny nz, ∃ a b c d : V3 ℝ, (cubeV nx ny nz)[t.a]? = some a ∧ (cubeV nx ny nz)[t.b]? = some b ∧
      (cubeV nx ny nz)[t.c]? = some c ∧ (cubeV nx ny nz)[t.d]? = some d ∧ InTet p a b c d := by
  obtain ⟨i, hi, s, s0, s1, es⟩ := find_ucell hx h1.1 h1.2
  obtain ⟨j, hj, q, q0, q1, eq⟩ := find_ucell hy h2.1 h2.2
  obtain ⟨k, hk, w, t0, t1, ew⟩ := find_ucell hz h3.1 h3.2
  obtain ⟨τ, hτ, a, b, c, d, pa, pb, pc, pd, e1, e2, e3, e4⟩ := local_cover type s0 s1 q0 q1 t0 t1
  have hq : (⟨k, i, j⟩ : Cell) ∈ cubeCells nx ny nz := mem_cubeCells.mpr ⟨hk, hi, hj⟩
  obtain ⟨ga, gb, gc, gd⟩ := cubeT_geom hτ hq
  refine ⟨mkTet nx nz τ ⟨k, i, j⟩, mem_cubeT.mpr ⟨τ, hτ, _, hq, rfl⟩, _, _, _, _, ga, gb, gc, gd, a, b, c, d, pa, pb, pc, pd, e1, ?_, ?_, ?_⟩
  · rw [es, e2]; unfold cpos; simp only; linear_combination (-(i : ℝ) * ucell nx) * e1
  · rw [eq, e3]; unfold cpos; simp only; linear_combination (-(j : ℝ) * ucell ny) * e1
  · rw [ew, e4]; unfold cpos; simp only; linear_combination (-(k : ℝ) * ucell nz) * e1

/-- interiors of the tetrahedra of a cell -/
theorem local_disjoint (type : CubeType) {τ τ' : TetOff} (h : τ ∈ tetTable type) (h' : τ' ∈ tetTable type) {s q w a b c d a' b' c' d' : ℝ}
    (pa : 0 < a) (pb : 0 < b) (pc : 0 < c) (pd : 0 < d) (pa' : 0 < a') (pb' : 0 < b') (pc' : 0 < c') (pd' : 0 < d')
    (l : LocalBary τ s q w a b c d) (l' : LocalBary τ' s q w a' b' c' d') : τ = τ' := by
  obtain ⟨e1, e2, e3, e4⟩ := l
  obtain ⟨f1, f2, f3, f4⟩ := l'
  cases type <;> simp only [tetTable, List.mem_cons, List.not_mem_nil, or_false] at h h' <;>
    rcases h with rfl | rfl | rfl | rfl | rfl | rfl <;> rcases h' with rfl | rfl | rfl | rfl | rfl | rfl <;> first | rfl |
      (exfalso; simp at e2 e3 e4 f2 f3 f4; linarith)

theorem local_interior {type : CubeType} {τ : TetOff} (h : τ ∈ tetTable type) {s q w a b c d : ℝ}
    (pa : 0 < a) (pb : 0 < b) (pc : 0 < c) (pd : 0 < d) (l : LocalBary τ s q w a b c d) : (0 < s ∧ s < 1) ∧ (0 < q ∧ q < 1) ∧ (0 < w ∧ w < 1) := by
  obtain ⟨e1, e2, e3, e4⟩ := l
  cases type <;> simp only [tetTable, List.mem_cons, List.not_mem_nil, or_false] at h <;>
    rcases h with rfl | rfl | rfl | rfl | rfl | rfl <;> simp at e2 e3 e4 <;> refine ⟨⟨?_, ?_⟩, ⟨?_, ?_⟩, ?_, ?_⟩ <;> linarith

/-- ... and their interiors do not overlap. -/
theorem C32_cube_mesh_no_overlap (type : CubeType) (nx ny nz : ℕ) (hx : 2 ≤ nx) (hy : 2 ≤ ny) (hz : 2 ≤ nz) (p : V3 ℝ) (t t' : Tet)
    (ht : t ∈ cubeT type nx ny nz) (ht' : t' ∈ cubeT type nx ny nz) (a b c d a' b' c' d' : V3 ℝ)
    (ha : (cubeV nx ny nz)[t.a]? = some a) (hb : (cubeV nx ny nz)[t.b]? = some b) (hc : (cubeV nx ny nz)[t.c]? = some c)
    (hd : (cubeV nx ny nz)[t.d]? = some d)
    (ha' : (cubeV nx ny nz)[t'.a]? = some a') (hb' : (cubeV nx ny nz)[t'.b]? = some b') (hc' : (cubeV nx ny nz)[t'.c]? = some c')
    (hd' : (cubeV nx ny nz)[t'.d]? = some d')
    (hi : InsideTet p a b c d) (hi' : InsideTet p a' b' c' d') : t = t' := by
  have px := ucell_pos hx
  have py := ucell_pos hy
  have pz := ucell_pos hz
  have norm : ∀ {t : Tet} {a b c d : V3 ℝ}, t ∈ cubeT type nx ny nz → (cubeV nx ny nz)[t.a]? = some a → (cubeV nx ny nz)[t.b]? = some b →
      (cubeV nx ny nz)[t.c]? = some c → (cubeV nx ny nz)[t.d]? = some d → InsideTet p a b c d → ∃ (τ : TetOff) (g : Cell) (s q w u0 u1 u2 u3 : ℝ),
        τ ∈ tetTable type ∧ t = mkTet nx nz τ g ∧ (0 < u0 ∧ 0 < u1 ∧ 0 < u2 ∧ 0 < u3) ∧ LocalBary τ s q w u0 u1 u2 u3 ∧
        p.x / ucell nx = g.i + s ∧ p.y / ucell ny = g.j + q ∧ p.z / ucell nz = g.k + w := by
    rintro t a b c d ht ha hb hc hd ⟨u0, u1, u2, u3, h0, h1, h2, h3, hs, e1, e2, e3⟩
    obtain ⟨τ, hτ, g, hg, rfl⟩ := mem_cubeT.mp ht
    obtain ⟨ga, gb, gc, gd⟩ := cubeT_geom hτ hg
    rw [ha] at ga; rw [hb] at gb; rw [hc] at gc; rw [hd] at gd
    obtain rfl := Option.some.inj ga; obtain rfl := Option.some.inj gb; obtain rfl := Option.some.inj gc; obtain rfl := Option.some.inj gd
    refine ⟨τ, g, _, _, _, u0, u1, u2, u3, hτ, rfl, ⟨h0, h1, h2, h3⟩, ⟨hs, rfl, rfl, rfl⟩, ?_, ?_, ?_⟩
    · rw [div_eq_iff px.ne', e1]; unfold cpos; simp only; linear_combination (g.i * ucell nx) * hs
    · rw [div_eq_iff py.ne', e2]; unfold cpos; simp only; linear_combination (g.j * ucell ny) * hs
    · rw [div_eq_iff pz.ne', e3]; unfold cpos; simp only; linear_combination (g.k * ucell nz) * hs
  obtain ⟨τ, g, s, q, w, u0, u1, u2, u3, hτ, rfl, ⟨p0, p1, p2, p3⟩, hl, e1, e2, e3⟩ := norm ht ha hb hc hd hi
  obtain ⟨τ', g', s', q', w', u0', u1', u2', u3', hτ', rfl, ⟨p0', p1', p2', p3'⟩, hl', e1', e2', e3'⟩ := norm ht' ha' hb' hc' hd' hi'
  obtain ⟨⟨s0, s1⟩, ⟨q0, q1⟩, t0, t1⟩ := local_interior hτ p0 p1 p2 p3 hl
  obtain ⟨⟨s0', s1'⟩, ⟨q0', q1'⟩, t0', t1'⟩ := local_interior hτ' p0' p1' p2' p3' hl'
  obtain ⟨hi, rfl⟩ := cell_unique s0 s1 s0' s1' (e1.symm.trans e1')
  obtain ⟨hj, rfl⟩ := cell_unique q0 q1 q0' q1' (e2.symm.trans e2')
  obtain ⟨hk, rfl⟩ := cell_unique t0 t1 t0' t1' (e3.symm.trans e3')
  obtain rfl : g = g' := by cases g; cases g'; simp_all
  rw [local_disjoint type hτ hτ' p0 p1 p2 p3 p0' p1' p2' p3' hl hl']

/-- C32, `type='hex'`: one hexahedron per cell; its eight corners are the corners of the cell, bottom face first, each face in cyclic order. -/
theorem C32_cube_mesh_hex (nx ny nz : ℕ) (hx : 2 ≤ nx) (hy : 2 ≤ ny) (hz : 2 ≤ nz) :
    (cubeHex nx ny nz).length = (nx - 1) * (ny - 1) * (nz - 1) ∧
    (∀ h ∈ cubeHex nx ny nz, ∃ i j k : ℕ, i + 1 < nx ∧ j + 1 < ny ∧ k + 1 < nz ∧
      h.map (fun v => (cubeV nx ny nz)[v]?) =
        ([(0, 0, 0), (1, 0, 0), (1, 1, 0), (0, 1, 0), (0, 0, 1), (1, 0, 1), (1, 1, 1), (0, 1, 1)] : List (ℕ × ℕ × ℕ)).map (fun o =>
          some (⟨((i + o.1 : ℕ) : ℝ) / ((nx : ℝ) - 1), ((j + o.2.1 : ℕ) : ℝ) / ((ny : ℝ) - 1), ((k + o.2.2 : ℕ) : ℝ) / ((nz : ℝ) - 1)⟩ : V3 ℝ))) ∧
    (∀ i j k : ℕ, i + 1 < nx → j + 1 < ny → k + 1 < nz → ∃ h ∈ cubeHex nx ny nz,
      h.head?.bind (fun v => (cubeV nx ny nz)[v]?) = some (⟨(i : ℝ) / ((nx : ℝ) - 1), (j : ℝ) / ((ny : ℝ) - 1), (k : ℝ) / ((nz : ℝ) - 1)⟩ : V3 ℝ)) := by
  have e : cubeHex nx ny nz = (cubeCells nx ny nz).map (fun q => [w1, w2, w4, w3, w5, w6, w8, w7].map (fun o => crn nx nz o q)) := by
    unfold cubeHex
    simp only [cubeSlice_eq, List.zip_map', List.map_map]
    rfl
  have ps : ∀ o q, cpos nx ny nz o q = ⟨((q.i + o.x : ℕ) : ℝ) / ((nx : ℝ) - 1), ((q.j + o.y : ℕ) : ℝ) / ((ny : ℝ) - 1), ((q.k + o.z : ℕ) : ℝ) / ((nz : ℝ) - 1)⟩ := by
    intro o q; unfold cpos ucell; simp [div_eq_mul_inv]
  refine ⟨?_, ?_, ?_⟩
  · rw [e, List.length_map, length_cubeCells]; ring
  · intro h hh
    rw [e, List.mem_map] at hh
    obtain ⟨q, hq, rfl⟩ := hh
    have hq' := mem_cubeCells.mp hq
    refine ⟨q.i, q.j, q.k, by omega, by omega, by omega, ?_⟩
    simp only [List.map_cons, List.map_nil]
    rw [cubeV_crn (by decide) hq, cubeV_crn (by decide) hq, cubeV_crn (by decide) hq, cubeV_crn (by decide) hq, cubeV_crn (by decide) hq,
      cubeV_crn (by decide) hq, cubeV_crn (by decide) hq, cubeV_crn (by decide) hq]
    simp only [ps]
  · intro i j k hi hj hk
    have hq : (⟨k, i, j⟩ : Cell) ∈ cubeCells nx ny nz := mem_cubeCells.mpr ⟨by simp only; omega, by simp only; omega, by simp only; omega⟩
    refine ⟨_, by rw [e]; exact List.mem_map_of_mem hq, ?_⟩
    simp only [List.map_cons, List.head?_cons, Option.bind_some]
    rw [cubeV_crn (by decide) hq, ps]
    simp

example : cubeT .rotationally 2 2 2 = [⟨0, 4, 5, 7⟩, ⟨0, 7, 5, 1⟩, ⟨0, 4, 7, 6⟩, ⟨0, 6, 7, 2⟩, ⟨0, 3, 7, 1⟩, ⟨0, 2, 7, 3⟩] := by decide +kernel
example : cubeHex 2 2 2 = [[0, 2, 6, 4, 1, 3, 7, 5]] := by decide +kernel

/-! ## C56 -/

abbrev OFace := Off × Off × Off

def TetOff.faces (t : TetOff) : List OFace := [(t.b, t.c, t.d), (t.a, t.d, t.c), (t.a, t.b, t.d), (t.a, t.c, t.b)]

def fmap {α β : Type} (g : α → β) (f : α × α × α) : β × β × β := (g f.1, g f.2.1, g f.2.2)

theorem mkTet_faces (nx nz : ℕ) (τ : TetOff) (q : Cell) : (mkTet nx nz τ q).faces = τ.faces.map (fmap (fun o => crn nx nz o q)) := rfl

theorem SameFace.map {α β : Type} (g : α → β) {f f' : α × α × α} (h : SameFace f f') : SameFace (fmap g f) (fmap g f') := by
  rcases h with rfl | rfl | rfl
  · exact Or.inl rfl
  · exact Or.inr (Or.inl rfl)
  · exact Or.inr (Or.inr rfl)

def Off.addx (o : Off) : Off := ⟨o.x + 1, o.y, o.z⟩
def Off.addy (o : Off) : Off := ⟨o.x, o.y + 1, o.z⟩
def Off.addz (o : Off) : Off := ⟨o.x, o.y, o.z + 1⟩

/-- where the partner of a face of a cell is -/
inductive Partner | same | xp | xm | yp | ym | zp | zm
deriving DecidableEq

def partnerOk (type : CubeType) (φ : OFace) : Partner → Prop
  | .same => ∃ τ' ∈ tetTable type, ∃ φ' ∈ τ'.faces, SameFace φ' (revFace φ)
  | .xp => (φ.1.x = 1 ∧ φ.2.1.x = 1 ∧ φ.2.2.x = 1) ∧ ∃ τ' ∈ tetTable type, ∃ φ' ∈ τ'.faces, SameFace (fmap Off.addx φ') (revFace φ)
  | .xm => (φ.1.x = 0 ∧ φ.2.1.x = 0 ∧ φ.2.2.x = 0) ∧ ∃ τ' ∈ tetTable type, ∃ φ' ∈ τ'.faces, SameFace φ' (fmap Off.addx (revFace φ))
  | .yp => (φ.1.y = 1 ∧ φ.2.1.y = 1 ∧ φ.2.2.y = 1) ∧ ∃ τ' ∈ tetTable type, ∃ φ' ∈ τ'.faces, SameFace (fmap Off.addy φ') (revFace φ)
  | .ym => (φ.1.y = 0 ∧ φ.2.1.y = 0 ∧ φ.2.2.y = 0) ∧ ∃ τ' ∈ tetTable type, ∃ φ' ∈ τ'.faces, SameFace φ' (fmap Off.addy (revFace φ))
  | .zp => (φ.1.z = 1 ∧ φ.2.1.z = 1 ∧ φ.2.2.z = 1) ∧ ∃ τ' ∈ tetTable type, ∃ φ' ∈ τ'.faces, SameFace (fmap Off.addz φ') (revFace φ)
  | .zm => (φ.1.z = 0 ∧ φ.2.1.z = 0 ∧ φ.2.2.z = 0) ∧ ∃ τ' ∈ tetTable type, ∃ φ' ∈ τ'.faces, SameFace φ' (fmap Off.addz (revFace φ))

instance (type : CubeType) (φ : OFace) (p : Partner) : Decidable (partnerOk type φ p) := by cases p <;> unfold partnerOk <;> infer_instance

theorem partner_table (type : CubeType) (h5 : type ≠ .five) : ∀ τ ∈ tetTable type, ∀ φ ∈ τ.faces,
    ∃ p ∈ [Partner.same, .xp, .xm, .yp, .ym, .zp, .zm], partnerOk type φ p := by
  cases type with
  | five => exact absurd rfl h5
  | reflectionally => decide +kernel
  | rotationally => decide +kernel

theorem faces_ok {type : CubeType} {τ : TetOff} (h : τ ∈ tetTable type) {φ : OFace} (hφ : φ ∈ τ.faces) : φ.1.ok ∧ φ.2.1.ok ∧ φ.2.2.ok := by
  obtain ⟨a, b, c, d⟩ := tetTable_ok type τ h
  simp only [TetOff.faces, List.mem_cons, List.not_mem_nil, or_false] at hφ
  rcases hφ with rfl | rfl | rfl | rfl
  · exact ⟨b, c, d⟩
  · exact ⟨a, d, c⟩
  · exact ⟨a, b, d⟩
  · exact ⟨a, c, b⟩

theorem ucell_end {n i : ℕ} (h : 2 ≤ n) (hi : i + 2 = n) : ((i : ℝ) + 1) * ucell n = 1 := by
  have e := ucell_mul h
  have : (n : ℝ) = (i : ℝ) + 2 := by exact_mod_cast hi.symm
  rwa [this, show (i : ℝ) + 2 - 1 = i + 1 by ring] at e

/-- C56: in the reflectionally and rotationally symmetric meshes neighbouring tetrahedra fit together: every face of every tetrahedron
either lies on the boundary of the cube or is also, with the other orientation, a face of a tetrahedron of the mesh. -/
theorem C56_cube_mesh_conforming (type : CubeType) (h5 : type ≠ .five) (nx ny nz : ℕ) (hx : 2 ≤ nx) (hy : 2 ≤ ny) (hz : 2 ≤ nz) :
    ∀ t ∈ cubeT type nx ny nz, ∀ f ∈ t.faces,
      OnCubeBoundary (cubeV nx ny nz) f ∨ ∃ t' ∈ cubeT type nx ny nz, ∃ f' ∈ t'.faces, SameFace f' (revFace f) := by
  intro t ht f hf
  obtain ⟨τ, hτ, g, hg, rfl⟩ := mem_cubeT.mp ht
  rw [mkTet_faces, List.mem_map] at hf
  obtain ⟨φ, hφ, rfl⟩ := hf
  obtain ⟨oa, ob, oc⟩ := faces_ok hτ hφ
  have va := cubeV_crn oa hg
  have vb := cubeV_crn ob hg
  have vc := cubeV_crn oc hg
  have hg' := mem_cubeCells.mp hg
  have fin : ∀ {τ' : TetOff} {φ' : OFace} (g' : Cell), τ' ∈ tetTable type → φ' ∈ τ'.faces → g' ∈ cubeCells nx ny nz →
      SameFace (fmap (fun o => crn nx nz o g') φ') (fmap (fun o => crn nx nz o g) (revFace φ)) →
      ∃ t' ∈ cubeT type nx ny nz, ∃ f' ∈ t'.faces, SameFace f' (revFace (fmap (fun o => crn nx nz o g) φ)) := by
    intro τ' φ' g' h1 h2 h3 h4
    exact ⟨mkTet nx nz τ' g', mem_cubeT.mpr ⟨τ', h1, g', h3, rfl⟩, _, by rw [mkTet_faces]; exact List.mem_map_of_mem h2, h4⟩
  obtain ⟨p, -, hp⟩ := partner_table type h5 τ hτ φ hφ
  cases p with
  | same =>
    obtain ⟨τ', h1, φ', h2, h3⟩ := hp
    exact Or.inr (fin g h1 h2 hg (h3.map _))
  | xp =>
    obtain ⟨⟨e1, e2, e3⟩, τ', h1, φ', h2, h3⟩ := hp
    by_cases hb : g.i + 2 = nx
    · left
      refine ⟨_, _, _, va, vb, vc, Or.inr (Or.inl ?_)⟩
      simp only [cpos, e1, e2, e3, Nat.cast_one, ucell_end hx hb, and_self]
    · right
      refine fin ⟨g.k, g.i + 1, g.j⟩ h1 h2 (mem_cubeCells.mpr ⟨hg'.1, by simp only; omega, hg'.2.2⟩) ?_
      have := h3.map (fun o => crn nx nz o g)
      convert this using 1
      simp only [fmap, crn, Off.addx, Nat.add_right_comm _ 1, Nat.add_assoc]
  | xm =>
    obtain ⟨⟨e1, e2, e3⟩, τ', h1, φ', h2, h3⟩ := hp
    by_cases hb : g.i = 0
    · left
      refine ⟨_, _, _, va, vb, vc, Or.inl ?_⟩
      simp [cpos, e1, e2, e3, hb]
    · right
      refine fin ⟨g.k, g.i - 1, g.j⟩ h1 h2 (mem_cubeCells.mpr ⟨hg'.1, by simp only; omega, hg'.2.2⟩) ?_
      have := h3.map (fun o => crn nx nz o ⟨g.k, g.i - 1, g.j⟩)
      convert this using 1
      have hs : ∀ x, g.i - 1 + (x + 1) = g.i + x := by intro x; omega
      simp only [fmap, crn, Off.addx, hs]
  | yp =>
    obtain ⟨⟨e1, e2, e3⟩, τ', h1, φ', h2, h3⟩ := hp
    by_cases hb : g.j + 2 = ny
    · left
      refine ⟨_, _, _, va, vb, vc, Or.inr (Or.inr (Or.inr (Or.inl ?_)))⟩
      simp only [cpos, e1, e2, e3, Nat.cast_one, ucell_end hy hb, and_self]
    · right
      refine fin ⟨g.k, g.i, g.j + 1⟩ h1 h2 (mem_cubeCells.mpr ⟨hg'.1, hg'.2.1, by simp only; omega⟩) ?_
      have := h3.map (fun o => crn nx nz o g)
      convert this using 1
      simp only [fmap, crn, Off.addy, Nat.add_right_comm _ 1, Nat.add_assoc]
  | ym =>
    obtain ⟨⟨e1, e2, e3⟩, τ', h1, φ', h2, h3⟩ := hp
    by_cases hb : g.j = 0
    · left
      refine ⟨_, _, _, va, vb, vc, Or.inr (Or.inr (Or.inl ?_))⟩
      simp [cpos, e1, e2, e3, hb]
    · right
      refine fin ⟨g.k, g.i, g.j - 1⟩ h1 h2 (mem_cubeCells.mpr ⟨hg'.1, hg'.2.1, by simp only; omega⟩) ?_
      have := h3.map (fun o => crn nx nz o ⟨g.k, g.i, g.j - 1⟩)
      convert this using 1
      have hs : ∀ x, g.j - 1 + (x + 1) = g.j + x := by intro x; omega
      simp only [fmap, crn, Off.addy, hs]
  | zp =>
    obtain ⟨⟨e1, e2, e3⟩, τ', h1, φ', h2, h3⟩ := hp
    by_cases hb : g.k + 2 = nz
    · left
      refine ⟨_, _, _, va, vb, vc, Or.inr (Or.inr (Or.inr (Or.inr (Or.inr ?_))))⟩
      simp only [cpos, e1, e2, e3, Nat.cast_one, ucell_end hz hb, and_self]
    · right
      refine fin ⟨g.k + 1, g.i, g.j⟩ h1 h2 (mem_cubeCells.mpr ⟨by simp only; omega, hg'.2.1, hg'.2.2⟩) ?_
      have := h3.map (fun o => crn nx nz o g)
      convert this using 1
      simp only [fmap, crn, Off.addz, Nat.add_right_comm _ 1, Nat.add_assoc]
  | zm =>
    obtain ⟨⟨e1, e2, e3⟩, τ', h1, φ', h2, h3⟩ := hp
    by_cases hb : g.k = 0
    · left
      refine ⟨_, _, _, va, vb, vc, Or.inr (Or.inr (Or.inr (Or.inr (Or.inl ?_))))⟩
      simp [cpos, e1, e2, e3, hb]
    · right
      refine fin ⟨g.k - 1, g.i, g.j⟩ h1 h2 (mem_cubeCells.mpr ⟨by simp only; omega, hg'.2.1, hg'.2.2⟩) ?_
      have := h3.map (fun o => crn nx nz o ⟨g.k - 1, g.i, g.j⟩)
      convert this using 1
      have hs : ∀ x, g.k - 1 + (x + 1) = g.k + x := by intro x; omega
      simp only [fmap, crn, Off.addz, hs]

/-- signed areas of the projections of a face -/
def ax (p : OFace) : ℤ := ((p.2.1.y : ℤ) - p.1.y) * ((p.2.2.z : ℤ) - p.1.z) - ((p.2.1.z : ℤ) - p.1.z) * ((p.2.2.y : ℤ) - p.1.y)
def ay (p : OFace) : ℤ := ((p.2.1.z : ℤ) - p.1.z) * ((p.2.2.x : ℤ) - p.1.x) - ((p.2.1.x : ℤ) - p.1.x) * ((p.2.2.z : ℤ) - p.1.z)
def az (p : OFace) : ℤ := ((p.2.1.x : ℤ) - p.1.x) * ((p.2.2.y : ℤ) - p.1.y) - ((p.2.1.y : ℤ) - p.1.y) * ((p.2.2.x : ℤ) - p.1.x)

/-- all faces on the sides of a cell are oriented the same way -/
theorem area_table (type : CubeType) : ∀ τ ∈ tetTable type, ∀ φ ∈ τ.faces,
    ((φ.1.x = 1 ∧ φ.2.1.x = 1 ∧ φ.2.2.x = 1 → 0 < ax φ) ∧ (φ.1.x = 0 ∧ φ.2.1.x = 0 ∧ φ.2.2.x = 0 → ax φ < 0)) ∧
    ((φ.1.y = 1 ∧ φ.2.1.y = 1 ∧ φ.2.2.y = 1 → 0 < ay φ) ∧ (φ.1.y = 0 ∧ φ.2.1.y = 0 ∧ φ.2.2.y = 0 → ay φ < 0)) ∧
    ((φ.1.z = 1 ∧ φ.2.1.z = 1 ∧ φ.2.2.z = 1 → 0 < az φ) ∧ (φ.1.z = 0 ∧ φ.2.1.z = 0 ∧ φ.2.2.z = 0 → az φ < 0)) := by
  cases type <;> decide +kernel

theorem face_table (type : CubeType) : ∀ τ ∈ tetTable type, ∀ φ ∈ τ.faces, ∀ τ' ∈ tetTable type, ∀ φ' ∈ τ'.faces, SameFace φ φ' → τ = τ' := by
  cases type <;> decide +kernel

/-- the lattice point of a corner -/
def latt (o : Off) (g : Cell) : Off := ⟨g.i + o.x, g.j + o.y, g.k + o.z⟩

theorem crn_inj {nx ny nz : ℕ} {o o' : Off} {g g' : Cell} (ho : o.ok) (ho' : o'.ok) (hg : g ∈ cubeCells nx ny nz) (hg' : g' ∈ cubeCells nx ny nz)
    (h : crn nx nz o g = crn nx nz o' g') : latt o g = latt o' g' := by
  rw [mem_cubeCells] at hg hg'
  unfold Off.ok at ho ho'
  obtain ⟨a, b, c⟩ := cubeIdx_inj (ny := ny) (by omega) (by omega) (by omega) (by omega) (by omega) (by omega) h
  unfold latt
  rw [a, b, c]

theorem ax_latt (φ : OFace) (g : Cell) : ax (fmap (fun o => latt o g) φ) = ax φ := by unfold ax fmap latt; push_cast; ring
theorem ay_latt (φ : OFace) (g : Cell) : ay (fmap (fun o => latt o g) φ) = ay φ := by unfold ay fmap latt; push_cast; ring
theorem az_latt (φ : OFace) (g : Cell) : az (fmap (fun o => latt o g) φ) = az φ := by unfold az fmap latt; push_cast; ring

theorem ax_same {f g : OFace} (h : SameFace f g) : ax g = ax f := by rcases h with rfl | rfl | rfl <;> unfold ax <;> ring
theorem ay_same {f g : OFace} (h : SameFace f g) : ay g = ay f := by rcases h with rfl | rfl | rfl <;> unfold ay <;> ring
theorem az_same {f g : OFace} (h : SameFace f g) : az g = az f := by rcases h with rfl | rfl | rfl <;> unfold az <;> ring

/-- C56, for all types: no oriented face belongs to two tetrahedra. -/
theorem C56_cube_mesh_faces_once (type : CubeType) (nx ny nz : ℕ) (t t' : Tet) (ht : t ∈ cubeT type nx ny nz) (ht' : t' ∈ cubeT type nx ny nz)
    (f f' : Face) (hf : f ∈ t.faces) (hf' : f' ∈ t'.faces) (h : SameFace f f') : t = t' := by
  obtain ⟨τ, hτ, g, hg, rfl⟩ := mem_cubeT.mp ht
  obtain ⟨τ', hτ', g', hg', rfl⟩ := mem_cubeT.mp ht'
  rw [mkTet_faces, List.mem_map] at hf hf'
  obtain ⟨φ, hφ, rfl⟩ := hf
  obtain ⟨φ', hφ', rfl⟩ := hf'
  obtain ⟨oa, ob, oc⟩ := faces_ok hτ hφ
  obtain ⟨oa', ob', oc'⟩ := faces_ok hτ' hφ'
  have hl : SameFace (fmap (fun o => latt o g) φ) (fmap (fun o => latt o g') φ') := by
    rcases h with h | h | h <;> simp only [fmap, Prod.mk.injEq] at h <;> obtain ⟨h1, h2, h3⟩ := h
    · exact Or.inl (by simp only [fmap]; rw [crn_inj oa' oa hg' hg h1, crn_inj ob' ob hg' hg h2, crn_inj oc' oc hg' hg h3])
    · exact Or.inr (Or.inl (by simp only [fmap]; rw [crn_inj oa' ob hg' hg h1, crn_inj ob' oc hg' hg h2, crn_inj oc' oa hg' hg h3]))
    · exact Or.inr (Or.inr (by simp only [fmap]; rw [crn_inj oa' oc hg' hg h1, crn_inj ob' oa hg' hg h2, crn_inj oc' ob hg' hg h3]))
  have kx := ax_same hl
  have ky := ay_same hl
  have kz := az_same hl
  rw [ax_latt, ax_latt] at kx
  rw [ay_latt, ay_latt] at ky
  rw [az_latt, az_latt] at kz
  obtain ⟨⟨x1, x0⟩, ⟨y1, y0⟩, z1, z0⟩ := area_table type τ hτ φ hφ
  obtain ⟨⟨x1', x0'⟩, ⟨y1', y0'⟩, z1', z0'⟩ := area_table type τ' hτ' φ' hφ'
  unfold Off.ok at oa ob oc oa' ob' oc'
  have key : g = g' ∧ SameFace φ φ' := by
    have hi : g.i = g'.i := by
      rcases lt_trichotomy g.i g'.i with hlt | he | hlt
      · exfalso
        have a : 0 < ax φ := x1 (by rcases hl with h | h | h <;> simp only [fmap, latt, Prod.mk.injEq, Off.mk.injEq] at h <;> omega)
        have b : ax φ' < 0 := x0' (by rcases hl with h | h | h <;> simp only [fmap, latt, Prod.mk.injEq, Off.mk.injEq] at h <;> omega)
        omega
      · exact he
      · exfalso
        have a : ax φ < 0 := x0 (by rcases hl with h | h | h <;> simp only [fmap, latt, Prod.mk.injEq, Off.mk.injEq] at h <;> omega)
        have b : 0 < ax φ' := x1' (by rcases hl with h | h | h <;> simp only [fmap, latt, Prod.mk.injEq, Off.mk.injEq] at h <;> omega)
        omega
    have hj : g.j = g'.j := by
      rcases lt_trichotomy g.j g'.j with hlt | he | hlt
      · exfalso
        have a : 0 < ay φ := y1 (by rcases hl with h | h | h <;> simp only [fmap, latt, Prod.mk.injEq, Off.mk.injEq] at h <;> omega)
        have b : ay φ' < 0 := y0' (by rcases hl with h | h | h <;> simp only [fmap, latt, Prod.mk.injEq, Off.mk.injEq] at h <;> omega)
        omega
      · exact he
      · exfalso
        have a : ay φ < 0 := y0 (by rcases hl with h | h | h <;> simp only [fmap, latt, Prod.mk.injEq, Off.mk.injEq] at h <;> omega)
        have b : 0 < ay φ' := y1' (by rcases hl with h | h | h <;> simp only [fmap, latt, Prod.mk.injEq, Off.mk.injEq] at h <;> omega)
        omega
    have hk : g.k = g'.k := by
      rcases lt_trichotomy g.k g'.k with hlt | he | hlt
      · exfalso
        have a : 0 < az φ := z1 (by rcases hl with h | h | h <;> simp only [fmap, latt, Prod.mk.injEq, Off.mk.injEq] at h <;> omega)
        have b : az φ' < 0 := z0' (by rcases hl with h | h | h <;> simp only [fmap, latt, Prod.mk.injEq, Off.mk.injEq] at h <;> omega)
        omega
      · exact he
      · exfalso
        have a : az φ < 0 := z0 (by rcases hl with h | h | h <;> simp only [fmap, latt, Prod.mk.injEq, Off.mk.injEq] at h <;> omega)
        have b : 0 < az φ' := z1' (by rcases hl with h | h | h <;> simp only [fmap, latt, Prod.mk.injEq, Off.mk.injEq] at h <;> omega)
        omega
    have hgg : g = g' := by cases g; cases g'; simp_all
    subst hgg
    refine ⟨rfl, ?_⟩
    have li : ∀ {o o' : Off}, latt o g = latt o' g → o = o' := by
      intro o o' h
      unfold latt at h
      rw [Off.mk.injEq] at h
      cases o; cases o'
      simp only [Off.mk.injEq] at h ⊢
      omega
    obtain ⟨p1, p2, p3⟩ := φ
    obtain ⟨q1, q2, q3⟩ := φ'
    rcases hl with h | h | h <;> simp only [fmap, Prod.mk.injEq] at h <;> obtain ⟨h1, h2, h3⟩ := h
    · left; rw [li h1, li h2, li h3]
    · right; left; rw [li h1, li h2, li h3]
    · right; right; rw [li h1, li h2, li h3]
  obtain ⟨rfl, hs⟩ := key
  rw [face_table type τ hτ φ hφ τ' hτ' φ' hφ' hs]

/-- C56 is FALSE for `type='five'`: in the 3×2×2 grid the two cells cut their common square along different diagonals, so a face inside the
cube has no partner. -/
theorem C56_five_violated : ∃ t ∈ cubeT .five 3 2 2, ∃ f ∈ t.faces, ¬ OnCubeBoundary (cubeV 3 2 2) f ∧
    ∀ t' ∈ cubeT .five 3 2 2, ∀ f' ∈ t'.faces, ¬ SameFace f' (revFace f) := by
  refine ⟨⟨6, 8, 9, 2⟩, by decide +kernel, (8, 9, 2), by decide +kernel, ?_, by decide +kernel⟩
  rintro ⟨a, b, c, ha, hb, hc, h⟩
  have ga := cubeV_get (nx := 3) (ny := 2) (nz := 2) (k := 0) (i := 1) (j := 1) (by decide) (by decide) (by decide)
  have gb := cubeV_get (nx := 3) (ny := 2) (nz := 2) (k := 1) (i := 1) (j := 1) (by decide) (by decide) (by decide)
  have gc := cubeV_get (nx := 3) (ny := 2) (nz := 2) (k := 0) (i := 1) (j := 0) (by decide) (by decide) (by decide)
  have ea := Option.some.inj (ha.symm.trans ga)
  have eb := Option.some.inj (hb.symm.trans gb)
  have ec := Option.some.inj (hc.symm.trans gc)
  rw [ea, eb, ec] at h
  simp only [linspace] at h
  norm_num at h

end Gpy
