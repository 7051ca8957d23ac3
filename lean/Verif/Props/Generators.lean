import Verif.Proofs.GridMesh
import Mathlib.Algebra.Order.Floor.Ring
import Mathlib.Data.Real.Archimedean
import Mathlib.Tactic.Positivity

/-! Properties C31 and C33: `regular_square_mesh`, `cylinder`, `torus`, `cone`. -/

set_option autoImplicit false
namespace Gpy
open Np

/-! ## the vertex tables -/

theorem flatMap_range_getElem? {α : Type} (R C : ℕ) (g : ℕ → ℕ → α) : ∀ {r c : ℕ}, r < R → c < C →
    ((List.range R).flatMap (fun r => (List.range C).map (g r)))[r * C + c]? = some (g r c) := by
  induction R with
  | zero => intro r c h; omega
  | succ R ih =>
    intro r c hr hc
    rw [List.range_succ, List.flatMap_append]
    have hl : ((List.range R).flatMap (fun r => (List.range C).map (g r))).length = R * C := by simp [List.length_flatMap]
    by_cases h : r < R
    · rw [List.getElem?_append_left, ih h hc]
      rw [hl]
      calc r * C + c < r * C + C := by omega
        _ = (r + 1) * C := by ring
        _ ≤ R * C := Nat.mul_le_mul_right _ h
    · have : r = R := by omega
      subst this
      rw [List.getElem?_append_right (by omega), hl, Nat.add_sub_cancel_left]
      simp [hc]

/-! ## C31 -/

theorem axisOpen {n : ℕ} (h : 2 ≤ n) : AxisOk n (n - 1) := Or.inl ⟨by omega, h⟩
theorem axisClosed {n : ℕ} (h : 3 ≤ n) : AxisOk n n := Or.inr ⟨rfl, h⟩

theorem gix_open {R C r c : ℕ} (h1 : r < R) (h2 : c < C) : gix R C r c = r * C + c := by
  unfold gix wr; rw [if_neg (by omega), if_neg (by omega)]

/-- width of a cell -/
noncomputable def cell (n : ℕ) : ℝ := 2 / ((n : ℝ) - 1)

theorem cell_pos {n : ℕ} (h : 2 ≤ n) : 0 < cell n := by
  unfold cell
  have : (2 : ℝ) ≤ n := by exact_mod_cast h
  apply div_pos <;> linarith

theorem linspace_cell (n i : ℕ) : linspace (-1) 1 n i = -1 + i * cell n := by unfold linspace cell; norm_num

theorem squareMeshV_get {nx ny r c : ℕ} (hr : r < ny) (hc : c < nx) :
    (squareMeshV nx ny)[gix ny nx r c]? = some (-1 + c * cell nx, -1 + r * cell ny) := by
  rw [gix_open hr hc]
  unfold squareMeshV
  rw [flatMap_range_getElem? ny nx (fun r c => (linspace (-1) 1 nx c, linspace (-1) 1 ny r)) hr hc, linspace_cell, linspace_cell]

/-- C31, combinatorics: for every grid size, `regular_square_mesh(nx,ny)` has `nx*ny` vertices and `2(nx-1)(ny-1)` triangles, all indices are in
range, and the triangles form a consistently oriented edge-manifold mesh. -/
theorem C31_square_mesh_combinatorics (nx ny : ℕ) (hx : 2 ≤ nx) (hy : 2 ≤ ny) :
    (squareMeshV nx ny).length = nx * ny ∧
    (squareMeshF nx ny).length = 2 * ((nx - 1) * (ny - 1)) ∧
    TriInRange (nx * ny) (squareMeshF nx ny) ∧
    OrientedManifold (squareMeshF nx ny) := by
  rw [squareMeshF_eq (by omega) (by omega)]
  refine ⟨?_, ?_, ?_, gF_manifold (axisOpen hy) (axisOpen hx)⟩
  · unfold squareMeshV; simp [List.length_flatMap, mul_comm]
  · rw [gF_length, Nat.mul_comm (ny - 1)]
  · intro t ht; rw [Nat.mul_comm]; exact gF_inRange (axisOpen hy) (axisOpen hx) t ht

/-- corners of the two triangles of a quad -/
theorem squareMesh_tri {nx ny : ℕ} (hx : 2 ≤ nx) (hy : 2 ≤ ny) {t : Tri} (ht : t ∈ squareMeshF nx ny) :
    ∃ r c : ℕ, r < ny - 1 ∧ c < nx - 1 ∧ (
      (t = qt1 (gix ny nx) (r, c) ∧
        (squareMeshV nx ny)[t.a]? = some (-1 + c * cell nx, -1 + r * cell ny) ∧
        (squareMeshV nx ny)[t.b]? = some (-1 + (c + 1) * cell nx, -1 + (r + 1) * cell ny) ∧
        (squareMeshV nx ny)[t.c]? = some (-1 + c * cell nx, -1 + (r + 1) * cell ny)) ∨
      (t = qt2 (gix ny nx) (r, c) ∧
        (squareMeshV nx ny)[t.a]? = some (-1 + c * cell nx, -1 + r * cell ny) ∧
        (squareMeshV nx ny)[t.b]? = some (-1 + (c + 1) * cell nx, -1 + r * cell ny) ∧
        (squareMeshV nx ny)[t.c]? = some (-1 + (c + 1) * cell nx, -1 + (r + 1) * cell ny))) := by
  rw [squareMeshF_eq (by omega) (by omega)] at ht
  unfold gF at ht
  rw [List.mem_append, List.mem_map, List.mem_map] at ht
  rcases ht with ⟨⟨r, c⟩, hq, rfl⟩ | ⟨⟨r, c⟩, hq, rfl⟩ <;> rw [mem_quads] at hq <;> obtain ⟨h1, h2⟩ := hq <;> simp only at h1 h2 <;>
    refine ⟨r, c, h1, h2, ?_⟩
  · left
    refine ⟨rfl, ?_, ?_, ?_⟩ <;> simp only [qt1] <;> rw [squareMeshV_get (by omega) (by omega)] <;> push_cast <;> rfl
  · right
    refine ⟨rfl, ?_, ?_, ?_⟩ <;> simp only [qt2] <;> rw [squareMeshV_get (by omega) (by omega)] <;> push_cast <;> rfl

/-- C31, geometry: every triangle is counterclockwise and has the area of half a cell. -/
theorem C31_square_mesh_areas (nx ny : ℕ) (hx : 2 ≤ nx) (hy : 2 ≤ ny) : ∀ t ∈ squareMeshF nx ny, ∃ a b c : ℝ × ℝ,
    (squareMeshV nx ny)[t.a]? = some a ∧ (squareMeshV nx ny)[t.b]? = some b ∧ (squareMeshV nx ny)[t.c]? = some c ∧
    signedArea a b c = 2 / (((nx : ℝ) - 1) * ((ny : ℝ) - 1)) ∧ 0 < signedArea a b c := by
  intro t ht
  have px := cell_pos hx
  have py := cell_pos hy
  have e : cell nx * cell ny / 2 = 2 / (((nx : ℝ) - 1) * ((ny : ℝ) - 1)) := by
    unfold cell
    rw [div_mul_div_comm]; ring
  obtain ⟨r, c, _, _, h | h⟩ := squareMesh_tri hx hy ht
  · refine ⟨_, _, _, h.2.1, h.2.2.1, h.2.2.2, ?_⟩
    have : signedArea (-1 + c * cell nx, -1 + r * cell ny) (-1 + (c + 1) * cell nx, -1 + (r + 1) * cell ny) (-1 + c * cell nx, -1 + (r + 1) * cell ny)
        = cell nx * cell ny / 2 := by unfold signedArea; ring
    rw [this]
    exact ⟨e, by positivity⟩
  · refine ⟨_, _, _, h.2.1, h.2.2.1, h.2.2.2, ?_⟩
    have : signedArea (-1 + c * cell nx, -1 + r * cell ny) (-1 + (c + 1) * cell nx, -1 + r * cell ny) (-1 + (c + 1) * cell nx, -1 + (r + 1) * cell ny)
        = cell nx * cell ny / 2 := by unfold signedArea; ring
    rw [this]
    exact ⟨e, by positivity⟩

theorem cell_mul {n : ℕ} (h : 2 ≤ n) : ((n : ℝ) - 1) * cell n = 2 := by
  unfold cell
  have : (2 : ℝ) ≤ n := by exact_mod_cast h
  field_simp [show (n : ℝ) - 1 ≠ 0 by linarith]

/-- the cell of a coordinate -/
theorem find_cell {n : ℕ} (h : 2 ≤ n) {x : ℝ} (h1 : -1 ≤ x) (h2 : x ≤ 1) : ∃ i : ℕ, i < n - 1 ∧ ∃ s : ℝ, 0 ≤ s ∧ s ≤ 1 ∧ x = -1 + (i + s) * cell n := by
  have pc := cell_pos h
  set u := (x + 1) / cell n with hu
  have hu0 : 0 ≤ u := div_nonneg (by linarith) pc.le
  have hxu : x = -1 + u * cell n := by rw [hu]; field_simp; ring
  have hun : u ≤ (n : ℝ) - 1 := by rw [hu, div_le_iff₀ pc, cell_mul h]; linarith
  have hn1 : ((n - 1 : ℕ) : ℝ) = (n : ℝ) - 1 := by push_cast [show 1 ≤ n by omega]; ring
  by_cases hlt : ⌊u⌋₊ < n - 1
  · exact ⟨⌊u⌋₊, hlt, u - ⌊u⌋₊, sub_nonneg.mpr (Nat.floor_le hu0), by have := Nat.lt_floor_add_one u; linarith, by rw [hxu]; ring⟩
  · have : ((n - 1 : ℕ) : ℝ) ≤ u := by
      calc ((n - 1 : ℕ) : ℝ) ≤ (⌊u⌋₊ : ℝ) := by exact_mod_cast Nat.le_of_not_lt hlt
        _ ≤ u := Nat.floor_le hu0
    have hue : u = (n : ℝ) - 1 := le_antisymm hun (by rw [← hn1]; exact this)
    refine ⟨n - 2, by omega, 1, by norm_num, le_refl _, ?_⟩
    have : ((n - 2 : ℕ) : ℝ) + 1 = (n : ℝ) - 1 := by
      rw [← hn1]; norm_cast; omega
    rw [this, ← hue]; exact hxu

/-- C31, geometry: the triangles cover the square `[-1,1]²` ... -/
theorem C31_square_mesh_covers (nx ny : ℕ) (hx : 2 ≤ nx) (hy : 2 ≤ ny) (p : ℝ × ℝ) (h1 : -1 ≤ p.1 ∧ p.1 ≤ 1) (h2 : -1 ≤ p.2 ∧ p.2 ≤ 1) :
    ∃ t ∈ squareMeshF nx ny, ∃ a b c : ℝ × ℝ,
      (squareMeshV nx ny)[t.a]? = some a ∧ (squareMeshV nx ny)[t.b]? = some b ∧ (squareMeshV nx ny)[t.c]? = some c ∧ InTri2 p a b c := by
  obtain ⟨c, hc, s, s0, s1, hs⟩ := find_cell hx h1.1 h1.2
  obtain ⟨r, hr, q, q0, q1, hq⟩ := find_cell hy h2.1 h2.2
  have g1 := squareMeshV_get (nx := nx) (ny := ny) (r := r) (c := c) (by omega) (by omega)
  have g2 := squareMeshV_get (nx := nx) (ny := ny) (r := r) (c := c + 1) (by omega) (by omega)
  have g3 := squareMeshV_get (nx := nx) (ny := ny) (r := r + 1) (c := c) (by omega) (by omega)
  have g4 := squareMeshV_get (nx := nx) (ny := ny) (r := r + 1) (c := c + 1) (by omega) (by omega)
  rw [squareMeshF_eq (by omega) (by omega)]
  have hm : (r, c) ∈ quads (ny - 1) (nx - 1) := mem_quads.mpr ⟨hr, hc⟩
  rcases le_total s q with h | h
  · refine ⟨qt1 (gix ny nx) (r, c), List.mem_append_left _ (List.mem_map_of_mem hm), _, _, _, g1, g4, g3, 1 - q, s, q - s, by linarith, s0,
      by linarith, by ring, ?_, ?_⟩ <;> simp only [hs, hq] <;> push_cast <;> ring
  · refine ⟨qt2 (gix ny nx) (r, c), List.mem_append_right _ (List.mem_map_of_mem hm), _, _, _, g1, g2, g4, 1 - s, s - q, q, by linarith,
      by linarith, q0, by ring, ?_, ?_⟩ <;> simp only [hs, hq] <;> push_cast <;> ring

theorem cell_unique {i j : ℕ} {s q : ℝ} (h1 : 0 < s) (h2 : s < 1) (h3 : 0 < q) (h4 : q < 1) (h : (i : ℝ) + s = j + q) : i = j ∧ s = q := by
  have a : (i : ℝ) < j + 1 := by linarith
  have b : (j : ℝ) < i + 1 := by linarith
  have a' : i < j + 1 := by exact_mod_cast a
  have b' : j < i + 1 := by exact_mod_cast b
  have : i = j := by omega
  subst this
  exact ⟨rfl, by linarith⟩

/-- ... and their interiors do not overlap. -/
theorem C31_square_mesh_no_overlap (nx ny : ℕ) (hx : 2 ≤ nx) (hy : 2 ≤ ny) (p : ℝ × ℝ) (t t' : Tri) (ht : t ∈ squareMeshF nx ny)
    (ht' : t' ∈ squareMeshF nx ny) (a b c a' b' c' : ℝ × ℝ)
    (ha : (squareMeshV nx ny)[t.a]? = some a) (hb : (squareMeshV nx ny)[t.b]? = some b) (hc : (squareMeshV nx ny)[t.c]? = some c)
    (ha' : (squareMeshV nx ny)[t'.a]? = some a') (hb' : (squareMeshV nx ny)[t'.b]? = some b') (hc' : (squareMeshV nx ny)[t'.c]? = some c')
    (hi : InsideTri2 p a b c) (hi' : InsideTri2 p a' b' c') : t = t' := by
  have px := cell_pos hx
  have py := cell_pos hy
  have norm : ∀ {t : Tri} {a b c : ℝ × ℝ}, t ∈ squareMeshF nx ny → (squareMeshV nx ny)[t.a]? = some a → (squareMeshV nx ny)[t.b]? = some b →
      (squareMeshV nx ny)[t.c]? = some c → InsideTri2 p a b c → ∃ (r k : ℕ) (s q : ℝ), 0 < s ∧ s < 1 ∧ 0 < q ∧ q < 1 ∧
        (p.1 + 1) / cell nx = k + s ∧ (p.2 + 1) / cell ny = r + q ∧
        ((t = qt1 (gix ny nx) (r, k) ∧ s < q) ∨ (t = qt2 (gix ny nx) (r, k) ∧ q < s)) := by
    rintro t a b c ht ha hb hc ⟨u, v, w, hu, hv, hw, hs, e1, e2⟩
    obtain ⟨r, k, _, _, h | h⟩ := squareMesh_tri hx hy ht
    · obtain ⟨ht, ka, kb, kc⟩ := h
      rw [ha] at ka; rw [hb] at kb; rw [hc] at kc
      obtain rfl := Option.some.inj ka; obtain rfl := Option.some.inj kb; obtain rfl := Option.some.inj kc
      refine ⟨r, k, v, v + w, hv, by linarith, by linarith, by linarith, ?_, ?_, Or.inl ⟨ht, by linarith⟩⟩
      · rw [div_eq_iff px.ne', e1]; simp only
        linear_combination (-1 + k * cell nx) * hs
      · rw [div_eq_iff py.ne', e2]; simp only
        linear_combination (-1 + r * cell ny) * hs
    · obtain ⟨ht, ka, kb, kc⟩ := h
      rw [ha] at ka; rw [hb] at kb; rw [hc] at kc
      obtain rfl := Option.some.inj ka; obtain rfl := Option.some.inj kb; obtain rfl := Option.some.inj kc
      refine ⟨r, k, v + w, w, by linarith, by linarith, by linarith, by linarith, ?_, ?_, Or.inr ⟨ht, by linarith⟩⟩
      · rw [div_eq_iff px.ne', e1]; simp only
        linear_combination (-1 + k * cell nx) * hs
      · rw [div_eq_iff py.ne', e2]; simp only
        linear_combination (-1 + r * cell ny) * hs
  obtain ⟨r, k, s, q, s0, s1, q0, q1, e1, e2, h⟩ := norm ht ha hb hc hi
  obtain ⟨r', k', s', q', s0', s1', q0', q1', e1', e2', h'⟩ := norm ht' ha' hb' hc' hi'
  obtain ⟨rfl, rfl⟩ := cell_unique s0 s1 s0' s1' (e1.symm.trans e1')
  obtain ⟨rfl, rfl⟩ := cell_unique q0 q1 q0' q1' (e2.symm.trans e2')
  rcases h with ⟨h, hl⟩ | ⟨h, hl⟩ <;> rcases h' with ⟨h', hl'⟩ | ⟨h', hl'⟩
  · rw [h, h']
  · exact absurd hl (by linarith)
  · exact absurd hl (by linarith)
  · rw [h, h']

example : squareMeshF 3 2 = [⟨0, 4, 3⟩, ⟨1, 5, 4⟩, ⟨0, 1, 4⟩, ⟨1, 2, 5⟩] := by decide +kernel

example : OrientedManifold (squareMeshF 4 3) := by decide +kernel

/-- The perimeter of the grid, counterclockwise. -/
def squareRim (nx ny : ℕ) : List Edge :=
  (List.range (nx - 1)).map (fun c => ⟨c, c + 1⟩) ++
  (List.range (nx - 1)).map (fun c => ⟨(ny - 1) * nx + (c + 1), (ny - 1) * nx + c⟩) ++
  (List.range (ny - 1)).map (fun r => ⟨(r + 1) * nx, r * nx⟩) ++
  (List.range (ny - 1)).map (fun r => ⟨r * nx + (nx - 1), (r + 1) * nx + (nx - 1)⟩)

theorem square_rim_iff {nx ny : ℕ} (hx : 2 ≤ nx) (hy : 2 ≤ ny) (e : Edge) : e ∈ squareRim nx ny ↔ Rim ny nx (ny - 1) (nx - 1) e := by
  unfold squareRim
  simp only [List.mem_append, List.mem_map, List.mem_range]
  constructor
  · rintro (((⟨c, hc, rfl⟩ | ⟨c, hc, rfl⟩) | ⟨r, hr, rfl⟩) | ⟨r, hr, rfl⟩)
    · have := Rim.bottom (R := ny) (C := nx) (m := ny - 1) (n := nx - 1) (by omega) hc
      rw [gix_open (by omega) (by omega), gix_open (by omega) (by omega)] at this
      simpa using this
    · have := Rim.top (R := ny) (C := nx) (m := ny - 1) (n := nx - 1) (by omega) hc
      rwa [gix_open (by omega) (by omega), gix_open (by omega) (by omega)] at this
    · have := Rim.left (R := ny) (C := nx) (m := ny - 1) (n := nx - 1) (by omega) hr
      rwa [gix_open (by omega) (by omega), gix_open (by omega) (by omega)] at this
    · have := Rim.right (R := ny) (C := nx) (m := ny - 1) (n := nx - 1) (by omega) hr
      rwa [gix_open (by omega) (by omega), gix_open (by omega) (by omega)] at this
  · intro h
    cases h with
    | @bottom c _ hc => exact Or.inl (Or.inl (Or.inl ⟨c, hc, by rw [gix_open (by omega) (by omega), gix_open (by omega) (by omega)]; simp⟩))
    | @top c _ hc => exact Or.inl (Or.inl (Or.inr ⟨c, hc, by rw [gix_open (by omega) (by omega), gix_open (by omega) (by omega)]⟩))
    | @left r _ hr => exact Or.inl (Or.inr ⟨r, hr, by rw [gix_open (by omega) (by omega), gix_open (by omega) (by omega)]; simp⟩)
    | @right r _ hr => exact Or.inr ⟨r, hr, by rw [gix_open (by omega) (by omega), gix_open (by omega) (by omega)]⟩

theorem squareRim_nodup {nx ny : ℕ} (hx : 2 ≤ nx) (hy : 2 ≤ ny) : (squareRim nx ny).Nodup := by
  have mono : ∀ {a b : ℕ}, a * nx = b * nx → a = b := fun h => Nat.eq_of_mul_eq_mul_right (by omega) h
  unfold squareRim
  rw [List.nodup_append, List.nodup_append, List.nodup_append]
  refine ⟨⟨⟨List.nodup_range.map_on ?_, List.nodup_range.map_on ?_, ?_⟩, List.nodup_range.map_on ?_, ?_⟩, List.nodup_range.map_on ?_, ?_⟩
  · intro a _ b _ h; simpa using congrArg Edge.s h
  · intro a _ b _ h; simpa using congrArg Edge.t h
  · rintro e he e' he' rfl
    simp only [List.mem_map, List.mem_range] at he he'
    obtain ⟨a, ha, rfl⟩ := he
    obtain ⟨b, hb, h⟩ := he'
    rw [Edge.mk.injEq] at h
    omega
  · intro a _ b _ h; exact mono (by simpa using congrArg Edge.t h)
  · rintro e he e' he' rfl
    simp only [List.mem_append, List.mem_map, List.mem_range] at he he'
    obtain ⟨b, hb, rfl⟩ := he'
    have hs : (b + 1) * nx = b * nx + nx := by ring
    rcases he with ⟨a, ha, h⟩ | ⟨a, ha, h⟩ <;> rw [Edge.mk.injEq] at h <;> omega
  · intro a _ b _ h; rw [Edge.mk.injEq] at h; exact mono (by omega)
  · rintro e he e' he' rfl
    simp only [List.mem_append, List.mem_map, List.mem_range] at he he'
    obtain ⟨b, hb, rfl⟩ := he'
    have hs : (b + 1) * nx = b * nx + nx := by ring
    rcases he with (⟨a, ha, h⟩ | ⟨a, ha, h⟩) | ⟨a, ha, h⟩ <;> rw [Edge.mk.injEq] at h
    · omega
    · omega
    · have hs : (a + 1) * nx = a * nx + nx := by ring
      omega

theorem gF_ne_nil {R C m n : ℕ} (hR : AxisOk R m) (hC : AxisOk C n) : gF R C m n ≠ [] := by
  intro h
  have := congrArg List.length h
  rw [gF_length, List.length_nil] at this
  have hm : 1 ≤ m := by unfold AxisOk at hR; omega
  have hn : 1 ≤ n := by unfold AxisOk at hC; omega
  have := Nat.mul_pos hm hn
  omega

/-- `V - E + F` -/
def eulerChar (nV : ℕ) (F : List Tri) : ℤ := (nV : ℤ) - numEdges F + F.length

/-- C31, topology: the boundary sides are exactly the perimeter of the grid, and `V - E + F = 1` (a disk). -/
theorem C31_square_mesh_disk (nx ny : ℕ) (hx : 2 ≤ nx) (hy : 2 ≤ ny) :
    (∀ e, IsBoundarySide (squareMeshF nx ny) e ↔ e ∈ squareRim nx ny) ∧ eulerChar (nx * ny) (squareMeshF nx ny) = 1 := by
  rw [squareMeshF_eq (by omega) (by omega)]
  refine ⟨fun e => (gF_boundary (axisOpen hy) (axisOpen hx)).trans (square_rim_iff hx hy e).symm, ?_⟩
  have h := numEdges_of_boundary (gF_ne_nil (axisOpen hy) (axisOpen hx)) (gF_manifold (axisOpen hy) (axisOpen hx)) (squareRim_nodup hx hy)
      (fun e => (square_rim_iff hx hy e).trans (gF_boundary (axisOpen hy) (axisOpen hx)).symm)
  have hl : (squareRim nx ny).length = 2 * (nx - 1) + 2 * (ny - 1) := by unfold squareRim; simp; omega
  rw [gF_length, hl] at h
  unfold eulerChar
  rw [gF_length]
  obtain ⟨a, rfl⟩ : ∃ k, nx = k + 1 := ⟨nx - 1, by omega⟩
  obtain ⟨b, rfl⟩ : ∃ k, ny = k + 1 := ⟨ny - 1, by omega⟩
  simp only [Nat.add_sub_cancel] at h ⊢
  push_cast
  have h' : (2 : ℤ) * numEdges (gF (b + 1) (a + 1) b a) = 3 * (2 * (b * a)) + (2 * a + 2 * b) := by exact_mod_cast h
  linarith

/-! ## C33 -/

theorem wr_eq_mod {C c : ℕ} (h : c < C) : wr C (c + 1) = (c + 1) % C := by
  unfold wr
  split
  · next e => rw [e, Nat.mod_self]
  · rw [Nat.mod_eq_of_lt (by omega)]

/-- The rims of a cylinder with `nx` vertices around and `nz` rings: the bottom ring in increasing, the top ring in decreasing direction. -/
def cylinderRims (nx nz : ℕ) : List Edge :=
  (List.range nx).map (fun c => ⟨c, (c + 1) % nx⟩) ++ (List.range nx).map (fun c => ⟨(nz - 1) * nx + (c + 1) % nx, (nz - 1) * nx + c⟩)

theorem cylinder_gix {nx nz r c : ℕ} (hr : r < nz) (hc : c < nx) : gix nz nx r c = r * nx + c := gix_open hr hc

theorem cylinder_gix' {nx nz r c : ℕ} (hr : r < nz) (hc : c < nx) : gix nz nx r (c + 1) = r * nx + (c + 1) % nx := by
  unfold gix; rw [wr_eq_mod hc, show wr nz r = r from if_neg (by omega)]

theorem cylinder_rim_iff {nx nz : ℕ} (hx : 3 ≤ nx) (hz : 2 ≤ nz) (e : Edge) : e ∈ cylinderRims nx nz ↔ Rim nz nx (nz - 1) nx e := by
  unfold cylinderRims
  rw [List.mem_append, List.mem_map, List.mem_map]
  constructor
  · rintro (⟨c, hc, rfl⟩ | ⟨c, hc, rfl⟩) <;> rw [List.mem_range] at hc
    · have := Rim.bottom (R := nz) (C := nx) (m := nz - 1) (n := nx) (by omega) hc
      rw [cylinder_gix (by omega) hc, cylinder_gix' (by omega) hc] at this
      simpa using this
    · have := Rim.top (R := nz) (C := nx) (m := nz - 1) (n := nx) (by omega) hc
      rwa [cylinder_gix (by omega) hc, cylinder_gix' (by omega) hc] at this
  · intro h
    cases h with
    | @bottom c _ hc => left; exact ⟨c, List.mem_range.mpr hc, by rw [cylinder_gix (by omega) hc, cylinder_gix' (by omega) hc]; simp⟩
    | @top c _ hc => right; exact ⟨c, List.mem_range.mpr hc, by rw [cylinder_gix (by omega) hc, cylinder_gix' (by omega) hc]⟩
    | left h => exact absurd rfl h
    | right h => exact absurd rfl h

theorem cylinderRims_nodup {nx nz : ℕ} (hx : 3 ≤ nx) (hz : 2 ≤ nz) : (cylinderRims nx nz).Nodup := by
  unfold cylinderRims
  rw [List.nodup_append]
  refine ⟨List.nodup_range.map_on ?_, List.nodup_range.map_on ?_, ?_⟩
  · intro a _ b _ h; simpa using congrArg Edge.s h
  · intro a _ b _ h; simpa using congrArg Edge.t h
  · rintro e he e' he' rfl
    rw [List.mem_map] at he he'
    obtain ⟨a, ha, rfl⟩ := he
    obtain ⟨b, hb, h⟩ := he'
    rw [List.mem_range] at ha hb
    have := congrArg Edge.s h
    simp only at this
    have : nx ≤ (nz - 1) * nx := Nat.le_mul_of_pos_left _ (by omega)
    omega

/-- C33, cylinder: all sizes that pass the asserts are accepted; indices are in range, the mesh is a consistently oriented edge-manifold, its
boundary sides are exactly the two rims, and `V - E + F = 0`. -/
theorem C33_cylinder (nx nz : ℕ) (hx : 3 ≤ nx) (hz : 2 ≤ nz) : ∃ F, cylinderF nx nz = some F ∧
    (cylinderV nx nz).length = nx * nz ∧
    TriInRange (nx * nz) F ∧ OrientedManifold F ∧
    (∀ e, IsBoundarySide F e ↔ e ∈ cylinderRims nx nz) ∧
    eulerChar (nx * nz) F = 0 := by
  refine ⟨gF nz nx (nz - 1) nx, ?_, ?_, ?_, gF_manifold (axisOpen hz) (axisClosed hx), ?_, ?_⟩
  · unfold cylinderF
    rw [if_pos ⟨hx, hz⟩, cylinder_eq (by omega) (by omega)]
  · unfold cylinderV; simp [List.length_flatMap, mul_comm]
  · intro t ht; rw [Nat.mul_comm]; exact gF_inRange (axisOpen hz) (axisClosed hx) t ht
  · intro e
    rw [cylinder_rim_iff hx hz]
    exact gF_boundary (axisOpen hz) (axisClosed hx)
  · have h := numEdges_of_boundary (gF_ne_nil (axisOpen hz) (axisClosed hx)) (gF_manifold (axisOpen hz) (axisClosed hx)) (cylinderRims_nodup hx hz)
      (fun e => (cylinder_rim_iff hx hz e).trans (gF_boundary (axisOpen hz) (axisClosed hx)).symm)
    have hl : (cylinderRims nx nz).length = 2 * nx := by unfold cylinderRims; simp; omega
    rw [gF_length, hl] at h
    unfold eulerChar
    rw [gF_length]
    obtain ⟨k, rfl⟩ : ∃ k, nz = k + 1 := ⟨nz - 1, by omega⟩
    rw [Nat.add_sub_cancel] at h ⊢
    push_cast
    have h' : (2 : ℤ) * numEdges (gF (k + 1) nx k nx) = 3 * (2 * (k * nx)) + 2 * nx := by exact_mod_cast h
    linarith

/-- C33, torus: all sizes that pass the asserts are accepted; indices are in range, the mesh is a consistently oriented edge-manifold without
boundary (every side is traversed in the other direction by some triangle), and `V - E + F = 0`. -/
theorem C33_torus (nR nr : ℕ) (hR : 3 ≤ nR) (hr : 3 ≤ nr) (R r : ℝ) : ∃ F, torusF nR nr = some F ∧
    (torusV nR nr R r).length = nR * nr ∧
    TriInRange (nR * nr) F ∧ OrientedManifold F ∧
    (∀ e ∈ sides F, e.flip ∈ sides F) ∧
    eulerChar (nR * nr) F = 0 := by
  have hb : ∀ e, ¬ Rim nr nR nr nR e := by
    intro e h
    cases h with
    | bottom h => exact absurd rfl h
    | top h => exact absurd rfl h
    | left h => exact absurd rfl h
    | right h => exact absurd rfl h
  refine ⟨gF nr nR nr nR, ?_, ?_, ?_, gF_manifold (axisClosed hr) (axisClosed hR), ?_, ?_⟩
  · unfold torusF
    rw [if_pos ⟨hR, hr⟩, torus_eq (by omega) (by omega)]
  · unfold torusV; simp [List.length_flatMap, mul_comm]
  · intro t ht; rw [Nat.mul_comm]; exact gF_inRange (axisClosed hr) (axisClosed hR) t ht
  · intro e he
    by_contra hf
    exact hb e (rim_of_side (axisClosed hr) (axisClosed hR) he hf)
  · have h := numEdges_of_boundary (B := []) (gF_ne_nil (axisClosed hr) (axisClosed hR)) (gF_manifold (axisClosed hr) (axisClosed hR)) (by simp)
      (fun e => by
        rw [show (e ∈ ([] : List Edge)) = False by simp, false_iff]
        exact fun h => hb e ((gF_boundary (axisClosed hr) (axisClosed hR)).mp h))
    rw [gF_length, List.length_nil] at h
    unfold eulerChar
    rw [gF_length]
    push_cast
    have h' : (2 : ℤ) * numEdges (gF nr nR nr nR) = 3 * (2 * (nr * nR)) + 0 := by exact_mod_cast h
    linarith

/-- C33, rejected sizes -/
theorem C33_small_rejected (n m : ℕ) : (n < 3 → cylinderF n m = none) ∧ (m < 2 → cylinderF n m = none) ∧
    (n < 3 → torusF n m = none) ∧ (m < 3 → torusF n m = none) ∧ (n < 3 → coneF n m = none) ∧ (m < 2 → coneF n m = none) := by
  unfold cylinderF torusF coneF
  refine ⟨?_, ?_, ?_, ?_, ?_, ?_⟩ <;> intro h <;> rw [if_neg (by omega)]

example : cylinderF 3 2 = some [⟨0, 4, 3⟩, ⟨1, 5, 4⟩, ⟨2, 3, 5⟩, ⟨0, 1, 4⟩, ⟨1, 2, 5⟩, ⟨2, 0, 3⟩] := by decide +kernel

/-! ### cone -/

/-- the fan around the tip -/
def fan (nx m k : ℕ) : Tri := ⟨gix m nx (m - 1) k, gix m nx (m - 1) (k + 1), nx * m⟩

theorem zipWith_map_range {α : Type} (n : ℕ) (f g : ℕ → ℕ) (h : ℕ → ℕ → α) :
    ((List.range n).map f).zipWith h ((List.range n).map g) = (List.range n).map (fun k => h (f k) (g k)) := by
  rw [List.zipWith_map]
  induction n with
  | zero => rfl
  | succ n ih => rw [List.range_succ, List.zipWith_append (by rfl), ih]; simp

theorem coneF_eq {nx nz : ℕ} (hx : 3 ≤ nx) (hz : 2 ≤ nz) : coneF nx nz =
    some (gF (nz - 1) nx (nz - 1 - 1) nx ++ (List.range nx).map (fan nx (nz - 1))) := by
  unfold coneF
  rw [if_pos ⟨hx, hz⟩]
  simp only
  rw [cylinder_eq (by omega) (by omega)]
  congr 2
  set m := nz - 1 with hm
  have : ((List.range (nx - 1)).map (fun k => nx * (m - 1) + 1 + k) ++ [nx * (m - 1)]) = (List.range nx).map (fun k => nx * (m - 1) + wr nx (k + 1)) := by
    obtain ⟨j, rfl⟩ : ∃ j, nx = j + 1 := ⟨nx - 1, by omega⟩
    rw [Nat.add_sub_cancel, List.range_succ, List.map_append]
    congr 1
    · refine List.map_congr_left (fun k hk => ?_)
      have := List.mem_range.mp hk
      rw [show wr (j + 1) (k + 1) = k + 1 from if_neg (by omega)]; omega
    · simp [wr]
  rw [this, zipWith_map_range]
  refine List.map_congr_left (fun k hk => ?_)
  have hk := List.mem_range.mp hk
  unfold fan gix
  rw [show wr m (m - 1) = m - 1 from if_neg (by omega), show wr nx k = k from if_neg (by omega), Nat.mul_comm]

theorem mem_sides_fan {nx m : ℕ} {e : Edge} : e ∈ sides ((List.range nx).map (fan nx m)) ↔ ∃ k < nx,
    e = ⟨gix m nx (m - 1) (k + 1), nx * m⟩ ∨ e = ⟨nx * m, gix m nx (m - 1) k⟩ ∨ e = ⟨gix m nx (m - 1) k, gix m nx (m - 1) (k + 1)⟩ := by
  unfold sides
  rw [List.flatMap_map, List.mem_flatMap]
  constructor
  · rintro ⟨k, hk, h⟩
    refine ⟨k, List.mem_range.mp hk, ?_⟩
    simpa [fan, Tri.side] using h
  · rintro ⟨k, hk, h⟩
    exact ⟨k, List.mem_range.mpr hk, by simpa [fan, Tri.side] using h⟩

theorem ring_lt {nx m k : ℕ} (hx : 3 ≤ nx) (hm : 1 ≤ m) (hk : k ≤ nx) : gix m nx (m - 1) k < nx * m := by
  have := (axisClosed hx).wr_lt hk
  unfold gix
  rw [show wr m (m - 1) = m - 1 from if_neg (by omega)]
  obtain ⟨j, rfl⟩ : ∃ j, m = j + 1 := ⟨m - 1, by omega⟩
  rw [Nat.add_sub_cancel, Nat.mul_succ, Nat.mul_comm]; omega

theorem ring_inj {nx m k k' : ℕ} (hx : 3 ≤ nx) (hm : 1 ≤ m) (h : gix m nx (m - 1) k = gix m nx (m - 1) k') : wr nx k = wr nx k' := by
  unfold gix at h; omega

theorem wr_inj_lt {R k k' : ℕ} (h1 : k < R) (h2 : k' < R) (h : wr R k = wr R k') : k = k' := by
  unfold wr at h; split_ifs at h <;> omega

theorem wr_inj_succ {R k k' : ℕ} (h1 : k < R) (h2 : k' < R) (h : wr R (k + 1) = wr R (k' + 1)) : k = k' := by
  unfold wr at h; split_ifs at h <;> omega

theorem fan_nodup {nx m : ℕ} (hx : 3 ≤ nx) (hm : 1 ≤ m) : (sides ((List.range nx).map (fan nx m))).Nodup := by
  unfold sides
  rw [List.flatMap_map, List.nodup_flatMap]
  constructor
  · intro k hk
    have hk := List.mem_range.mp hk
    have h1 := ring_lt hx hm (k := k) (by omega)
    have h2 := ring_lt hx hm (k := k + 1) (by omega)
    simp [fan, Tri.side]; omega
  · refine List.nodup_range.imp_of_mem ?_
    intro k k' hk hk' hne e he he'
    have hk := List.mem_range.mp hk
    have hk' := List.mem_range.mp hk'
    have h1 := ring_lt hx hm (k := k) (by omega)
    have h2 := ring_lt hx hm (k := k + 1) (by omega)
    have h3 := ring_lt hx hm (k := k') (by omega)
    have h4 := ring_lt hx hm (k := k' + 1) (by omega)
    simp only [fan, Tri.side, List.mem_cons, List.not_mem_nil, or_false] at he he'
    rcases he with rfl | rfl | rfl <;> rcases he' with h | h | h <;> rw [Edge.mk.injEq] at h
    · exact hne (wr_inj_succ hk hk' (ring_inj hx hm h.1))
    · omega
    · omega
    · omega
    · exact hne (wr_inj_lt hk hk' (ring_inj hx hm h.2))
    · omega
    · omega
    · omega
    · exact hne (wr_inj_lt hk hk' (ring_inj hx hm h.1))

/-- sides of the lateral surface of a cone -/
theorem gF_side_lt {R C m n : ℕ} (hR : AxisOk R m) (hC : AxisOk C n) {e : Edge} (h : e ∈ sides (gF R C m n)) : e.s < R * C ∧ e.t < R * C := by
  obtain ⟨q, ⟨h1, h2⟩, k, rfl⟩ := mem_sides_gF.mp h
  obtain ⟨o1, o2, o3, o4⟩ := off6_le k
  exact ⟨gix_lt hR hC (by omega) (by omega), gix_lt hR hC (by omega) (by omega)⟩

/-- The rim of a cone: the bottom ring in increasing direction. -/
def coneRim (nx : ℕ) : List Edge := (List.range nx).map (fun c => ⟨c, (c + 1) % nx⟩)

theorem gF_zero (R C n : ℕ) : gF R C 0 n = [] := rfl

/-- C33, cone: all sizes that pass the asserts are accepted; indices are in range, the mesh is a consistently oriented edge-manifold, its
boundary sides are exactly the bottom rim, and `V - E + F = 1` (a disk). -/
theorem C33_cone (nx nz : ℕ) (hx : 3 ≤ nx) (hz : 2 ≤ nz) : ∃ F, coneF nx nz = some F ∧
    (coneV nx nz).length = nx * (nz - 1) + 1 ∧
    TriInRange (nx * (nz - 1) + 1) F ∧ OrientedManifold F ∧
    (∀ e, IsBoundarySide F e ↔ e ∈ coneRim nx) ∧
    eulerChar (nx * (nz - 1) + 1) F = 1 := by
  obtain ⟨m, rfl⟩ : ∃ m, nz = m + 1 := ⟨nz - 1, by omega⟩
  have hm : 1 ≤ m := by omega
  rw [Nat.add_sub_cancel]
  set F := gF m nx (m - 1) nx ++ (List.range nx).map (fan nx m) with hFd
  have hcase : m = 1 ∨ AxisOk m (m - 1) := by
    by_cases h : m = 1
    · exact Or.inl h
    · exact Or.inr (axisOpen (by omega))
  have hC := axisClosed hx
  -- the lateral part
  have latnd : (sides (gF m nx (m - 1) nx)).Nodup := by
    rcases hcase with rfl | h
    · simp [gF_zero, sides]
    · exact sides_gF_nodup h hC
  have latlt : ∀ e ∈ sides (gF m nx (m - 1) nx), e.s < nx * m ∧ e.t < nx * m := by
    intro e he
    rcases hcase with rfl | h
    · simp [gF_zero, sides] at he
    · rw [Nat.mul_comm]; exact gF_side_lt h hC he
  have ringnot : ∀ k < nx, (⟨gix m nx (m - 1) k, gix m nx (m - 1) (k + 1)⟩ : Edge) ∉ sides (gF m nx (m - 1) nx) := by
    intro k hk
    rcases hcase with rfl | h
    · simp [gF_zero, sides]
    · exact (Rim.top (R := m) (C := nx) (m := m - 1) (n := nx) (by omega) hk).no_partner h hC
  have hms : ∀ e, e ∈ sides F ↔ e ∈ sides (gF m nx (m - 1) nx) ∨ e ∈ sides ((List.range nx).map (fan nx m)) := by
    intro e; rw [hFd, sides_append, List.mem_append]
  have hman : OrientedManifold F := by
    refine ⟨?_, ?_⟩
    · rw [hFd, sides_append, List.nodup_append]
      refine ⟨latnd, fan_nodup hx hm, ?_⟩
      rintro e he e' he' rfl
      have hl := latlt e he
      obtain ⟨k, hk, rfl | rfl | rfl⟩ := mem_sides_fan.mp he'
      · simp at hl
      · simp at hl
      · exact ringnot k hk he
    · intro t ht
      rw [hFd, List.mem_append] at ht
      rcases ht with ht | ht
      · rcases hcase with rfl | h
        · simp [gF_zero] at ht
        · exact (gF_manifold h hC).2 t ht
      · rw [List.mem_map] at ht
        obtain ⟨k, hk, rfl⟩ := ht
        have hk := List.mem_range.mp hk
        have h1 := ring_lt hx hm (k := k) (by omega)
        have h2 := ring_lt hx hm (k := k + 1) (by omega)
        refine ⟨?_, by simp only [fan]; omega, by simp only [fan]; omega⟩
        intro h
        exact wr_succ_ne hC hk (ring_inj hx hm h)
  have hbd : ∀ e, IsBoundarySide F e ↔ e ∈ coneRim nx := by
    intro e
    unfold IsBoundarySide coneRim
    rw [List.mem_map]
    constructor
    · rintro ⟨he, hf⟩
      rw [hms] at he hf
      rw [not_or] at hf
      obtain ⟨hf1, hf2⟩ := hf
      rcases he with he | he
      · rcases hcase with rfl | h
        · simp [gF_zero, sides] at he
        · cases rim_of_side h hC he hf1 with
          | @bottom c _ hc => exact ⟨c, List.mem_range.mpr hc, by rw [cylinder_gix (by omega) hc, cylinder_gix' (by omega) hc]; simp⟩
          | @top c _ hc => exact absurd (mem_sides_fan.mpr ⟨c, hc, Or.inr (Or.inr rfl)⟩) hf2
          | left h => exact absurd rfl h
          | right h => exact absurd rfl h
      · obtain ⟨k, hk, rfl | rfl | rfl⟩ := mem_sides_fan.mp he
        · obtain ⟨k', h1, h2⟩ := axis_next' hC hk (Or.inr rfl)
          exact absurd (mem_sides_fan.mpr ⟨k', h1, Or.inr (Or.inl (by simp only [Edge.flip, Edge.mk.injEq]; exact ⟨trivial, gix_congr rfl h2.symm⟩))⟩) hf2
        · obtain ⟨k', h1, h2⟩ := axis_prev hC hk (Or.inr rfl)
          exact absurd (mem_sides_fan.mpr ⟨k', h1, Or.inl (by simp only [Edge.flip, Edge.mk.injEq]; exact ⟨gix_congr rfl h2.symm, trivial⟩)⟩) hf2
        · rcases hcase with rfl | h
          · exact ⟨k, List.mem_range.mpr hk, by rw [cylinder_gix (by omega) hk, cylinder_gix' (by omega) hk]; simp⟩
          · exact absurd ((Rim.top (R := m) (C := nx) (m := m - 1) (n := nx) (by omega) hk).is_side h hC) hf1
    · rintro ⟨c, hc, rfl⟩
      have hc := List.mem_range.mp hc
      have e1 : (⟨c, (c + 1) % nx⟩ : Edge) = ⟨gix m nx 0 c, gix m nx 0 (c + 1)⟩ := by
        rw [cylinder_gix (by omega) hc, cylinder_gix' (by omega) hc]; simp
      rw [e1]
      have nofan : (⟨gix m nx 0 c, gix m nx 0 (c + 1)⟩ : Edge).flip ∉ sides ((List.range nx).map (fan nx m)) := by
        intro h
        obtain ⟨k, hk, h | h | h⟩ := mem_sides_fan.mp h <;> simp only [Edge.flip, Edge.mk.injEq] at h
        · have : gix m nx 0 c < nx * m := by
            have := hC.wr_lt (x := c) (by omega)
            rw [cylinder_gix (by omega) hc]
            calc 0 * nx + c < nx := by omega
              _ ≤ nx * m := Nat.le_mul_of_pos_right _ hm
          omega
        · have : gix m nx 0 (c + 1) < nx * m := by
            have := Nat.mod_lt (c + 1) (show 0 < nx by omega)
            rw [cylinder_gix' (by omega) hc]
            calc 0 * nx + (c + 1) % nx < nx := by omega
              _ ≤ nx * m := Nat.le_mul_of_pos_right _ hm
          omega
        · rcases hcase with rfl | h'
          · have a := ring_inj hx hm h.1
            have b := ring_inj hx hm h.2
            unfold wr at a b; split_ifs at a b <;> omega
          · have a := (gix_inj h' hC (by omega) (by omega) (by omega) (by omega) h.1).1
            unfold wr at a
            unfold AxisOk at h'
            split_ifs at a <;> omega
      rw [hms, hms, not_or]
      rcases hcase with rfl | h
      · exact ⟨Or.inr (mem_sides_fan.mpr ⟨c, hc, Or.inr (Or.inr rfl)⟩), by simp [gF_zero, sides], nofan⟩
      · have hr := Rim.bottom (R := m) (C := nx) (m := m - 1) (n := nx) (by omega) hc
        exact ⟨Or.inl (hr.is_side h hC), hr.no_partner h hC, nofan⟩
  have hlen : F.length = 2 * ((m - 1) * nx) + nx := by rw [hFd, List.length_append, gF_length]; simp
  refine ⟨F, ?_, ?_, ?_, hman, hbd, ?_⟩
  · rw [coneF_eq hx hz]; rfl
  · unfold coneV; simp [List.length_flatMap, mul_comm]
  · intro t ht
    rw [hFd, List.mem_append] at ht
    rcases ht with ht | ht
    · rcases hcase with rfl | h
      · simp [gF_zero] at ht
      · have := gF_inRange h hC t ht
        rw [Nat.mul_comm] at this
        omega
    · rw [List.mem_map] at ht
      obtain ⟨k, hk, rfl⟩ := ht
      have hk := List.mem_range.mp hk
      have h1 := ring_lt hx hm (k := k) (by omega)
      have h2 := ring_lt hx hm (k := k + 1) (by omega)
      refine ⟨?_, ?_, ?_⟩ <;> simp only [fan] <;> omega
  · have hne : F ≠ [] := by
      intro h
      have := congrArg List.length h
      rw [hlen, List.length_nil] at this
      omega
    have hnd : (coneRim nx).Nodup := List.nodup_range.map_on (fun a _ b _ h => by simpa using congrArg Edge.s h)
    have h := numEdges_of_boundary hne hman hnd (fun e => (hbd e).symm)
    have hl : (coneRim nx).length = nx := by unfold coneRim; simp
    rw [hlen, hl] at h
    unfold eulerChar
    rw [hlen]
    obtain ⟨k, rfl⟩ : ∃ k, m = k + 1 := ⟨m - 1, by omega⟩
    rw [Nat.add_sub_cancel] at h ⊢
    push_cast
    have h' : (2 : ℤ) * numEdges F = 3 * (2 * (k * nx) + nx) + nx := by exact_mod_cast h
    linarith

example : coneF 3 3 = some [⟨0, 4, 3⟩, ⟨1, 5, 4⟩, ⟨2, 3, 5⟩, ⟨0, 1, 4⟩, ⟨1, 2, 5⟩, ⟨2, 0, 3⟩, ⟨3, 4, 6⟩, ⟨4, 5, 6⟩, ⟨5, 3, 6⟩] := by decide +kernel

end Gpy
