import Verif.Model.Generators
import Verif.Proofs.EdgeCount
import Mathlib.Data.List.ProdSigma
import Mathlib.Tactic.IntervalCases
import Mathlib.Tactic.FinCases

set_option autoImplicit false
namespace Gpy
open Np

/-- position in a closed-up axis of `R` entries: entry `R` is entry `0` again -/
def wr (R x : ℕ) : ℕ := if x = R then 0 else x

/-- vertex number at row `r`, column `c` of a closed-up grid -/
def gix (R C r c : ℕ) : ℕ := wr R r * C + wr C c

/-- `m` intervals on an axis of `R` vertices: open or closed up -/
def AxisOk (R m : ℕ) : Prop := (m + 1 = R ∧ 2 ≤ R) ∨ (m = R ∧ 3 ≤ R)

theorem AxisOk.wr_lt {R m x : ℕ} (h : AxisOk R m) (hx : x ≤ m) : wr R x < R := by
  unfold wr AxisOk at *; split <;> omega

/-- two steps along an axis with the same ends -/
theorem axis_inj {R m r r' a b a' b' : ℕ} (h : AxisOk R m) (hr : r < m) (hr' : r' < m) (ha : a ≤ 1) (hb : b ≤ 1) (ha' : a' ≤ 1) (hb' : b' ≤ 1)
    (h1 : wr R (r + a) = wr R (r' + a')) (h2 : wr R (r + b) = wr R (r' + b')) : a + b' = a' + b ∧ (a = a' → r = r') := by
  unfold wr at h1 h2
  unfold AxisOk at h
  split_ifs at h1 h2 <;> omega

theorem gix_inj {R C m n r c r' c' : ℕ} (hR : AxisOk R m) (hC : AxisOk C n) (_ : r ≤ m) (hc : c ≤ n) (_ : r' ≤ m) (hc' : c' ≤ n)
    (h : gix R C r c = gix R C r' c') : wr R r = wr R r' ∧ wr C c = wr C c' := by
  have a := hC.wr_lt hc
  have b := hC.wr_lt hc'
  unfold gix at h
  have hm : (wr R r * C + wr C c) % C = (wr R r' * C + wr C c') % C := by rw [h]
  have hd : (wr R r * C + wr C c) / C = (wr R r' * C + wr C c') / C := by rw [h]
  have pos : 0 < C := by omega
  rw [Nat.mul_add_mod_self_right, Nat.mul_add_mod_self_right, Nat.mod_eq_of_lt a, Nat.mod_eq_of_lt b] at hm
  rw [Nat.mul_comm _ C, Nat.mul_add_div pos, Nat.mul_comm _ C, Nat.mul_add_div pos, Nat.div_eq_of_lt a, Nat.div_eq_of_lt b] at hd
  exact ⟨by simpa using hd, hm⟩

/-- the quads, row by row -/
def quads (m n : ℕ) : List (ℕ × ℕ) := (List.range m).flatMap (fun r => (List.range n).map (fun c => (r, c)))

theorem mem_quads {m n : ℕ} {q : ℕ × ℕ} : q ∈ quads m n ↔ q.1 < m ∧ q.2 < n := by
  unfold quads
  simp only [List.mem_flatMap, List.mem_range, List.mem_map]
  constructor
  · rintro ⟨r, hr, c, hc, rfl⟩; exact ⟨hr, hc⟩
  · rintro ⟨h1, h2⟩; exact ⟨q.1, h1, q.2, h2, rfl⟩

theorem nodup_quads (m n : ℕ) : (quads m n).Nodup := by
  unfold quads
  rw [List.nodup_flatMap]
  refine ⟨fun r _ => (List.nodup_range).map (fun a b h => by simpa using h), ?_⟩
  refine List.nodup_range.imp ?_
  intro a b hab x hx hy
  rw [List.mem_map] at hx hy
  obtain ⟨_, _, rfl⟩ := hx
  obtain ⟨_, _, h⟩ := hy
  exact hab (by simpa using (congrArg Prod.fst h).symm)

theorem length_quads (m n : ℕ) : (quads m n).length = m * n := by
  unfold quads
  simp [List.length_flatMap]

def qt1 (f : ℕ → ℕ → ℕ) (q : ℕ × ℕ) : Tri := ⟨f q.1 q.2, f (q.1 + 1) (q.2 + 1), f (q.1 + 1) q.2⟩
def qt2 (f : ℕ → ℕ → ℕ) (q : ℕ × ℕ) : Tri := ⟨f q.1 q.2, f q.1 (q.2 + 1), f (q.1 + 1) (q.2 + 1)⟩

/-- the index table of a function -/
def table (m n : ℕ) (f : ℕ → ℕ → ℕ) : List (List ℕ) := (List.range m).map (fun r => (List.range n).map (f r))

theorem map_range_dropLast {α : Type} (n : ℕ) (g : ℕ → α) : ((List.range (n + 1)).map g).dropLast = (List.range n).map g := by
  rw [List.range_succ]; simp

theorem map_range_tail {α : Type} (n : ℕ) (g : ℕ → α) : ((List.range (n + 1)).map g).tail = (List.range n).map (fun i => g (i + 1)) := by
  rw [List.range_succ_eq_map]; simp [Function.comp_def]

theorem flatten_table (m n : ℕ) (f : ℕ → ℕ → ℕ) : (table m n f).flatten = (quads m n).map (fun q => f q.1 q.2) := by
  unfold table quads
  rw [List.map_flatMap, List.flatMap_def]
  simp [Function.comp_def]

theorem gridFaces_table (m n : ℕ) (f : ℕ → ℕ → ℕ) : gridFaces (table (m + 1) (n + 1) f) = (quads m n).map (qt1 f) ++ (quads m n).map (qt2 f) := by
  have e0 : ((table (m + 1) (n + 1) f).dropLast.map List.dropLast) = table m n f := by
    unfold table; rw [map_range_dropLast, List.map_map]
    exact List.map_congr_left (fun r _ => map_range_dropLast n (f r))
  have e1 : ((table (m + 1) (n + 1) f).dropLast.map List.tail) = table m n (fun r c => f r (c + 1)) := by
    unfold table; rw [map_range_dropLast, List.map_map]
    exact List.map_congr_left (fun r _ => map_range_tail n (f r))
  have e2 : ((table (m + 1) (n + 1) f).tail.map List.dropLast) = table m n (fun r c => f (r + 1) c) := by
    unfold table; rw [map_range_tail, List.map_map]
    exact List.map_congr_left (fun r _ => map_range_dropLast n (f (r + 1)))
  have e3 : ((table (m + 1) (n + 1) f).tail.map List.tail) = table m n (fun r c => f (r + 1) (c + 1)) := by
    unfold table; rw [map_range_tail, List.map_map]
    exact List.map_congr_left (fun r _ => map_range_tail n (f (r + 1)))
  unfold gridFaces
  simp only [e0, e1, e2, e3, flatten_table]
  rw [List.zip_append (by simp), List.zip_append (by simp), List.map_append]
  congr 1
  · rw [List.zip_map', List.zip_map', List.map_map]; rfl
  · rw [List.zip_map', List.zip_map', List.map_map]; rfl

theorem reshapeArange_eq (R C : ℕ) : reshapeArange R C = table R C (fun r c => r * C + c) := rfl

theorem table_congr {m n : ℕ} {f g : ℕ → ℕ → ℕ} (h : ∀ r < m, ∀ c < n, f r c = g r c) : table m n f = table m n g := by
  unfold table
  exact List.map_congr_left (fun r hr => List.map_congr_left (fun c hc => h r (List.mem_range.mp hr) c (List.mem_range.mp hc)))

theorem closeCols_table {m C : ℕ} (hC : 0 < C) (f : ℕ → ℕ → ℕ) : closeCols (table m C f) = table m (C + 1) (fun r c => f r (wr C c)) := by
  unfold closeCols table
  rw [List.map_map]
  refine List.map_congr_left (fun r _ => ?_)
  obtain ⟨k, rfl⟩ : ∃ k, C = k + 1 := ⟨C - 1, by omega⟩
  rw [Function.comp_apply, List.range_succ (n := k + 1), List.map_append]
  congr 1
  · refine List.map_congr_left (fun c hc => ?_)
    have := List.mem_range.mp hc
    have hw : wr (k + 1) c = c := if_neg (by omega)
    simp only [hw]
  · rw [List.range_succ_eq_map]; simp [wr]

theorem closeRows_table {R n : ℕ} (hR : 0 < R) (f : ℕ → ℕ → ℕ) : closeRows (table R n f) = table (R + 1) n (fun r c => f (wr R r) c) := by
  unfold closeRows table
  obtain ⟨k, rfl⟩ : ∃ k, R = k + 1 := ⟨R - 1, by omega⟩
  rw [List.range_succ (n := k + 1), List.map_append]
  congr 1
  · refine List.map_congr_left (fun r hr => ?_)
    have := List.mem_range.mp hr
    have hw : wr (k + 1) r = r := if_neg (by omega)
    simp only [hw]
  · rw [List.range_succ_eq_map]; simp [wr]

/-- triangles of an `m × n` grid of quads on `R × C` vertices -/
def gF (R C m n : ℕ) : List Tri := (quads m n).map (qt1 (gix R C)) ++ (quads m n).map (qt2 (gix R C))

theorem squareMeshF_eq {nx ny : ℕ} (hx : 0 < nx) (hy : 0 < ny) : squareMeshF nx ny = gF ny nx (ny - 1) (nx - 1) := by
  obtain ⟨a, rfl⟩ : ∃ k, nx = k + 1 := ⟨nx - 1, by omega⟩
  obtain ⟨b, rfl⟩ : ∃ k, ny = k + 1 := ⟨ny - 1, by omega⟩
  unfold squareMeshF gF
  rw [reshapeArange_eq, table_congr (g := gix (b + 1) (a + 1)), gridFaces_table]; rfl
  intro r hr c hc
  unfold gix wr
  rw [if_neg (by omega), if_neg (by omega)]

theorem cylinder_eq {nx nz : ℕ} (hx : 0 < nx) (hz : 0 < nz) : gridFaces (closeCols (reshapeArange nz nx)) = gF nz nx (nz - 1) nx := by
  obtain ⟨b, rfl⟩ : ∃ k, nz = k + 1 := ⟨nz - 1, by omega⟩
  unfold gF
  rw [reshapeArange_eq, closeCols_table hx, table_congr (g := gix (b + 1) nx), gridFaces_table]; rfl
  intro r hr c hc
  unfold gix
  rw [show wr (b + 1) r = r from if_neg (by omega)]

theorem torus_eq {nR nr : ℕ} (hR : 0 < nR) (hr : 0 < nr) : gridFaces (closeRows (closeCols (reshapeArange nr nR))) = gF nr nR nr nR := by
  unfold gF
  rw [reshapeArange_eq, closeCols_table hR, closeRows_table hr, table_congr (g := gix nr nR), gridFaces_table]
  intro r _ c _; rfl

/-- ends of the six sides of a quad, as offsets -/
def off6 : Fin 6 → (ℕ × ℕ) × (ℕ × ℕ)
  | 0 => ((1, 1), (1, 0))
  | 1 => ((1, 0), (0, 0))
  | 2 => ((0, 0), (1, 1))
  | 3 => ((0, 1), (1, 1))
  | 4 => ((1, 1), (0, 0))
  | 5 => ((0, 0), (0, 1))

def side6 (R C : ℕ) (q : ℕ × ℕ) (k : Fin 6) : Edge :=
  ⟨gix R C (q.1 + (off6 k).1.1) (q.2 + (off6 k).1.2), gix R C (q.1 + (off6 k).2.1) (q.2 + (off6 k).2.2)⟩

theorem off6_le : ∀ k : Fin 6, (off6 k).1.1 ≤ 1 ∧ (off6 k).1.2 ≤ 1 ∧ (off6 k).2.1 ≤ 1 ∧ (off6 k).2.2 ≤ 1 := by decide

theorem off6_dir : ∀ k k' : Fin 6, (off6 k).1.1 + (off6 k').2.1 = (off6 k').1.1 + (off6 k).2.1 →
    (off6 k).1.2 + (off6 k').2.2 = (off6 k').1.2 + (off6 k).2.2 → k = k' := by decide

theorem side6_inj {R C m n : ℕ} (hR : AxisOk R m) (hC : AxisOk C n) {q q' : ℕ × ℕ} {k k' : Fin 6} (hq : q ∈ quads m n) (hq' : q' ∈ quads m n)
    (h : side6 R C q k = side6 R C q' k') : k = k' ∧ q = q' := by
  rw [mem_quads] at hq hq'
  obtain ⟨o1, o2, o3, o4⟩ := off6_le k
  obtain ⟨p1, p2, p3, p4⟩ := off6_le k'
  unfold side6 at h
  rw [Edge.mk.injEq] at h
  obtain ⟨a1, a2⟩ := gix_inj hR hC (by omega) (by omega) (by omega) (by omega) h.1
  obtain ⟨b1, b2⟩ := gix_inj hR hC (by omega) (by omega) (by omega) (by omega) h.2
  obtain ⟨c1, c2⟩ := axis_inj hR hq.1 hq'.1 o1 o3 p1 p3 a1 b1
  obtain ⟨d1, d2⟩ := axis_inj hC hq.2 hq'.2 o2 o4 p2 p4 a2 b2
  have hk := off6_dir k k' c1 d1
  subst hk
  exact ⟨rfl, Prod.ext (c2 rfl) (d2 rfl)⟩


/-- the sides of a grid mesh -/
theorem sides_gF_perm (R C m n : ℕ) : (sides (gF R C m n)).Perm ((quads m n).flatMap (fun q => (List.finRange 6).map (side6 R C q))) := by
  unfold gF
  rw [sides_append]
  unfold sides
  rw [List.flatMap_map, List.flatMap_map]
  refine (List.flatMap_append_perm _ _ _).trans ?_
  refine List.Perm.flatMap_left _ (fun q _ => ?_)
  exact List.Perm.of_eq (by rfl)

theorem mem_sides_gF {R C m n : ℕ} {e : Edge} : e ∈ sides (gF R C m n) ↔ ∃ q, (q.1 < m ∧ q.2 < n) ∧ ∃ k, e = side6 R C q k := by
  rw [(sides_gF_perm R C m n).mem_iff, List.mem_flatMap]
  constructor
  · rintro ⟨q, hq, h⟩
    rw [List.mem_map] at h
    obtain ⟨k, _, rfl⟩ := h
    exact ⟨q, mem_quads.mp hq, k, rfl⟩
  · rintro ⟨q, hq, k, rfl⟩
    exact ⟨q, mem_quads.mpr hq, List.mem_map.mpr ⟨k, List.mem_finRange k, rfl⟩⟩

theorem sides_gF_nodup {R C m n : ℕ} (hR : AxisOk R m) (hC : AxisOk C n) : (sides (gF R C m n)).Nodup := by
  rw [(sides_gF_perm R C m n).nodup_iff, List.nodup_flatMap]
  constructor
  · intro q hq
    refine (List.nodup_finRange 6).map_on ?_
    intro a _ b _ h
    exact (side6_inj hR hC hq hq h).1
  · refine (nodup_quads m n).imp_of_mem ?_
    intro q q' hq hq' hne x hx hx'
    rw [List.mem_map] at hx hx'
    obtain ⟨k, _, rfl⟩ := hx
    obtain ⟨k', _, h⟩ := hx'
    exact hne (side6_inj hR hC hq' hq h).2.symm

theorem wr_succ_ne {R m x : ℕ} (h : AxisOk R m) (hx : x < m) : wr R x ≠ wr R (x + 1) := by
  unfold wr AxisOk at *; split_ifs <;> omega

theorem gF_manifold {R C m n : ℕ} (hR : AxisOk R m) (hC : AxisOk C n) : OrientedManifold (gF R C m n) := by
  refine ⟨sides_gF_nodup hR hC, ?_⟩
  intro t ht
  unfold gF at ht
  rw [List.mem_append, List.mem_map, List.mem_map] at ht
  have key : ∀ {r c r' c' : ℕ}, r ≤ m → c ≤ n → r' ≤ m → c' ≤ n → (wr R r ≠ wr R r' ∨ wr C c ≠ wr C c') → gix R C r c ≠ gix R C r' c' := by
    intro r c r' c' h1 h2 h3 h4 h5 h6
    obtain ⟨a, b⟩ := gix_inj hR hC h1 h2 h3 h4 h6
    rcases h5 with h5 | h5 <;> contradiction
  rcases ht with ⟨q, hq, rfl⟩ | ⟨q, hq, rfl⟩ <;> rw [mem_quads] at hq <;>
    have w1 := wr_succ_ne hR hq.1 <;> have w2 := wr_succ_ne hC hq.2
  · exact ⟨key (by omega) (by omega) (by omega) (by omega) (Or.inl w1), key (by omega) (by omega) (by omega) (by omega) (Or.inr w2.symm),
      key (by omega) (by omega) (by omega) (by omega) (Or.inl w1.symm)⟩
  · exact ⟨key (by omega) (by omega) (by omega) (by omega) (Or.inr w2), key (by omega) (by omega) (by omega) (by omega) (Or.inl w1),
      key (by omega) (by omega) (by omega) (by omega) (Or.inl w1.symm)⟩

theorem gix_lt {R C m n r c : ℕ} (hR : AxisOk R m) (hC : AxisOk C n) (h1 : r ≤ m) (h2 : c ≤ n) : gix R C r c < R * C := by
  have a := hR.wr_lt h1
  have b := hC.wr_lt h2
  unfold gix
  calc wr R r * C + wr C c < wr R r * C + C := by omega
    _ = (wr R r + 1) * C := by ring
    _ ≤ R * C := Nat.mul_le_mul_right _ a

theorem gF_inRange {R C m n : ℕ} (hR : AxisOk R m) (hC : AxisOk C n) : ∀ t ∈ gF R C m n, t.a < R * C ∧ t.b < R * C ∧ t.c < R * C := by
  intro t ht
  unfold gF at ht
  rw [List.mem_append, List.mem_map, List.mem_map] at ht
  rcases ht with ⟨q, hq, rfl⟩ | ⟨q, hq, rfl⟩ <;> rw [mem_quads] at hq <;>
    exact ⟨gix_lt hR hC (by omega) (by omega), gix_lt hR hC (by omega) (by omega), gix_lt hR hC (by omega) (by omega)⟩

theorem gF_length (R C m n : ℕ) : (gF R C m n).length = 2 * (m * n) := by
  unfold gF; rw [List.length_append, List.length_map, List.length_map, length_quads]; omega

/-- the sides of the outer rim: present along an axis that is not closed up -/
inductive Rim (R C m n : ℕ) : Edge → Prop
  | bottom {c : ℕ} : m ≠ R → c < n → Rim R C m n ⟨gix R C 0 c, gix R C 0 (c + 1)⟩
  | top {c : ℕ} : m ≠ R → c < n → Rim R C m n ⟨gix R C m (c + 1), gix R C m c⟩
  | left {r : ℕ} : n ≠ C → r < m → Rim R C m n ⟨gix R C (r + 1) 0, gix R C r 0⟩
  | right {r : ℕ} : n ≠ C → r < m → Rim R C m n ⟨gix R C r n, gix R C (r + 1) n⟩

theorem wr_self (R : ℕ) : wr R R = 0 := if_pos rfl
theorem wr_zero (R : ℕ) : wr R 0 = 0 := by unfold wr; split <;> rfl

/-- a step back along an axis -/
theorem axis_prev {R m r : ℕ} (h : AxisOk R m) (hr : r < m) (ho : r ≠ 0 ∨ m = R) :
    ∃ r' < m, wr R (r' + 1) = wr R r := by
  by_cases h0 : r = 0
  · refine ⟨m - 1, by omega, ?_⟩
    have : m = R := by omega
    subst this
    rw [h0, wr_zero, show m - 1 + 1 = m by omega, wr_self]
  · exact ⟨r - 1, by omega, by rw [show r - 1 + 1 = r by omega]⟩

/-- a step forward along an axis -/
theorem axis_next {R m r : ℕ} (h : AxisOk R m) (hr : r < m) (ho : r + 1 ≠ m ∨ m = R) :
    ∃ r' < m, wr R r' = wr R (r + 1) ∧ wr R (r' + 1) = wr R (r + 1 + 1) ∨ r + 1 = m ∧ m = R ∧ r' = 0 := by
  by_cases h0 : r + 1 = m
  · exact ⟨0, by omega, Or.inr ⟨h0, by omega, rfl⟩⟩
  · exact ⟨r + 1, by omega, Or.inl ⟨rfl, rfl⟩⟩

theorem axis_next' {R m r : ℕ} (h : AxisOk R m) (hr : r < m) (ho : r + 1 ≠ m ∨ m = R) : ∃ r' < m, wr R r' = wr R (r + 1) := by
  by_cases h0 : r + 1 = m
  · refine ⟨0, by omega, ?_⟩
    rw [h0, show m = R by omega, wr_self, wr_zero]
  · exact ⟨r + 1, by omega, rfl⟩

theorem gix_congr {R C r c r' c' : ℕ} (h1 : wr R r = wr R r') (h2 : wr C c = wr C c') : gix R C r c = gix R C r' c' := by
  unfold gix; rw [h1, h2]

/-- a side without partner is on the rim -/
theorem rim_of_side {R C m n : ℕ} (hR : AxisOk R m) (hC : AxisOk C n) {e : Edge} (he : e ∈ sides (gF R C m n))
    (hf : e.flip ∉ sides (gF R C m n)) : Rim R C m n e := by
  obtain ⟨⟨r, c⟩, ⟨hr, hc⟩, k, rfl⟩ := mem_sides_gF.mp he
  simp only at hr hc
  have not : ∀ r' c' k', r' < m → c' < n → (side6 R C (r, c) k).flip ≠ side6 R C (r', c') k' :=
    fun r' c' k' h1 h2 h => hf (mem_sides_gF.mpr ⟨(r', c'), ⟨h1, h2⟩, k', h⟩)
  fin_cases k
  · by_cases ho : r + 1 ≠ m ∨ m = R
    · obtain ⟨r', h1, h2⟩ := axis_next' hR hr ho
      exact absurd (by simp only [side6, off6, Edge.flip, Edge.mk.injEq]; exact ⟨gix_congr h2.symm rfl, gix_congr h2.symm rfl⟩) (not r' c 5 h1 hc)
    · have : r + 1 = m := by omega
      subst this
      exact Rim.top (by omega) hc
  · by_cases ho : c ≠ 0 ∨ n = C
    · obtain ⟨c', h1, h2⟩ := axis_prev hC hc ho
      exact absurd (by simp only [side6, off6, Edge.flip, Edge.mk.injEq]; exact ⟨gix_congr rfl h2.symm, gix_congr rfl h2.symm⟩) (not r c' 3 hr h1)
    · have : c = 0 := by omega
      subst this
      exact Rim.left (by omega) hr
  · exact absurd (by simp only [side6, off6, Edge.flip]) (not r c 4 hr hc)
  · by_cases ho : c + 1 ≠ n ∨ n = C
    · obtain ⟨c', h1, h2⟩ := axis_next' hC hc ho
      exact absurd (by simp only [side6, off6, Edge.flip, Edge.mk.injEq]; exact ⟨gix_congr rfl h2.symm, gix_congr rfl h2.symm⟩) (not r c' 1 hr h1)
    · have : c + 1 = n := by omega
      subst this
      exact Rim.right (by omega) hr
  · exact absurd (by simp only [side6, off6, Edge.flip]) (not r c 2 hr hc)
  · by_cases ho : r ≠ 0 ∨ m = R
    · obtain ⟨r', h1, h2⟩ := axis_prev hR hr ho
      exact absurd (by simp only [side6, off6, Edge.flip, Edge.mk.injEq]; exact ⟨gix_congr h2.symm rfl, gix_congr h2.symm rfl⟩) (not r' c 0 h1 hc)
    · have : r = 0 := by omega
      subst this
      exact Rim.bottom (by omega) hc

theorem off6_rev : ∀ k k' : Fin 6, (off6 k).1.1 + (off6 k').1.1 = (off6 k).2.1 + (off6 k').2.1 →
    (off6 k).1.2 + (off6 k').1.2 = (off6 k).2.2 + (off6 k').2.2 →
    (k = 0 ∧ k' = 5) ∨ (k = 5 ∧ k' = 0) ∨ (k = 1 ∧ k' = 3) ∨ (k = 3 ∧ k' = 1) ∨ (k = 2 ∧ k' = 4) ∨ (k = 4 ∧ k' = 2) := by decide

theorem Rim.is_side {R C m n : ℕ} (hR : AxisOk R m) (hC : AxisOk C n) {e : Edge} (h : Rim R C m n e) : e ∈ sides (gF R C m n) := by
  have hm : 1 ≤ m := by unfold AxisOk at hR; omega
  have hn : 1 ≤ n := by unfold AxisOk at hC; omega
  rw [mem_sides_gF]
  cases h with
  | @bottom c _ hc => exact ⟨(0, c), ⟨hm, hc⟩, 5, rfl⟩
  | @top c _ hc => exact ⟨(m - 1, c), ⟨by simp only; omega, hc⟩, 0, by simp only [side6, off6, Nat.sub_add_cancel hm]; rfl⟩
  | @left r _ hr => exact ⟨(r, 0), ⟨hr, hn⟩, 1, rfl⟩
  | @right r _ hr => exact ⟨(r, n - 1), ⟨hr, by simp only; omega⟩, 3, by simp only [side6, off6, Nat.sub_add_cancel hn]; rfl⟩

theorem Rim.no_partner {R C m n : ℕ} (hR : AxisOk R m) (hC : AxisOk C n) {e : Edge} (h : Rim R C m n e) : e.flip ∉ sides (gF R C m n) := by
  intro hf
  obtain ⟨⟨r', c'⟩, ⟨h1, h2⟩, k', hk⟩ := mem_sides_gF.mp hf
  simp only at h1 h2
  obtain ⟨p1, p2, p3, p4⟩ := off6_le k'
  have hm : 1 ≤ m := by unfold AxisOk at hR; omega
  have hn : 1 ≤ n := by unfold AxisOk at hC; omega
  have table : ∀ r c r2 c2 : ℕ, r ≤ m → c ≤ n → r2 ≤ m → c2 ≤ n → e = ⟨gix R C r c, gix R C r2 c2⟩ →
      (wr R r2 = wr R (r' + (off6 k').1.1) ∧ wr C c2 = wr C (c' + (off6 k').1.2)) ∧
      (wr R r = wr R (r' + (off6 k').2.1) ∧ wr C c = wr C (c' + (off6 k').2.2)) := by
    intro r c r2 c2 a1 a2 a3 a4 h
    rw [h] at hk
    simp only [Edge.flip, side6, Edge.mk.injEq] at hk
    exact ⟨gix_inj hR hC (by omega) (by omega) (by omega) (by omega) hk.1, gix_inj hR hC (by omega) (by omega) (by omega) (by omega) hk.2⟩
  cases h with
  | @bottom c ho hc =>
    obtain ⟨⟨a1, a2⟩, a3, a4⟩ := table 0 c 0 (c + 1) (by omega) (by omega) (by omega) (by omega) rfl
    have d1 := axis_inj (R := R) (m := m) (r := 0) (r' := r') (a := 0) (b := 0) hR (by omega) h1 (by omega) (by omega) p1 p3 (by simpa using a1) (by simpa using a3)
    have d2 := axis_inj (R := C) (m := n) (r := c) (r' := c') (a := 1) (b := 0) hC hc h2 (by omega) (by omega) p2 p4 a2 (by simpa using a4)
    have : k' = 0 := by
      revert d1 d2; clear * -; intro d1 d2
      have := d1.1; have := d2.1
      fin_cases k' <;> simp [off6] at *
    subst this
    have hw : wr R 0 = wr R (r' + 1) := a1
    unfold wr AxisOk at *; split_ifs at hw <;> omega
  | @top c ho hc =>
    obtain ⟨⟨a1, a2⟩, a3, a4⟩ := table m (c + 1) m c (by omega) (by omega) (by omega) (by omega) rfl
    have d1 := axis_inj (R := R) (m := m) (r := m - 1) (r' := r') (a := 1) (b := 1) hR (by omega) h1 (by omega) (by omega) p1 p3
      (by rw [Nat.sub_add_cancel hm]; exact a1) (by rw [Nat.sub_add_cancel hm]; exact a3)
    have d2 := axis_inj (R := C) (m := n) (r := c) (r' := c') (a := 0) (b := 1) hC hc h2 (by omega) (by omega) p2 p4 a2 (by simpa using a4)
    have : k' = 5 := by
      revert d1 d2; clear * -; intro d1 d2
      have := d1.1; have := d2.1
      fin_cases k' <;> simp [off6] at *
    subst this
    have hw : wr R m = wr R (r' + 0) := a1
    unfold wr AxisOk at *; split_ifs at hw <;> omega
  | @left r ho hr =>
    obtain ⟨⟨a1, a2⟩, a3, a4⟩ := table (r + 1) 0 r 0 (by omega) (by omega) (by omega) (by omega) rfl
    have d1 := axis_inj (R := R) (m := m) (r := r) (r' := r') (a := 0) (b := 1) hR hr h1 (by omega) (by omega) p1 p3 (by simpa using a1) (by simpa using a3)
    have d2 := axis_inj (R := C) (m := n) (r := 0) (r' := c') (a := 0) (b := 0) hC (by omega) h2 (by omega) (by omega) p2 p4 (by simpa using a2) (by simpa using a4)
    have : k' = 3 := by
      revert d1 d2; clear * -; intro d1 d2
      have := d1.1; have := d2.1
      fin_cases k' <;> simp [off6] at *
    subst this
    have hw : wr C 0 = wr C (c' + 1) := a2
    unfold wr AxisOk at *; split_ifs at hw <;> omega
  | @right r ho hr =>
    obtain ⟨⟨a1, a2⟩, a3, a4⟩ := table r n (r + 1) n (by omega) (by omega) (by omega) (by omega) rfl
    have d1 := axis_inj (R := R) (m := m) (r := r) (r' := r') (a := 1) (b := 0) hR hr h1 (by omega) (by omega) p1 p3 (by simpa using a1) (by simpa using a3)
    have d2 := axis_inj (R := C) (m := n) (r := n - 1) (r' := c') (a := 1) (b := 1) hC (by omega) h2 (by omega) (by omega) p2 p4
      (by rw [Nat.sub_add_cancel hn]; exact a2) (by rw [Nat.sub_add_cancel hn]; exact a4)
    have : k' = 1 := by
      revert d1 d2; clear * -; intro d1 d2
      have := d1.1; have := d2.1
      fin_cases k' <;> simp [off6] at *
    subst this
    have hw : wr C n = wr C (c' + 0) := a2
    unfold wr AxisOk at *; split_ifs at hw <;> omega

theorem gF_boundary {R C m n : ℕ} (hR : AxisOk R m) (hC : AxisOk C n) {e : Edge} :
    (e ∈ sides (gF R C m n) ∧ e.flip ∉ sides (gF R C m n)) ↔ Rim R C m n e :=
  ⟨fun h => rim_of_side hR hC h.1 h.2, fun h => ⟨h.is_side hR hC, h.no_partner hR hC⟩⟩

end Gpy
