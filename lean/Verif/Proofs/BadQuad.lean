import Verif.Model.BadQuad
import Verif.Spec.BadQuad
import Verif.Props.Quadtree
import Verif.Props.RemoveDuplicate
import Mathlib.Tactic.FinCases

/-!
# Meshes of quadtrees: proofs
-/

set_option autoImplicit false
namespace Gpy.BadQuad
open Np

theorem flatM {α β : Type} (g : α → List β) (m : ℕ) (hg : ∀ a, (g a).length = m) (l : List α) (k i : ℕ) (hi : i < m) :
    (l.flatMap g)[i + k * m]? = (l[k]?).bind (fun a => (g a)[i]?) := by
  induction l generalizing k with
  | nil => simp
  | cons a l ih =>
    rw [List.flatMap_cons]
    cases k with
    | zero => rw [List.getElem?_append_left (by rw [hg]; omega)]; simp
    | succ k =>
      have : i + (k + 1) * m = m + (i + k * m) := by ring
      rw [List.getElem?_append_right (by rw [hg]; omega), hg, this, Nat.add_sub_cancel_left, ih k]
      simp

theorem flatM_length {α β : Type} (g : α → List β) (m : ℕ) (hg : ∀ a, (g a).length = m) (l : List α) : (l.flatMap g).length = l.length * m := by
  induction l with
  | nil => simp
  | cons a l ih => rw [List.flatMap_cons, List.length_append, hg, ih, List.length_cons]; ring

/-- rows of the renumbered array -/
theorem chunks_spec (k : ℕ) (R : ℕ → ℕ → Prop) (rows : List (List ℕ)) (hr : ∀ r ∈ rows, r.length = k) (SF : List ℕ) (hl : SF.length = rows.flatten.length)
    (h : ∀ p v : ℕ, rows.flatten[p]? = some v → ∃ u, SF[p]? = some u ∧ R v u) :
    (chunks k rows.length SF).length = rows.length ∧ ∀ (r : ℕ) row, rows[r]? = some row → ∃ t, (chunks k rows.length SF)[r]? = some t ∧ t.length = k ∧
      ∀ (c : ℕ) v, row[c]? = some v → ∃ u, t[c]? = some u ∧ R v u := by
  induction rows generalizing SF with
  | nil => exact ⟨rfl, by simp⟩
  | cons row rows ih =>
    have hk := hr row (by simp)
    rw [List.flatten_cons, List.length_append, hk] at hl
    have hd := ih (fun r h => hr r (by simp [h])) (SF.drop k) (by rw [List.length_drop]; omega) (by
      intro p v hp
      obtain ⟨u, h1, h2⟩ := h (k + p) v (by rw [List.flatten_cons, List.getElem?_append_right (by omega), hk, Nat.add_sub_cancel_left]; exact hp)
      exact ⟨u, by rw [List.getElem?_drop]; exact h1, h2⟩)
    rw [List.length_cons, chunks]
    refine ⟨by rw [List.length_cons, hd.1], ?_⟩
    intro r row' hrow
    cases r with
    | zero =>
      simp only [List.getElem?_cons_zero, Option.some.injEq] at hrow
      subst hrow
      refine ⟨SF.take k, rfl, by rw [List.length_take]; omega, ?_⟩
      intro c v hc
      obtain ⟨hlt, _⟩ := List.getElem?_eq_some_iff.mp hc
      obtain ⟨u, h1, h2⟩ := h c v (by rw [List.flatten_cons, List.getElem?_append_left hlt]; exact hc)
      exact ⟨u, by rw [List.getElem?_take_of_lt (by omega)]; exact h1, h2⟩
    | succ r => exact hd.2 r row' (by simpa using hrow)

variable {K : Type} [Field K] [LinearOrder K] [IsStrictOrderedRing K] [FloorRing K] {dim : ℕ}

/-- entry `j` of corner `k` of the cell `c`, as computed -/
def cornerK (dim : ℕ) (c : QuadCell K dim) (s : List Int) : List K := (List.finRange dim).map (fun j => c.C j + 1 / 2 * c.W * ((s.getD j.val 0 : Int) : K))

theorem blockV_get (L : List (QuadCell K dim)) (k i : ℕ) (hi : i < L.length) : (blockV L)[i + k * L.length]? = ((signs dim)[k]?).map (fun s => cornerK dim L[i] s) := by
  unfold blockV
  rw [flatM _ L.length (by intro a; simp) (signs dim) k i hi]
  cases (signs dim)[k]? with
  | none => rfl
  | some s => simp [List.getElem?_eq_getElem hi, cornerK]

theorem blockV_length (L : List (QuadCell K dim)) : (blockV L).length = (signs dim).length * L.length := flatM_length _ _ (by intro a; simp) _

theorem table_lt (dim : ℕ) : ∀ q ∈ quadTable dim, q.length = 4 ∧ ∀ k ∈ q, k < (signs dim).length := by
  unfold quadTable signs
  split <;> decide

theorem blockQ_get (dim m f i : ℕ) (hi : i < m) (q : List ℕ) (hq : (quadTable dim)[f]? = some q) : (blockQ dim m)[i + f * m]? = some (q.map (fun k => i + k * m)) := by
  unfold blockQ
  rw [flatM _ m (by intro a; simp) (quadTable dim) f i hi, hq]
  simp [hi]

theorem blockQ_length (dim m : ℕ) : (blockQ dim m).length = (quadTable dim).length * m := flatM_length _ _ (by intro a; simp) _

theorem blockQ_mem (dim m : ℕ) : ∀ r ∈ blockQ dim m, r.length = 4 ∧ ∀ v ∈ r, v < (signs dim).length * m := by
  intro r hr
  obtain ⟨q, hq, hr⟩ := List.mem_flatMap.mp hr
  obtain ⟨i, hi, rfl⟩ := List.mem_map.mp hr
  obtain ⟨h1, h2⟩ := table_lt dim q hq
  refine ⟨by rw [List.length_map, h1], ?_⟩
  intro v hv
  obtain ⟨k, hk, rfl⟩ := List.mem_map.mp hv
  have := h2 k hk
  have hi' := List.mem_range.mp hi
  calc i + k * m < m + k * m := by omega
    _ = (k + 1) * m := by ring
    _ ≤ _ := Nat.mul_le_mul_right m this

theorem blockH_mem (m : ℕ) : ∀ r ∈ blockH m, r.length = 8 ∧ ∀ v ∈ r, v < 8 * m := by
  intro r hr
  obtain ⟨i, hi, rfl⟩ := List.mem_map.mp hr
  refine ⟨by simp, ?_⟩
  intro v hv
  obtain ⟨k, hk, rfl⟩ := List.mem_map.mp hv
  have := List.mem_range.mp hk
  have hi' := List.mem_range.mp hi
  calc i + k * m < m + k * m := by omega
    _ = (k + 1) * m := by ring
    _ ≤ _ := Nat.mul_le_mul_right m this

/-- `y` stands for `x`: every coordinate is within `ε` -/
def Near (ε : K) (x y : List K) : Prop := y.length = x.length ∧ ∀ (c : ℕ) (s t : K), x[c]? = some s → y[c]? = some t → |s - t| ≤ ε

/-- the result for any array of cells whose leaves have positive width -/
theorem core (cells : List (QuadCell K dim)) (hd : dim = 2 ∨ dim = 3) (L : List (QuadCell K dim)) (hL : L = cells.filter isLeafCell) (h0 : L ≠ []) (hpos : ∀ c ∈ L, 0 < c.W) :
    ∃ V Q H w, badQuadMesh cells = some (V, Q, H) ∧ (∃ c ∈ L, c.W = w) ∧ (∀ c ∈ L, w ≤ c.W) ∧ Q.length = (quadTable dim).length * L.length ∧
      (∀ x ∈ V, x ∈ blockV L) ∧
      (∀ (k k' : ℕ) x x', V[k]? = some x → V[k']? = some x' → x = x' → k = k') ∧
      (∃ J : ℕ → ℕ → Prop, (∀ p x, (blockV L)[p]? = some x → ∃ v, J p v) ∧ (∀ p x v, (blockV L)[p]? = some x → J p v → ∃ y, V[v]? = some y ∧ Near (w / 100) x y) ∧
        (∀ (i f : ℕ) (q : List ℕ), i < L.length → (quadTable dim)[f]? = some q → ∃ t, Q[i + f * L.length]? = some t ∧ t.length = 4 ∧
          ∀ c k : ℕ, q[c]? = some k → ∃ u, t[c]? = some u ∧ J (i + k * L.length) u) ∧
        (dim = 3 → H.length = L.length ∧ ∀ i : ℕ, i < L.length → ∃ t, H[i]? = some t ∧ t.length = 8 ∧ ∀ k : ℕ, k < 8 → ∃ u, t[k]? = some u ∧ J (i + k * L.length) u)) ∧
      (dim = 2 → ∃ h, H = [h] ∧ h.length = 4 * L.length) := by
  cases hWs : L.map (fun c => c.W) with
  | nil => exact absurd (List.map_eq_nil_iff.mp hWs) h0
  | cons w0 ws =>
    have hmin : ∀ (ws : List K) (w0 : K), ws.foldl min w0 ∈ w0 :: ws ∧ ∀ x ∈ w0 :: ws, ws.foldl min w0 ≤ x := by
      intro ws
      induction ws with
      | nil => intro w0; simp
      | cons y l ih =>
        intro w0
        obtain ⟨h1, h2⟩ := ih (min w0 y)
        rw [List.foldl_cons]
        refine ⟨?_, ?_⟩
        · rcases List.mem_cons.mp h1 with h | h
          · rw [h]; rcases min_choice w0 y with e | e <;> rw [e] <;> simp
          · simp [h]
        · intro z hz
          have hm := h2 (min w0 y) (by simp)
          rcases List.mem_cons.mp hz with rfl | hz
          · exact hm.trans (min_le_left _ _)
          rcases List.mem_cons.mp hz with rfl | hz
          · exact hm.trans (min_le_right _ _)
          · exact h2 z (by simp [hz])
    obtain ⟨m1, m2⟩ := hmin ws w0
    rw [← hWs] at m1 m2
    obtain ⟨cm, hcm, ecm⟩ := List.mem_map.mp m1
    have hw : 0 < ws.foldl min w0 := by rw [← ecm]; exact hpos cm hcm
    have hε : ws.foldl min w0 / 100 ≠ 0 := by positivity
    have hns : (signs dim).length = if dim = 2 then 4 else 8 := by unfold signs; split <;> rfl
    obtain ⟨SV, SVI, SVJ, SF, f1, f2, f3, f4, _⟩ := C17_faces (blockV L) (ws.foldl min w0 / 100) (blockQ dim L.length).flatten (by
      intro v hv
      obtain ⟨r, hr, hv⟩ := List.mem_flatten.mp hv
      rw [blockV_length]
      exact (blockQ_mem dim L.length r hr).2 v hv)
    obtain ⟨SV', SVI', SVJ', e1, e2, e3, e4, e5, e6, e7⟩ := C17_rounded (blockV L) (ws.foldl min w0 / 100) hε
    rw [f1] at e1
    simp only [Option.some.injEq, Prod.mk.injEq] at e1
    obtain ⟨rfl, rfl, rfl⟩ := e1
    have hV : ∀ x ∈ SV, x ∈ blockV L := by
      intro x hx
      obtain ⟨k, hk⟩ := List.mem_iff_getElem?.mp hx
      obtain ⟨hkl, _⟩ := List.getElem?_eq_some_iff.mp hk
      obtain ⟨y, hy1, hy2⟩ := e4 k _ (List.getElem?_eq_getElem (by omega : k < SVI.length))
      rw [hk] at hy1
      rw [Option.some.inj hy1]
      exact List.mem_of_getElem? hy2
    have hinj : ∀ (k k' : ℕ) x x', SV[k]? = some x → SV[k']? = some x' → x = x' → k = k' := by
      rintro k k' x x' hk hk' rfl
      obtain ⟨hkl, _⟩ := List.getElem?_eq_some_iff.mp hk
      obtain ⟨hkl', _⟩ := List.getElem?_eq_some_iff.mp hk'
      have g1 : SVI[k]? = some SVI[k] := List.getElem?_eq_getElem (by omega)
      have g2 : SVI[k']? = some SVI[k'] := List.getElem?_eq_getElem (by omega)
      obtain ⟨y, hy1, hy2⟩ := e4 k _ g1
      obtain ⟨y', hy1', hy2'⟩ := e4 k' _ g2
      rw [hk] at hy1; rw [hk'] at hy1'
      obtain rfl := Option.some.inj hy1
      obtain rfl := Option.some.inj hy1'
      have l1 := (List.getElem?_eq_some_iff.mp hy2).1
      have l2 := (List.getElem?_eq_some_iff.mp hy2').1
      have := (e6 SVI[k] SVI[k'] l1 l2).mpr (by rw [hy2, hy2'])
      rw [e5 k _ g1, e5 k' _ g2] at this
      exact Option.some.inj this
    have hJ1 : ∀ (p : ℕ) x, (blockV L)[p]? = some x → ∃ v, SVJ[p]? = some v := by
      intro p x hp
      obtain ⟨k, y, h1, _⟩ := e7 p x hp
      exact ⟨k, h1⟩
    have hJ2 : ∀ (p : ℕ) x v, (blockV L)[p]? = some x → SVJ[p]? = some v → ∃ y, SV[v]? = some y ∧ Near (ws.foldl min w0 / 100) x y := by
      intro p x v hp hv
      obtain ⟨k, y, h1, h2, h3, h4⟩ := e7 p x hp
      rw [hv] at h1
      obtain rfl := Option.some.inj h1
      refine ⟨y, h2, h3, ?_⟩
      intro c s t hs ht
      have := h4 c s t hs ht
      rwa [abs_of_nonneg (by positivity : (0 : K) ≤ ws.foldl min w0 / 100)] at this
    obtain ⟨q1, q2⟩ := chunks_spec 4 (fun v u => SVJ[v]? = some u) (blockQ dim L.length) (fun r hr => (blockQ_mem dim L.length r hr).1) SF f3 f4
    have hQ : ∀ (i f : ℕ) (q : List ℕ), i < L.length → (quadTable dim)[f]? = some q → ∃ t, (chunks 4 (blockQ dim L.length).length SF)[i + f * L.length]? = some t ∧ t.length = 4 ∧
        ∀ c k : ℕ, q[c]? = some k → ∃ u, t[c]? = some u ∧ SVJ[i + k * L.length]? = some u := by
      intro i f q hi hq
      obtain ⟨t, t1, t2, t3⟩ := q2 _ _ (blockQ_get dim L.length f i hi q hq)
      refine ⟨t, t1, t2, ?_⟩
      intro c k hc
      exact t3 c (i + k * L.length) (by rw [List.getElem?_map, hc]; rfl)
    have hlen : (chunks 4 (blockQ dim L.length).length SF).length = (quadTable dim).length * L.length := by rw [q1, blockQ_length]
    rcases hd with hd2 | hd3
    · refine ⟨SV, chunks 4 (blockQ dim L.length).length SF, [SVJ], ws.foldl min w0, ?_, ⟨cm, hcm, ecm⟩, fun c hc => m2 _ (List.mem_map.mpr ⟨c, hc, rfl⟩), hlen, hV, hinj,
        ⟨fun p v => SVJ[p]? = some v, hJ1, hJ2, hQ, fun h => by omega⟩, fun _ => ⟨SVJ, rfl, by rw [e3, blockV_length, hns, if_pos hd2]⟩⟩
      unfold badQuadMesh
      simp only [← hL]
      rw [hWs]
      simp only [f2, Option.bind_some, if_pos hd2, Option.map_some]
    · obtain ⟨SV2, SVI2, SVJ2, SF2, g1, g2, g3, g4, _⟩ := C17_faces (blockV L) (ws.foldl min w0 / 100) (blockH L.length).flatten (by
        intro v hv
        obtain ⟨r, hr, hv⟩ := List.mem_flatten.mp hv
        rw [blockV_length, hns, if_neg (by omega)]
        exact (blockH_mem L.length r hr).2 v hv)
      rw [f1] at g1
      simp only [Option.some.injEq, Prod.mk.injEq] at g1
      obtain ⟨rfl, rfl, rfl⟩ := g1
      have htake : npTake SVJ ((blockH L.length).flatten.map (fun k : ℕ => (k : Int))) = some SF2 := by
        unfold removeDuplicateVerticesFaces at g2
        rw [f1, Option.bind_some] at g2
        obtain ⟨s, hs, e⟩ := Option.map_eq_some_iff.mp g2
        simp only [Prod.mk.injEq, true_and] at e
        rw [← e]; exact hs
      obtain ⟨p1, p2⟩ := chunks_spec 8 (fun v u => SVJ[v]? = some u) (blockH L.length) (fun r hr => (blockH_mem L.length r hr).1) SF2 g3 g4
      have hbl : (blockH L.length).length = L.length := by simp [blockH]
      rw [hbl] at p1 p2
      refine ⟨SV, chunks 4 (blockQ dim L.length).length SF, chunks 8 L.length SF2, ws.foldl min w0, ?_, ⟨cm, hcm, ecm⟩, fun c hc => m2 _ (List.mem_map.mpr ⟨c, hc, rfl⟩), hlen, hV, hinj,
        ⟨fun p v => SVJ[p]? = some v, hJ1, hJ2, hQ, fun _ => ⟨p1, ?_⟩⟩, fun h => by omega⟩
      · unfold badQuadMesh
        simp only [← hL]
        rw [hWs]
        simp only [f2, Option.bind_some, if_neg (by omega : ¬ dim = 2), htake, Option.map_some]
      · intro i hi
        obtain ⟨t, t1, t2, t3⟩ := p2 i ((List.range 8).map (fun k => i + k * L.length)) (by simp [blockH, hi])
        refine ⟨t, t1, t2, ?_⟩
        intro k hk
        exact t3 k (i + k * L.length) (by simp [hk])

/-! ## quadtrees: the corners lie on a grid -/

theorem corner_eq (c : QuadCell K dim) (s : Fin dim → Bool) (l : List Int) (h : ∀ j : Fin dim, l.getD j.val 0 = if s j then 1 else -1) : cornerK dim c l = corner c s := by
  unfold cornerK corner
  refine List.map_congr_left (fun j _ => ?_)
  rw [h j]
  unfold QuadCell.lo QuadCell.hi
  cases s j <;> simp <;> ring

theorem signs2 (k : Fin 4) : ∃ l, (signs 2)[k.val]? = some l ∧ ∀ j : Fin 2, l.getD j.val 0 = if ring k j then 1 else -1 := by
  revert k; decide

theorem signs3 (k : Fin 8) : ∃ l, (signs 3)[k.val]? = some l ∧ ∀ j : Fin 3, l.getD j.val 0 = if hex k j then 1 else -1 := by
  revert k; decide

/-- all entries of the corners, and the widths, on the grid of the smallest width -/
theorem grid {c0 : Fin dim → K} {w0 : K} (hw0 : 0 < w0) {Q : Quad K dim} {ad : ℕ → Fin dim → ℕ} (h : QInv c0 w0 Q ad) (cm : QuadCell K dim) (hcm : cm ∈ Q.cells)
    (c : QuadCell K dim) (hc : c ∈ Q.cells) (hle : cm.W ≤ c.W) (j : Fin dim) : (∃ n : ℤ, c.lo j = c0 j - w0 / 2 + n * cm.W) ∧ ∃ n : ℤ, c.hi j = c0 j - w0 / 2 + n * cm.W := by
  obtain ⟨i, hi⟩ := List.mem_iff_getElem?.mp hc
  obtain ⟨i', hi'⟩ := List.mem_iff_getElem?.mp hcm
  obtain ⟨_, g2, _⟩ := h.geom i c hi
  obtain ⟨_, g2', _⟩ := h.geom i' cm hi'
  have hD : c.D - 1 ≤ cm.D - 1 := by
    by_contra hlt
    push Not at hlt
    have : c.W < cm.W := by
      rw [g2, g2']
      exact div_lt_div_of_pos_left hw0 (by positivity) (pow_lt_pow_right₀ (by norm_num) hlt)
    exact absurd hle (not_le.mpr this)
  obtain ⟨e, he⟩ := Nat.exists_eq_add_of_le hD
  constructor
  · refine ⟨(ad i j * 2 ^ e : ℕ), ?_⟩
    rw [h.lo_eq hi j, g2', he, pow_add]
    push_cast
    field_simp
  · refine ⟨((ad i j + 1) * 2 ^ e : ℕ), ?_⟩
    rw [h.hi_eq hi j, g2', he, pow_add]
    push_cast
    field_simp

theorem near_eq (w s t : K) (hw : 0 < w) (h : |s - t| ≤ w / 100) (b : K) (n m : ℤ) (hs : s = b + n * w) (ht : t = b + m * w) : s = t := by
  have h1 : s - t = ((n - m : ℤ) : K) * w := by rw [hs, ht]; push_cast; ring
  by_contra hne
  have hnm : n - m ≠ 0 := by
    intro h0
    rw [h0] at h1
    exact hne (by simpa [sub_eq_zero] using h1)
  have h2 : (1 : K) ≤ |((n - m : ℤ) : K)| := by
    rw [← Int.cast_abs]
    exact_mod_cast Int.one_le_abs hnm
  rw [h1, abs_mul, abs_of_pos hw] at h
  nlinarith

end Gpy.BadQuad
