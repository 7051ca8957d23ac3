import Verif.Props.SpsrReturns
import Verif.Proofs.Aabb

/-! C124: the grid of `stochastic_poisson_surface_reconstruction`: the default grid, and the order of the returned vertices. -/

set_option autoImplicit false
namespace Gpy.Spsr
open Np Finset

variable {d : ℕ} {bicg : BicgSolver} {solve : LinSolver ℝ} {variance : Bool} {sigmaN sigma : ℝ}

/-- `lo` and `hi` are the corners of the bounding box of the points -/
def IsBox (P : List (Pt d)) (lo hi : Pt d) : Prop := (∀ p ∈ P, ∀ k, lo k ≤ p k ∧ p k ≤ hi k) ∧ ∀ k, (∃ p ∈ P, p k = lo k) ∧ ∃ p ∈ P, p k = hi k

theorem box_scaled {P : List (Pt d)} {lo hi : Pt d} (hne : P ≠ []) (hb : IsBox P lo hi) :
    npAmin (P.map (fun p k => 1.5 * p k)) = some (fun k => 1.5 * lo k) ∧ npAmax (P.map (fun p k => 1.5 * p k)) = some (fun k => 1.5 * hi k) := by
  have hne' : P.map (fun (p : Pt d) k => 1.5 * p k) ≠ [] := by simpa using hne
  obtain ⟨m, e1, e2, e3⟩ := npAmin_spec hne'
  obtain ⟨M, f1, f2, f3⟩ := npAmax_spec hne'
  constructor
  · rw [e1, Option.some.injEq]
    funext k
    apply le_antisymm
    · obtain ⟨p, hp, hk⟩ := (hb.2 k).1
      rw [← hk]
      exact e2 _ (List.mem_map_of_mem hp) k
    · obtain ⟨x, hx, hk⟩ := e3 k
      obtain ⟨p, hp, rfl⟩ := List.mem_map.mp hx
      rw [← hk]
      have := (hb.1 p hp k).1
      linarith
  · rw [f1, Option.some.injEq]
    funext k
    apply le_antisymm
    · obtain ⟨x, hx, hk⟩ := f3 k
      obtain ⟨p, hp, rfl⟩ := List.mem_map.mp hx
      rw [← hk]
      have := (hb.1 p hp k).2
      linarith
    · obtain ⟨p, hp, hk⟩ := (hb.2 k).2
      rw [← hk]
      exact f2 _ (List.mem_map_of_mem hp) k

/-- the grid that is used if the spacing or the corner is not given -/
theorem grid_default {P : List (Pt d)} {lo hi : Pt d} (hne : P ≠ []) (hb : IsBox P lo hi) (gs : Fin d → ℕ) {h corner : Option (Pt d)} (hm : h = none ∨ corner = none) :
    grid P (some gs) h corner = some (gs, fun k => 1.5 * (hi k - lo k) / gs k, fun k => 1.5 * lo k) := by
  obtain ⟨e1, e2⟩ := box_scaled hne hb
  unfold grid
  have : (fun k => (1.5 * hi k - 1.5 * lo k) / (gs k : ℝ)) = (fun k => 1.5 * (hi k - lo k) / gs k) := by funext k; rw [mul_sub]
  rcases hm with rfl | rfl
  · cases corner <;> simp [e1, e2, this]
  · cases h <;> simp [e1, e2, this]

theorem grid_default_none {P : List (Pt d)} : grid P none none none = grid P (some (fun _ => 100)) none none := by
  unfold grid
  simp

/-- if a run returns, every point is in a cell of every staggered grid; one coordinate with positive spacing -/
theorem run_cells {blur : (Fin d → ℕ) → (ℕ → ℝ) → ℕ → ℝ} {prior : Option (Pt d → Pt d)} {P N : List (Pt d)} {gs' : Option (Fin d → ℕ)} {h' corner' : Option (Pt d)} {gs : Fin d → ℕ} {h corner : Pt d}
    {r : List ℝ × Option (List ℝ)} (hg : grid P gs' h' corner' = some (gs, h, corner)) (hr : spsr blur bicg solve prior variance sigmaN sigma P N gs' h' corner' = some r) (k : Fin d) (hk : 0 < h k) (h1 : 1 ≤ gs k) :
    ∀ p ∈ P, corner k + h k / 2 ≤ p k ∧ p k < corner k + ((gs k : ℝ) - 1 / 2) * h k := by
  obtain ⟨mean, var⟩ := r
  obtain ⟨gs0, h0, corner0, dens, comps, G, W, x, g1, g2, g3, -⟩ := spsr_parts hr
  rw [hg, Option.some.injEq, Prod.mk.injEq, Prod.mk.injEq] at g1
  obtain ⟨rfl, rfl, rfl⟩ := g1
  obtain ⟨g, hg', rfl⟩ := comps_eq g3
  intro p hp
  have := hg' k
  unfold component at this
  cases e1 : k1 (gsOff gs k) h (cornerOff h corner k) with
  | none => simp [e1] at this
  | some K1 =>
    cases e2 : k2 (gsOff gs k) h (cornerOff h corner k) P with
    | none => simp [e1, e2] at this
    | some K2 =>
      unfold k2 at e2
      cases hc : P.mapM (cellOf (gsOff gs k) h (cornerOff h corner k)) with
      | none => simp [hc] at e2
      | some cells =>
        obtain ⟨c, hcp⟩ := mapM_mem hc p hp
        unfold cellOf at hcp
        simp only at hcp
        split_ifs at hcp with hin
        obtain ⟨i1, i2⟩ := hin k
        rw [Int.floor_nonneg] at i1
        rw [Int.floor_lt, div_lt_iff₀ hk] at i2
        have i3 : 0 ≤ p k - cornerOff h corner k k := by
          by_contra hneg
          exact absurd i1 (not_le.mpr (div_neg_of_neg_of_pos (not_le.mp hneg) hk))
        simp only [gsOff, cornerOff, Function.update_self] at i2 i3
        push_cast at i2
        rw [Nat.cast_sub h1] at i2
        push_cast at i2
        constructor <;> nlinarith

/-- **C124** (default grid, any dimension).  The default grid does not depend on where the points are relative to each other only: it scales them away from the origin.  If the spacing or the corner is not
given, the function can only return if the origin is inside the bounding box of the points, at a distance of at least one cell from every side (in every coordinate in which the points differ). -/
theorem C124_default_needs_origin {blur : (Fin d → ℕ) → (ℕ → ℝ) → ℕ → ℝ} {prior : Option (Pt d → Pt d)} {P N : List (Pt d)} {lo hi : Pt d} {gs : Fin d → ℕ} {h corner : Option (Pt d)}
    {r : List ℝ × Option (List ℝ)} (hne : P ≠ []) (hb : IsBox P lo hi) (hm : h = none ∨ corner = none)
    (hr : spsr blur bicg solve prior variance sigmaN sigma P N (some gs) h corner = some r) (k : Fin d) (hk : lo k < hi k) (h1 : 1 ≤ gs k) :
    lo k + 1.5 * (hi k - lo k) / gs k ≤ 0 ∧ 0 < hi k - 1.5 * (hi k - lo k) / gs k := by
  have hpos : (0 : ℝ) < gs k := by exact_mod_cast h1
  have hhk : 0 < 1.5 * (hi k - lo k) / gs k := div_pos (mul_pos (by norm_num) (by linarith)) hpos
  have := run_cells (grid_default hne hb gs hm) hr k hhk h1
  obtain ⟨⟨p, hp, ep⟩, ⟨q, hq, eq⟩⟩ := hb.2 k
  have hp' := (this p hp).1
  have hq' := (this q hq).2
  have e : ((gs k : ℝ) - 1 / 2) * (1.5 * (hi k - lo k) / gs k) = 1.5 * (hi k - lo k) - 1 / 2 * (1.5 * (hi k - lo k) / gs k) := by
    rw [sub_mul]
    congr 1
    field_simp
  rw [e] at hq'
  rw [ep] at hp'
  rw [eq] at hq'
  generalize 1.5 * (hi k - lo k) / gs k = t at *
  constructor <;> linarith

/-- **C124** (violated).  Points of which one coordinate is always positive (or always negative) and not constant: with the default grid an exception is raised, for every dimension, every set of options. -/
theorem C124_default_violated {blur : (Fin d → ℕ) → (ℕ → ℝ) → ℕ → ℝ} {prior : Option (Pt d → Pt d)} {P N : List (Pt d)} {k : Fin d} (hk : (∀ p ∈ P, 0 < p k) ∨ ∀ p ∈ P, p k < 0)
    (hd : ∃ p ∈ P, ∃ q ∈ P, p k < q k) : spsr blur bicg solve prior variance sigmaN sigma P N none none none = none := by
  obtain ⟨p0, hp0, q0, hq0, hlt⟩ := hd
  have hne : P ≠ [] := List.ne_nil_of_mem hp0
  obtain ⟨lo, -, e2, e3⟩ := npAmin_spec hne
  obtain ⟨hi, -, f2, f3⟩ := npAmax_spec hne
  have hb : IsBox P lo hi := ⟨fun p hp j => ⟨e2 p hp j, f2 p hp j⟩, fun j => ⟨e3 j, f3 j⟩⟩
  cases hr : spsr blur bicg solve prior variance sigmaN sigma P N none none none with
  | none => rfl
  | some r =>
    exfalso
    have hr' : spsr blur bicg solve prior variance sigmaN sigma P N (some (fun _ => 100)) none none = some r := by
      rw [← hr]
      unfold spsr
      rw [grid_default_none]
    have hlh : lo k < hi k := lt_of_le_of_lt (e2 p0 hp0 k) (lt_of_lt_of_le hlt (f2 q0 hq0 k))
    have := C124_default_needs_origin hne hb (Or.inl rfl) hr' k hlh (by norm_num)
    have hpos : 0 < 1.5 * (hi k - lo k) / ((100 : ℕ) : ℝ) := div_pos (mul_pos (by norm_num) (by linarith)) (by norm_num)
    rcases hk with hk | hk
    · obtain ⟨p, hp, ep⟩ := e3 k
      have := hk p hp
      linarith
    · obtain ⟨p, hp, ep⟩ := f3 k
      have := hk p hp
      linarith

/-- **C124** (default grid, two dimensions): that is also sufficient. -/
theorem C124_default2 {blur : (Fin 2 → ℕ) → (ℕ → ℝ) → ℕ → ℝ} {prior : Option (Pt 2 → Pt 2)} {P N : List (Pt 2)} {lo hi : Pt 2} {gs : Fin 2 → ℕ} (hb : bicg.Total) (hne : P ≠ []) (hbox : IsBox P lo hi)
    (hlt : ∀ k, lo k < hi k) (hg : 8 ≤ gs 0 ∧ 6 ≤ gs 1) :
    (∃ mean, spsr blur bicg solve prior false sigmaN sigma P N (some gs) none none = some (mean, none)) ↔
      ∀ k, lo k + 1.5 * (hi k - lo k) / gs k ≤ 0 ∧ 0 < hi k - 1.5 * (hi k - lo k) / gs k := by
  have hg1 : ∀ k, 1 ≤ gs k := by intro k; fin_cases k <;> simp <;> omega
  have hpos : ∀ k, (0 : ℝ) < gs k := fun k => by exact_mod_cast hg1 k
  have hhk : ∀ k, 0 < 1.5 * (hi k - lo k) / gs k := fun k => div_pos (mul_pos (by norm_num) (by linarith [hlt k])) (hpos k)
  constructor
  · rintro ⟨mean, hr⟩ k
    exact C124_default_needs_origin hne hbox (Or.inl rfl) hr k (hlt k) (hg1 k)
  · intro hc
    have : spsr blur bicg solve prior false sigmaN sigma P N (some gs) none none =
        spsr blur bicg solve prior false sigmaN sigma P N (some gs) (some (fun k => 1.5 * (hi k - lo k) / gs k)) (some (fun k => 1.5 * lo k)) := by
      unfold spsr
      rw [grid_default hne hbox gs (Or.inl rfl), grid_all]
    rw [this]
    refine (C122_returns2 hb hhk hg).mpr ?_
    intro p hp k
    obtain ⟨b1, b2⟩ := hbox.1 p hp k
    obtain ⟨c1, c2⟩ := hc k
    have e : ((gs k : ℝ) - 1 / 2) * (1.5 * (hi k - lo k) / gs k) = 1.5 * (hi k - lo k) - 1 / 2 * (1.5 * (hi k - lo k) / gs k) := by
      rw [sub_mul]
      congr 1
      have := (hpos k).ne'
      field_simp
    rw [e]
    generalize 1.5 * (hi k - lo k) / gs k = t at *
    constructor <;> linarith

/-- **C124** (violated).  A spacing without a corner, or a corner without a spacing, is ignored if the number of nodes is given. -/
theorem C124_spacing_ignored_violated {blur : (Fin d → ℕ) → (ℕ → ℝ) → ℕ → ℝ} {prior : Option (Pt d → Pt d)} {P N : List (Pt d)} {gs : Fin d → ℕ} (h corner : Pt d) :
    spsr blur bicg solve prior variance sigmaN sigma P N (some gs) (some h) none = spsr blur bicg solve prior variance sigmaN sigma P N (some gs) none none ∧
    spsr blur bicg solve prior variance sigmaN sigma P N (some gs) none (some corner) = spsr blur bicg solve prior variance sigmaN sigma P N (some gs) none none := by
  constructor <;> · unfold spsr grid; simp

/-- **C124** (vertices, two dimensions).  The `j`-th value of the mean (and of the variance) belongs to the `j`-th entry of the returned vertices, read in C order. -/
theorem C124_vertices2 (gs : Fin 2 → ℕ) (h corner : Pt 2) : gridVertices2 gs h corner = nodes gs h corner ∧
    ∀ x y, x < gs 0 → y < gs 1 → (gridVertices2 gs h corner)[x + gs 0 * y]? = some ![corner 0 + x * h 0, corner 1 + y * h 1] := by
  have e : gridVertices2 gs h corner = nodes gs h corner := by
    unfold gridVertices2 nodes
    rw [size2]
    have : ∀ n, (List.range n).flatMap (fun j : ℕ => (List.range (gs 0)).map (fun i : ℕ => (![corner 0 + i * h 0, corner 1 + j * h 1] : Pt 2))) =
        (List.range (gs 0 * n)).map (fun j => ![corner 0 + ((j % gs 0 : ℕ) : ℝ) * h 0, corner 1 + ((j / gs 0 : ℕ) : ℝ) * h 1]) := by
      intro n
      induction n with
      | zero => simp
      | succ n ih =>
        rw [List.range_succ, List.flatMap_append, ih, Nat.mul_succ, List.range_add, List.map_append]
        congr 1
        simp only [List.flatMap_cons, List.flatMap_nil, List.append_nil, List.map_map]
        refine List.map_congr_left (fun i hi => ?_)
        obtain ⟨d1, d2⟩ := decode2 (y := n) (List.mem_range.mp hi)
        simp only [Function.comp_apply]
        rw [Nat.add_comm (gs 0 * n) i, d1, d2]
    rw [this]
    refine List.map_congr_left (fun j hj => ?_)
    rw [List.mem_range] at hj
    have h0 : 0 < gs 0 := by
      rcases Nat.eq_zero_or_pos (gs 0) with h | h
      · rw [h] at hj; simp at hj
      · exact h
    have := node2_at (gs := gs) (h := h) (corner := corner) (Nat.mod_lt j h0) (Nat.div_lt_of_lt_mul hj)
    rw [Nat.mod_add_div] at this
    exact this.symm
  refine ⟨e, fun x y hx hy => ?_⟩
  rw [e]
  unfold nodes
  rw [List.getElem?_map, List.getElem?_range (by rw [size2]; exact idx_lt2 hx hy), Option.map_some, node2_at hx hy]

/-- **C124** (violated).  In three dimensions the returned vertices are in neither order those of the values: the second value belongs to the node next to the first along the first axis, the second vertex
is next to the first along the third axis in C order, along the second axis in Fortran order. -/
theorem C124_vertices3_violated (gs : Fin 3 → ℕ) (h corner : Pt 3) (hh : ∀ k, 0 < h k) (hg : ∀ k, 2 ≤ gs k) :
    node gs h corner 1 = ![corner 0 + h 0, corner 1, corner 2] ∧
    (gridVertices3 gs h corner)[1]? = some ![corner 0, corner 1, corner 2 + h 2] ∧ (gridVertices3F gs h corner)[1]? = some ![corner 0, corner 1 + h 1, corner 2] ∧
    (gridVertices3 gs h corner)[1]? ≠ some (node gs h corner 1) ∧ (gridVertices3F gs h corner)[1]? ≠ some (node gs h corner 1) := by
  obtain ⟨a, ha⟩ := Nat.exists_eq_add_of_le (hg 0)
  obtain ⟨b, hb⟩ := Nat.exists_eq_add_of_le (hg 1)
  obtain ⟨c, hc⟩ := Nat.exists_eq_add_of_le (hg 2)
  have e1 : node gs h corner 1 = ![corner 0 + h 0, corner 1, corner 2] := by
    have m1 : 1 % gs 0 = 1 := Nat.mod_eq_of_lt (hg 0)
    have m2 : 1 / gs 0 = 0 := Nat.div_eq_of_lt (hg 0)
    funext k
    unfold node
    simp only [List.ofFn_succ, List.ofFn_zero, unravelF, m1, m2, Fin.succ_zero_eq_one]
    fin_cases k <;> simp
  have r : ∀ n, List.range (2 + n) = 0 :: 1 :: (List.range n).map (fun i => i + 2) := by
    intro n
    rw [Nat.add_comm, List.range_succ_eq_map, List.range_succ_eq_map]
    simp [Function.comp_def]
  have e2 : (gridVertices3 gs h corner)[1]? = some ![corner 0, corner 1, corner 2 + h 2] := by
    unfold gridVertices3
    rw [ha, hb, hc, r, r, r]
    simp
  have e3 : (gridVertices3F gs h corner)[1]? = some ![corner 0, corner 1 + h 1, corner 2] := by
    unfold gridVertices3F
    rw [ha, hb, hc, r, r, r]
    simp
  refine ⟨e1, e2, e3, ?_, ?_⟩
  · rw [e1, e2]
    intro he
    rw [Option.some.injEq] at he
    have := congrFun he 0
    simp at this
    exact absurd this (hh 0).ne'
  · rw [e1, e3]
    intro he
    rw [Option.some.injEq] at he
    have := congrFun he 0
    simp at this
    exact absurd this (hh 0).ne'

/-! ### Concrete cases -/

/-- two points around the origin: the default spacing works; the same points moved away from the origin: it does not -/
example : (∃ mean, spsr (fun _ u => u) exactBicg solve none false 0 1 [fun _ => -1, fun _ => 1] [![1, 0], ![0, 1]] (some (fun _ => 8)) none none = some (mean, none)) ∧
    spsr (fun _ u => u) exactBicg solve none false 0 1 [fun _ => 2, fun _ => 4] [![1, 0], ![0, 1]] none none none = none := by
  refine ⟨(C124_default2 (lo := fun _ => -1) (hi := fun _ => 1) exactBicg_total (by simp) ⟨?_, ?_⟩ (by norm_num) (by norm_num)).mpr (by norm_num), C124_default_violated (k := 0) (Or.inl ?_) ?_⟩
  · intro p hp k
    simp only [List.mem_cons, List.not_mem_nil, or_false] at hp
    rcases hp with rfl | rfl <;> norm_num
  · intro k
    exact ⟨⟨_, List.mem_cons_self, rfl⟩, ⟨_, List.mem_cons_of_mem _ List.mem_cons_self, rfl⟩⟩
  · intro p hp
    simp only [List.mem_cons, List.not_mem_nil, or_false] at hp
    rcases hp with rfl | rfl <;> norm_num
  · exact ⟨_, List.mem_cons_self, _, List.mem_cons_of_mem _ List.mem_cons_self, by norm_num⟩

end Gpy.Spsr
