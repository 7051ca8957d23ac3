import Verif.Model.SplitEdges

/-! Reading and writing the arrays of `split_edges`. -/

set_option autoImplicit false
namespace Gpy

/-- value at key `i` after the assignments `l`, `d` if there is none -/
def lk {κ α : Type} [DecidableEq κ] : List (κ × α) → κ → α → α
  | [], _, d => d
  | (j, x) :: l, i, d => lk l i (if i = j then x else d)

theorem Arr.wr_ok {α : Type} (a : Arr α) (i : ℕ) (x : α) (h : i < a.size) :
    a.wr i x = some ⟨a.size, Function.update a.val i x⟩ := by unfold Arr.wr; rw [if_pos h]

theorem Arr.rd_ok {α : Type} (a : Arr α) (i : ℕ) (h : i < a.size) : a.rd i = some (a.val i) := by unfold Arr.rd; rw [if_pos h]

theorem Arr.wrs_ok {α : Type} (l : List (ℕ × α)) (a : Arr α) (h : ∀ p ∈ l, p.1 < a.size) :
    a.wrs l = some ⟨a.size, fun i => lk l i (a.val i)⟩ := by
  induction l generalizing a with
  | nil => rfl
  | cons p l ih =>
    obtain ⟨j, x⟩ := p
    have hj : j < a.size := h (j, x) (by simp)
    simp only [Arr.wrs, Arr.wr_ok a j x hj, Option.bind_some]
    rw [ih ⟨a.size, Function.update a.val j x⟩ (fun p hp => h p (List.mem_cons_of_mem _ hp))]
    simp only [lk, Function.update_apply]

theorem IMat.rd_ok (a : IMat) (i j : ℕ) (h : i < a.rows) (h' : j < a.cols) : a.rd i j = some (a.val i j) := by
  unfold IMat.rd; rw [if_pos ⟨h, h'⟩]

theorem IMat.wrs_ok (l : List (ℕ × ℕ × ℕ)) (a : IMat) (h : ∀ p ∈ l, p.1 < a.rows ∧ p.2.1 < a.cols) :
    a.wrs l = some ⟨a.rows, a.cols, fun i j => lk (l.map (fun p => ((p.1, p.2.1), p.2.2))) (i, j) (a.val i j)⟩ := by
  induction l generalizing a with
  | nil => rfl
  | cons p l ih =>
    obtain ⟨i0, j0, x⟩ := p
    have hj := h (i0, j0, x) (by simp)
    simp only [IMat.wrs]
    have : a.wr i0 j0 x = some ⟨a.rows, a.cols, Function.update a.val i0 (Function.update (a.val i0) j0 x)⟩ := by
      unfold IMat.wr; rw [if_pos hj]
    rw [this, Option.bind_some, ih ⟨a.rows, a.cols, Function.update a.val i0 (Function.update (a.val i0) j0 x)⟩
      (fun p hp => h p (List.mem_cons_of_mem _ hp))]
    congr 2
    funext i j
    simp only [List.map_cons, lk, Function.update_apply, Prod.mk.injEq]
    congr 1
    by_cases hi : i = i0
    · subst hi; by_cases hj' : j = j0 <;> simp [hj', Function.update_apply]
    · simp [hi]

theorem Arr.wrs_ok' {α : Type} (l : List (ℕ × α)) (a : Arr α) (h : ∀ p ∈ l, p.1 < a.size) :
    ∃ a', a.wrs l = some a' ∧ a'.size = a.size ∧ ∀ i, a'.val i = lk l i (a.val i) := ⟨_, Arr.wrs_ok l a h, rfl, fun _ => rfl⟩

theorem IMat.wrs_ok' (l : List (ℕ × ℕ × ℕ)) (a : IMat) (h : ∀ p ∈ l, p.1 < a.rows ∧ p.2.1 < a.cols) :
    ∃ a', a.wrs l = some a' ∧ a'.rows = a.rows ∧ a'.cols = a.cols ∧
      ∀ i j, a'.val i j = lk (l.map (fun p => ((p.1, p.2.1), p.2.2))) (i, j) (a.val i j) := ⟨_, IMat.wrs_ok l a h, rfl, rfl, fun _ _ => rfl⟩

theorem Arr.wr2_ok (a : Arr (List ℕ)) (i j x : ℕ) (h : i < a.size) (h' : j < (a.val i).length) :
    a.wr2 i j x = some ⟨a.size, Function.update a.val i ((a.val i).set j x)⟩ := by
  unfold Arr.wr2
  rw [Arr.rd_ok a i h, Option.bind_some, if_pos h', Arr.wr_ok a i _ h]

theorem Arr.rd2_ok (a : Arr (List ℕ)) (i j : ℕ) (h : i < a.size) : a.rd2 i j = (a.val i)[j]? := by
  unfold Arr.rd2
  rw [Arr.rd_ok a i h, Option.bind_some]

/-- overwriting both entries of a pair -/
theorem Arr.wrs2_pair (a : Arr (List ℕ)) (i x y : ℕ) (l : List (ℕ × ℕ × ℕ)) (h : i < a.size) (h' : (a.val i).length = 2) :
    a.wrs2 ((i, 0, x) :: (i, 1, y) :: l) = (⟨a.size, Function.update a.val i [x, y]⟩ : Arr (List ℕ)).wrs2 l := by
  obtain ⟨p, q, hpq⟩ := List.length_eq_two.mp h'
  simp only [Arr.wrs2]
  rw [Arr.wr2_ok a i 0 x h (by rw [h']; omega), Option.bind_some,
    Arr.wr2_ok ⟨a.size, Function.update a.val i ((a.val i).set 0 x)⟩ i 1 y h (by simp [h']), Option.bind_some]
  simp [hpq]

theorem fixTwin_ok (A : Arr (List ℕ)) (u old new x y : ℕ) (h : u < A.size) (hv : A.val u = [x, y]) (hxy : x ≠ y) (ho : old = x ∨ old = y) :
    fixTwin A u old new = some ⟨A.size, Function.update A.val u [if x = old then new else x, if y = old then new else y]⟩ := by
  unfold fixTwin
  simp only [Arr.rd2_ok A _ _ h, hv, Option.bind_eq_bind, List.getElem?_cons_zero, Option.bind_some, List.getElem?_cons_succ]
  by_cases hx : x = old
  · subst hx
    rw [if_pos rfl, Arr.wr2_ok A u 0 new h (by simp [hv])]
    simp [hv, hxy.symm]
  · have hy : y = old := by rcases ho with h | h <;> [exact absurd h.symm hx; exact h.symm]
    subst hy
    rw [if_neg hx, if_pos rfl, Arr.wr2_ok A u 1 new h (by simp [hv])]
    simp [hv, hxy]

/-- Table with the rows `f0`, `f1`, `M`, `M+1` replaced; `a`, `b` name the three columns of `f0`, `f1`. -/
def newTab {α : Type} (f0 f1 M a0 a1 b0 b1 : ℕ) (x0 x1 x2 y0 y1 y2 z0 z1 z2 w0 w1 w2 : α) (old : ℕ → ℕ → α) (f c : ℕ) : α :=
  if f = f0 then (if c = a0 then x0 else if c = a1 then x1 else x2)
  else if f = f1 then (if c = b0 then y0 else if c = b1 then y1 else y2)
  else if f = M then (if c = 0 then z0 else if c = 1 then z1 else z2)
  else if f = M + 1 then (if c = 0 then w0 else if c = 1 then w1 else w2)
  else old f c

/-- three consecutive columns, cyclically -/
structure Cyc (a0 a1 a2 : ℕ) : Prop where
  l0 : a0 < 3
  l1 : a1 < 3
  l2 : a2 < 3
  s01 : (a0 + 1) % 3 = a1
  s02 : (a0 + 2) % 3 = a2

namespace Cyc
variable {a0 a1 a2 : ℕ}
theorem s11 (h : Cyc a0 a1 a2) : (a1 + 1) % 3 = a2 := by have := h.s01; have := h.s02; have := h.l0; omega
theorem s12 (h : Cyc a0 a1 a2) : (a1 + 2) % 3 = a0 := by have := h.s01; have := h.s02; have := h.l0; omega
theorem s21 (h : Cyc a0 a1 a2) : (a2 + 1) % 3 = a0 := by have := h.s01; have := h.s02; have := h.l0; omega
theorem s22 (h : Cyc a0 a1 a2) : (a2 + 2) % 3 = a1 := by have := h.s01; have := h.s02; have := h.l0; omega
theorem n01 (h : Cyc a0 a1 a2) : a0 ≠ a1 := by have := h.s01; have := h.s02; have := h.l0; omega
theorem n02 (h : Cyc a0 a1 a2) : a0 ≠ a2 := by have := h.s01; have := h.s02; have := h.l0; omega
theorem n12 (h : Cyc a0 a1 a2) : a1 ≠ a2 := by have := h.s01; have := h.s02; have := h.l0; omega
theorem cases (h : Cyc a0 a1 a2) (c : ℕ) (hc : c < 3) : c = a0 ∨ c = a1 ∨ c = a2 := by
  have := h.s01; have := h.s02; have := h.l0; omega
theorem mk' (c : ℕ) (h : c < 3) : Cyc c ((c + 1) % 3) ((c + 2) % 3) := ⟨h, by omega, by omega, rfl, rfl⟩
end Cyc

theorem hix_inj {N f c f' c' : ℕ} (h : f < N) (h' : f' < N) : f + c * N = f' + c' * N ↔ f = f' ∧ c = c' := by
  constructor
  · intro he
    have h1 : (f + c * N) % N = f := by rw [Nat.add_mul_mod_self_right, Nat.mod_eq_of_lt h]
    have h2 : (f' + c' * N) % N = f' := by rw [Nat.add_mul_mod_self_right, Nat.mod_eq_of_lt h']
    have hf : f = f' := by rw [← h1, ← h2, he]
    refine ⟨hf, ?_⟩
    subst hf
    have : c * N = c' * N := by omega
    exact Nat.eq_of_mul_eq_mul_right (by omega) this
  · rintro ⟨rfl, rfl⟩; rfl

section
variable {f0 f1 M a0 a1 a2 b0 b1 b2 N : ℕ}

theorem lk_pairs {α : Type} (ha : Cyc a0 a1 a2) (hb : Cyc b0 b1 b2) (h01 : f0 ≠ f1) (h0 : f0 < M) (h1 : f1 < M)
    (x0 x1 x2 y0 y1 y2 z0 z1 z2 w0 w1 w2 : α) (old : ℕ → ℕ → α) (f c : ℕ) (hc : c < 3) :
    lk [((f0, a0), x0), ((f0, a1), x1), ((f0, a2), x2), ((f1, b0), y0), ((f1, b1), y1), ((f1, b2), y2),
      ((M, 0), z0), ((M, 1), z1), ((M, 2), z2), ((M + 1, 0), w0), ((M + 1, 1), w1), ((M + 1, 2), w2)] (f, c) (old f c) =
    newTab f0 f1 M a0 a1 b0 b1 x0 x1 x2 y0 y1 y2 z0 z1 z2 w0 w1 w2 old f c := by
  unfold newTab
  simp only [lk, Prod.mk.injEq]
  have hM0 : M ≠ f0 := by omega
  have hM1 : M ≠ f1 := by omega
  have hN0 : M + 1 ≠ f0 := by omega
  have hN1 : M + 1 ≠ f1 := by omega
  by_cases e0 : f = f0
  · subst e0
    have hM0' : f ≠ M := by omega
    have hN0' : f ≠ M + 1 := by omega
    rcases ha.cases c hc with rfl | rfl | rfl <;>
      simp [h01, hM0', hN0', ha.n01, ha.n02, ha.n12, ha.n01.symm, ha.n02.symm, ha.n12.symm]
  by_cases e1 : f = f1
  · subst e1
    have hM0' : f ≠ M := by omega
    have hN0' : f ≠ M + 1 := by omega
    rcases hb.cases c hc with rfl | rfl | rfl <;>
      simp [h01.symm, hM0', hN0', hb.n01, hb.n02, hb.n12, hb.n01.symm, hb.n02.symm, hb.n12.symm]
  by_cases e2 : f = M
  · subst e2
    have : c = 0 ∨ c = 1 ∨ c = 2 := by omega
    rcases this with rfl | rfl | rfl <;> simp [hM0, hM1]
  by_cases e3 : f = M + 1
  · subst e3
    have : c = 0 ∨ c = 1 ∨ c = 2 := by omega
    rcases this with rfl | rfl | rfl <;> simp [hN0, hN1]
  simp [e0, e1, e2, e3]

theorem lk_flat {α : Type} (l : List ((ℕ × ℕ) × α)) (hl : ∀ p ∈ l, p.1.1 < N) (f c : ℕ) (hf : f < N) (d : α) :
    lk (l.map (fun p => (p.1.1 + p.1.2 * N, p.2))) (f + c * N) d = lk l (f, c) d := by
  induction l generalizing d with
  | nil => rfl
  | cons p l ih =>
    obtain ⟨⟨g, e⟩, x⟩ := p
    have hg : g < N := hl ((g, e), x) (by simp)
    simp only [List.map_cons, lk]
    rw [ih (fun p hp => hl p (List.mem_cons_of_mem _ hp))]
    congr 1
    simp only [hix_inj hf hg, Prod.mk.injEq]

theorem lk_col {α : Type} (l : List ((ℕ × ℕ) × α)) (i j : ℕ) (d : α) :
    lk l (i, j) d = lk ((l.filter (fun p => p.1.2 = j)).map (fun p => (p.1.1, p.2))) i d := by
  induction l generalizing d with
  | nil => rfl
  | cons p l ih =>
    obtain ⟨⟨g, e⟩, x⟩ := p
    simp only [lk, List.filter_cons]
    by_cases h : e = j
    · subst h
      simp only [decide_true, if_true, List.map_cons, lk, Prod.mk.injEq, and_true]
      exact ih _
    · have h' : ¬ j = e := fun h'' => h h''.symm
      simp only [h, decide_false, Prod.mk.injEq, h', and_false, if_false]
      exact ih _

end
end Gpy
