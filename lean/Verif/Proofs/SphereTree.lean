import Verif.Model.SphereTree
import Verif.Proofs.SquaredDistance
import Mathlib.Data.List.Perm.Basic
import Mathlib.Data.List.Perm.Subperm
import Mathlib.Tactic.Abel

/-!
# The tree of spheres: proofs
-/

set_option autoImplicit false
namespace Gpy.Arcs
open Classical

variable {d : ℕ}

/-- the spheres of a tree -/
def Tree.sphs : Tree d → List (Sph d)
  | .leaf s => [s]
  | .node _ _ l r => l.sphs ++ r.sphs

/-- every box contains the enlarged boxes of its spheres -/
def Tree.Wf (tol : ℝ) : Tree d → Prop
  | .leaf _ => True
  | .node lo hi l r => (∀ s ∈ l.sphs ++ r.sphs, ∀ j, lo j ≤ s.c j - (s.r + tol) ∧ s.c j + (s.r + tol) ≤ hi j) ∧ l.Wf tol ∧ r.Wf tol

/-! ## building -/

theorem foldl_min_le {α : Type} (f : α → ℝ) (L : List α) (a : ℝ) : L.foldl (fun a t => min a (f t)) a ≤ a ∧ ∀ t ∈ L, L.foldl (fun a t => min a (f t)) a ≤ f t := by
  induction L generalizing a with
  | nil => simp
  | cons x L ih =>
    obtain ⟨h1, h2⟩ := ih (min a (f x))
    rw [List.foldl_cons]
    refine ⟨h1.trans (min_le_left _ _), ?_⟩
    intro t ht
    rcases List.mem_cons.mp ht with rfl | ht
    · exact h1.trans (min_le_right _ _)
    · exact h2 t ht

theorem le_foldl_max {α : Type} (f : α → ℝ) (L : List α) (a : ℝ) : a ≤ L.foldl (fun a t => max a (f t)) a ∧ ∀ t ∈ L, f t ≤ L.foldl (fun a t => max a (f t)) a := by
  induction L generalizing a with
  | nil => simp
  | cons x L ih =>
    obtain ⟨h1, h2⟩ := ih (max a (f x))
    rw [List.foldl_cons]
    refine ⟨(le_max_left _ _).trans h1, ?_⟩
    intro t ht
    rcases List.mem_cons.mp ht with rfl | ht
    · exact (le_max_right _ _).trans h1
    · exact h2 t ht

theorem box_spec (tol : ℝ) (s : Sph d) (L : List (Sph d)) : ∀ t ∈ s :: L, ∀ j, boxLo tol s L j ≤ t.c j - (t.r + tol) ∧ t.c j + (t.r + tol) ≤ boxHi tol s L j := by
  intro t ht j
  obtain ⟨a1, a2⟩ := foldl_min_le (fun t : Sph d => t.c j - (t.r + tol)) L (s.c j - (s.r + tol))
  obtain ⟨b1, b2⟩ := le_foldl_max (fun t : Sph d => t.c j + (t.r + tol)) L (s.c j + (s.r + tol))
  rcases List.mem_cons.mp ht with rfl | ht
  · exact ⟨a1, b1⟩
  · exact ⟨a2 t ht, b2 t ht⟩

/-- one step of `halves` -/
noncomputable def hstep (ax : Fin d) (m : ℝ) (g : List (Sph d) × List (Sph d)) (s : Sph d) : List (Sph d) × List (Sph d) :=
  if s.c ax < m then (g.1 ++ [s], g.2)
    else if s.c ax = m then (if g.1.length < g.2.length then (g.1 ++ [s], g.2) else (g.1, g.2 ++ [s]))
    else (g.1, g.2 ++ [s])

theorem hstep_cases (ax : Fin d) (m : ℝ) (g : List (Sph d) × List (Sph d)) (s : Sph d) :
    hstep ax m g s = (g.1 ++ [s], g.2) ∨ hstep ax m g s = (g.1, g.2 ++ [s]) := by
  unfold hstep
  split
  · exact Or.inl rfl
  split
  · split
    · exact Or.inl rfl
    · exact Or.inr rfl
  · exact Or.inr rfl

theorem halves_perm (ax : Fin d) (m : ℝ) (L : List (Sph d)) (g : List (Sph d) × List (Sph d)) :
    ((L.foldl (hstep ax m) g).1 ++ (L.foldl (hstep ax m) g).2).Perm (g.1 ++ g.2 ++ L) ∧ g.1.length ≤ (L.foldl (hstep ax m) g).1.length ∧ g.2.length ≤ (L.foldl (hstep ax m) g).2.length := by
  induction L generalizing g with
  | nil => simp
  | cons s L ih =>
    rw [List.foldl_cons]
    obtain ⟨h1, h2, h3⟩ := ih (hstep ax m g s)
    rcases hstep_cases ax m g s with e | e <;> rw [e] at h1 h2 h3 ⊢
    · refine ⟨h1.trans ?_, by simp at h2; omega, by simpa using h3⟩
      simp only [List.append_assoc]
      refine List.Perm.append_left _ ?_
      simpa using (List.perm_middle (a := s) (l₁ := g.2) (l₂ := L)).symm
    · refine ⟨h1.trans ?_, by simpa using h2, by simp at h3; omega⟩
      simp [List.append_assoc]

/-- an element smaller than `m` goes left; two elements equal to `m` do not both go right; an element equal to `m` goes right unless one is there -/
theorem halves_left (ax : Fin d) (m : ℝ) (L : List (Sph d)) (g : List (Sph d) × List (Sph d)) (h : 0 < g.1.length ∨ (∃ s ∈ L, s.c ax < m) ∨
    (0 < g.2.length ∧ ∃ s ∈ L, s.c ax = m) ∨ 2 ≤ (L.filter (fun s => decide (s.c ax = m))).length) : 0 < (L.foldl (hstep ax m) g).1.length := by
  induction L generalizing g with
  | nil => simpa using h
  | cons s L ih =>
    rw [List.foldl_cons]
    by_cases hs : s.c ax < m
    · refine ih _ (Or.inl ?_)
      unfold hstep; rw [if_pos hs]; simp
    by_cases he : s.c ax = m
    · by_cases hl : g.1.length < g.2.length
      · refine ih _ (Or.inl ?_)
        unfold hstep; rw [if_neg hs, if_pos he, if_pos hl]; simp
      · have e : hstep ax m g s = (g.1, g.2 ++ [s]) := by unfold hstep; rw [if_neg hs, if_pos he, if_neg hl]
        refine ih _ ?_
        rw [e]
        rcases h with h | ⟨t, ht, htm⟩ | ⟨h, _⟩ | h
        · exact Or.inl h
        · rcases List.mem_cons.mp ht with rfl | ht
          · exact absurd htm hs
          · exact Or.inr (Or.inl ⟨t, ht, htm⟩)
        · left; show 0 < g.1.length; omega
        · rw [List.filter_cons, if_pos (by simpa using he), List.length_cons] at h
          right; right; left
          refine ⟨by simp, ?_⟩
          obtain ⟨t, ht⟩ := List.exists_mem_of_length_pos (l := L.filter (fun s => decide (s.c ax = m))) (by omega)
          exact ⟨t, (List.mem_filter.mp ht).1, by simpa using (List.mem_filter.mp ht).2⟩
    · have e : hstep ax m g s = (g.1, g.2 ++ [s]) := by unfold hstep; rw [if_neg hs, if_neg he]
      refine ih _ ?_
      rw [e]
      rcases h with h | ⟨t, ht, htm⟩ | ⟨h, t, ht, htm⟩ | h
      · exact Or.inl h
      · rcases List.mem_cons.mp ht with rfl | ht
        · exact absurd htm hs
        · exact Or.inr (Or.inl ⟨t, ht, htm⟩)
      · rcases List.mem_cons.mp ht with rfl | ht
        · exact absurd htm he
        · exact Or.inr (Or.inr (Or.inl ⟨by simp, t, ht, htm⟩))
      · rw [List.filter_cons, if_neg (by simpa using he)] at h
        exact Or.inr (Or.inr (Or.inr h))

theorem halves_right (ax : Fin d) (m : ℝ) (L : List (Sph d)) (g : List (Sph d) × List (Sph d)) (h : 0 < g.2.length ∨ ∃ s ∈ L, s.c ax = m) : 0 < (L.foldl (hstep ax m) g).2.length := by
  induction L generalizing g with
  | nil => simpa using h
  | cons s L ih =>
    rw [List.foldl_cons]
    by_cases h0 : 0 < g.2.length
    · refine ih _ (Or.inl ?_)
      rcases hstep_cases ax m g s with e | e <;> rw [e] <;> simp [h0]
    · rcases h with h | ⟨t, ht, htm⟩
      · exact absurd h h0
      rcases List.mem_cons.mp ht with rfl | ht
      · refine ih _ (Or.inl ?_)
        unfold hstep
        rw [if_neg (by rw [htm]; exact lt_irrefl m), if_pos htm, if_neg (by omega)]; simp
      · exact ih _ (Or.inr ⟨t, ht, htm⟩)

theorem count_le_of_prefix (l : List ℝ) (m : ℝ) (h : l.Pairwise (· ≤ ·)) (k : ℕ) (hk : l[k]? = some m) (hall : ∀ x ∈ l, m ≤ x) : k + 1 ≤ l.count m := by
  have : ∀ i, i ≤ k → l[i]? = some m := by
    intro i hi
    obtain ⟨hlt, e⟩ := List.getElem?_eq_some_iff.mp hk
    have h1 : l[i]'(by omega) ≤ m := by
      rcases hi.lt_or_eq with h2 | h2
      · rw [← e]; exact List.pairwise_iff_getElem.mp h i k _ _ h2
      · subst h2; exact e.le
    have h2 := hall (l[i]'(by omega)) (List.getElem_mem _)
    rw [List.getElem?_eq_getElem (by omega), le_antisymm h1 h2]
  have ht : l.take (k + 1) = List.replicate (k + 1) m := by
    obtain ⟨hlt, e⟩ := List.getElem?_eq_some_iff.mp hk
    refine List.eq_replicate_iff.mpr ⟨by rw [List.length_take]; omega, ?_⟩
    intro x hx
    obtain ⟨i, hi⟩ := List.mem_iff_getElem?.mp hx
    have hi' : i < k + 1 := by
      have := (List.getElem?_eq_some_iff.mp hi).1
      rw [List.length_take] at this; omega
    rw [List.getElem?_take_of_lt hi', this i (by omega)] at hi
    exact (Option.some.inj hi).symm
  have := (List.take_sublist (k + 1) l).count_le m
  rw [ht, List.count_replicate_self] at this
  exact this

theorem filter_count (ax : Fin d) (m : ℝ) (L : List (Sph d)) : (L.filter (fun s => decide (s.c ax = m))).length = (L.map (fun x => x.c ax)).count m := by
  induction L with
  | nil => simp
  | cons s L ih =>
    rw [List.filter_cons, List.map_cons, List.count_cons, ← ih]
    by_cases h : s.c ax = m <;> simp [h]

theorem median_some (l : List ℝ) (h : l ≠ []) : ∃ m, median l = some m ∧ m ∈ l ∧ ((∃ x ∈ l, x < m) ∨ l.length / 2 + 1 ≤ l.count m) := by
  unfold median
  have hl : (l.insertionSort (· ≤ ·)).length = l.length := List.length_insertionSort _ _
  have hpos := List.length_pos_iff.mpr h
  have hlt : l.length / 2 < (l.insertionSort (· ≤ ·)).length := by rw [hl]; omega
  refine ⟨_, List.getElem?_eq_getElem hlt, ?_, ?_⟩
  · exact (List.perm_insertionSort (· ≤ ·) l).mem_iff.mp (List.getElem_mem _)
  · by_cases hx : ∃ x ∈ l, x < (l.insertionSort (· ≤ ·))[l.length / 2]
    · exact Or.inl hx
    · right
      push Not at hx
      rw [← (List.perm_insertionSort (· ≤ ·) l).count_eq]
      refine count_le_of_prefix _ _ (List.pairwise_insertionSort (· ≤ ·) l) _ (List.getElem?_eq_getElem hlt) ?_
      intro x hx'
      exact hx x ((List.perm_insertionSort (· ≤ ·) l).mem_iff.mp hx')

/-- `init_node` terminates without reading out of range, and the tree has the given spheres, below boxes that contain them -/
theorem build_some [NeZero d] (tol : ℝ) (fuel : ℕ) (L : List (Sph d)) (h0 : L ≠ []) (hf : L.length ≤ fuel + 1) :
    ∃ t, build tol fuel L = some t ∧ t.sphs.Perm L ∧ t.Wf tol := by
  induction fuel generalizing L with
  | zero =>
    match L, h0, hf with
    | [s], _, _ => exact ⟨.leaf s, by rw [build], List.Perm.refl _, trivial⟩
  | succ fuel ih =>
    match L, h0, hf with
    | [s], _, _ => exact ⟨.leaf s, by rw [build], List.Perm.refl _, trivial⟩
    | s :: t :: L, _, hf =>
      rw [build]
      dsimp only
      set ax := splitAxis (fun j => boxHi tol s (t :: L) j - boxLo tol s (t :: L) j) with hax
      obtain ⟨m, hm, hmem, hcase⟩ := median_some ((s :: t :: L).map (fun x => x.c ax)) (by simp)
      rw [hm, Option.bind_some]
      have hg : halves ax m (s :: t :: L) = (s :: t :: L).foldl (hstep ax m) ([], []) := rfl
      obtain ⟨p1, _, _⟩ := halves_perm ax m (s :: t :: L) ([], [])
      have hl : 0 < (halves ax m (s :: t :: L)).1.length := by
        rw [hg]
        refine halves_left ax m _ _ ?_
        rcases hcase with ⟨x, hx, hlt⟩ | hc
        · obtain ⟨y, hy, rfl⟩ := List.mem_map.mp hx
          exact Or.inr (Or.inl ⟨y, hy, hlt⟩)
        · rw [← filter_count] at hc
          right; right; right
          refine le_trans ?_ hc
          simp only [List.length_map, List.length_cons]; omega
      have hr : 0 < (halves ax m (s :: t :: L)).2.length := by
        rw [hg]
        refine halves_right ax m _ _ (Or.inr ?_)
        obtain ⟨y, hy, e⟩ := List.mem_map.mp hmem
        exact ⟨y, hy, e⟩
      rw [← hg] at p1
      set g := halves ax m (s :: t :: L) with hgdef
      have hlen := p1.length_eq
      simp only [List.nil_append, List.length_append, List.length_cons] at hlen
      simp only [List.length_cons] at hf
      obtain ⟨tl, b1, c1, d1⟩ := ih g.1 (List.length_pos_iff.mp hl) (by omega)
      obtain ⟨tr, b2, c2, d2⟩ := ih g.2 (List.length_pos_iff.mp hr) (by omega)
      rw [b1, Option.bind_some, b2, Option.map_some]
      have hp : (tl.sphs ++ tr.sphs).Perm (s :: t :: L) := (c1.append c2).trans (by simpa using p1)
      refine ⟨_, rfl, hp, ?_, d1, d2⟩
      intro x hx
      exact box_spec tol s (t :: L) x (hp.mem_iff.mp hx)

/-! ## searching -/

/-- the labels of the spheres of a list found by a search -/
noncomputable def hits (tol : ℝ) (ignore : ℕ) (p : Pt d) (L : List (Sph d)) : List ℕ :=
  (L.filter (fun s => decide (s.idx ≠ ignore ∧ sphereDist s p < tol))).map (fun s => s.idx)

theorem hits_append (tol : ℝ) (ignore : ℕ) (p : Pt d) (L M : List (Sph d)) : hits tol ignore p (L ++ M) = hits tol ignore p L ++ hits tol ignore p M := by
  simp [hits]

theorem hits_perm (tol : ℝ) (ignore : ℕ) (p : Pt d) {L M : List (Sph d)} (h : L.Perm M) : (hits tol ignore p L).Perm (hits tol ignore p M) := (h.filter _).map _

theorem abs_le_pnorm (x : Pt d) (j : Fin d) : |x j| ≤ pnorm x := by
  unfold pnorm
  rw [← Real.sqrt_sq_eq_abs]
  refine Real.sqrt_le_sqrt ?_
  exact Finset.single_le_sum (f := fun i => x i ^ 2) (fun i _ => sq_nonneg _) (Finset.mem_univ j)

theorem hits_node (tol qtol : ℝ) (hq : qtol ≤ tol) (ignore : ℕ) (p lo hi : Pt d) (L : List (Sph d))
    (h : ∀ s ∈ L, ∀ j, lo j ≤ s.c j - (s.r + tol) ∧ s.c j + (s.r + tol) ≤ hi j) (hp : ¬ InBox lo hi p) : hits qtol ignore p L = [] := by
  unfold hits
  rw [List.map_eq_nil_iff, List.filter_eq_nil_iff]
  rintro s hs hd
  obtain ⟨_, hd⟩ := of_decide_eq_true hd
  refine hp (fun j => ?_)
  have h1 := abs_le_pnorm (p - s.c) j
  have h2 := abs_le.mp h1
  obtain ⟨h3, h4⟩ := h s hs j
  unfold sphereDist at hd
  simp only [Pi.sub_apply] at h2
  constructor <;> linarith [h2.1, h2.2]

theorem bfs_spec (k : ℕ) (tol qtol : ℝ) (hq : qtol ≤ tol) (ignore : ℕ) (p : Pt d) (q : List (Tree d)) (out : List ℕ) (hwf : ∀ t ∈ q, t.Wf tol) (hout : out.length < k) :
    ∃ H, H.Perm (q.flatMap (fun t => hits qtol ignore p t.sphs)) ∧ bfs k qtol ignore p q out = (out ++ H).take k := by
  induction q, out using bfs.induct (k := k) (tol := qtol) (ignore := ignore) (p := p) with
  | case1 out => exact ⟨[], by simp, by rw [bfs, List.append_nil, List.take_of_length_le (by omega)]⟩
  | case2 s q out hs ih =>
    obtain ⟨H, h1, h2⟩ := ih (fun t ht => hwf t (by simp [ht])) hout
    refine ⟨H, ?_, by rw [bfs, if_pos hs, h2]⟩
    simpa [hits, Tree.sphs, hs] using h1
  | case3 s q out hs out' hlen =>
    by_cases hd : sphereDist s p < qtol
    · have e : out' = out ++ [s.idx] := dif_pos hd
      refine ⟨s.idx :: q.flatMap (fun t => hits qtol ignore p t.sphs), ?_, ?_⟩
      · simp [hits, Tree.sphs, hs, hd]
      · rw [bfs, if_neg hs]
        dsimp only
        rw [if_pos hd]
        rw [e] at hlen
        rw [if_pos hlen]
        simp only [List.length_append, List.length_cons, List.length_nil] at hlen
        have hlo : (out ++ [s.idx]).length = k := by rw [List.length_append, List.length_singleton]; omega
        rw [List.append_cons out s.idx (q.flatMap _), List.take_append_of_le_length hlo.ge, List.take_of_length_le hlo.le]
    · have e : out' = out := dif_neg hd
      rw [e] at hlen; omega
  | case4 s q out hs out' hlen ih =>
    have hlen' : out'.length < k := by omega
    obtain ⟨H, h1, h2⟩ := ih (fun t ht => hwf t (by simp [ht])) hlen'
    have hb : bfs k qtol ignore p (.leaf s :: q) out = bfs k qtol ignore p q out' := by
      rw [bfs, if_neg hs]
      have e : out' = if sphereDist s p < qtol then out ++ [s.idx] else out := by
        by_cases hd : sphereDist s p < qtol
        · rw [if_pos hd]; exact dif_pos hd
        · rw [if_neg hd]; exact dif_neg hd
      dsimp only
      rw [← e, if_neg hlen]
    rw [hb, h2]
    by_cases hd : sphereDist s p < qtol
    · have e : out' = out ++ [s.idx] := dif_pos hd
      refine ⟨s.idx :: H, ?_, by rw [e, ← List.append_cons]⟩
      simpa [hits, Tree.sphs, hs, hd] using h1
    · have e : out' = out := dif_neg hd
      refine ⟨H, ?_, by rw [e]⟩
      simpa [hits, Tree.sphs, hs, hd] using h1
  | case5 lo hi l r q out hin ih =>
    have hw := hwf (.node lo hi l r) (by simp)
    simp only [dite_eq_ite] at ih
    obtain ⟨H, h1, h2⟩ := ih (by
      intro t ht
      rcases List.mem_append.mp ht with ht | ht
      · exact hwf t (by simp [ht])
      · split at ht <;> (simp only [List.mem_cons, List.not_mem_nil, or_false] at ht; rcases ht with rfl | rfl)
        · exact hw.2.1
        · exact hw.2.2
        · exact hw.2.2
        · exact hw.2.1) hout
    refine ⟨H, h1.trans ?_, by rw [bfs, if_pos hin, h2]⟩
    rw [List.flatMap_append, List.flatMap_cons, Tree.sphs, hits_append]
    refine List.perm_append_comm.trans (List.Perm.append_right _ ?_)
    split
    · simp
    · simpa using List.perm_append_comm
  | case6 lo hi l r q out hin ih =>
    have hw := hwf (.node lo hi l r) (by simp)
    obtain ⟨H, h1, h2⟩ := ih (fun t ht => hwf t (by simp [ht])) hout
    refine ⟨H, ?_, by rw [bfs, if_neg hin, h2]⟩
    rw [List.flatMap_cons, Tree.sphs, hits_node tol qtol hq ignore p lo hi _ hw.1 hin, List.nil_append]
    exact h1

/-- what a search returns: up to `k` of the spheres that contain the point (`qtol` at most the margin of the tree) -/
theorem search_spec [NeZero d] (tol qtol : ℝ) (hq : qtol ≤ tol) (L : List (Sph d)) (t : Tree d) (fuel : ℕ) (h0 : L ≠ []) (hf : L.length ≤ fuel + 1) (hb : build tol fuel L = some t)
    (p : Pt d) (k : Int) (hk : 1 ≤ k) (ignore : ℕ) (prims : List ℕ) :
    ∃ H : List ℕ, H.Perm (hits qtol ignore p L) ∧ spheresContaining t p k qtol ignore prims = H.take k.toNat := by
  obtain ⟨t', e1, e2, e3⟩ := build_some tol fuel L h0 hf
  rw [hb] at e1
  obtain rfl := Option.some.inj e1
  obtain ⟨H, h1, h2⟩ := bfs_spec k.toNat tol qtol hq ignore p [t] [] (by simpa using e3) (by simp; omega)
  refine ⟨H, ?_, ?_⟩
  · refine h1.trans ?_
    simpa using hits_perm qtol ignore p e2
  · unfold spheresContaining
    rw [if_neg (by omega), h2, List.nil_append]

end Gpy.Arcs
