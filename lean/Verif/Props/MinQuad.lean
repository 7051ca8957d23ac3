import Verif.Model.MinQuad
import Mathlib.Tactic.LinearCombination
import Mathlib.Tactic.Linarith
import Mathlib.Tactic.FieldSimp
import Mathlib.Algebra.BigOperators.Fin
import Mathlib.Algebra.Order.BigOperators.Group.Finset
import Mathlib.LinearAlgebra.Matrix.ToLin
import Mathlib.LinearAlgebra.FiniteDimensional.Lemmas

/-! C43: `min_quad_with_fixed`, `fixed_dof_solve`. -/

set_option autoImplicit false
namespace Gpy

variable {K : Type} [Field K] [LinearOrder K] [IsStrictOrderedRing K]

/-! ## Specification -/

/-- What is assumed of the factorisation: whenever it returns, the linear system is solved. -/
def LinSolver.Correct (solve : LinSolver K) : Prop :=
  ∀ (ι : Type) [Fintype ι] (M : Matrix ι ι K) (r x : ι → K), solve ι M r = some x → ∀ i, ∑ j, M i j * x j = r i

/-- The objective `1/2 u^T Q u + c^T u` (column `q` of `c`). -/
def qpObjective {n : ℕ} (Q : Matrix (Fin n) (Fin n) K) (c : QArg K) (q : ℕ) (u : Fin n → K) : K :=
  (1 / 2) * ∑ i, ∑ j, u i * Q i j * u j + ∑ i : Fin n, c.entry i q * u i

/-- `u[k] = y` (column `q` of `y`): the unknown number `k[j]` has the value `y[j]`. -/
def FixedValues {n : ℕ} (k : Option (List ℤ)) (y : QArg K) (q : ℕ) (u : Fin n → K) : Prop :=
  ∀ ks, k = some ks → ∀ (j : ℕ) (z : ℤ), ks[j]? = some z → ∃ i : Fin n, (i : ℤ) = z ∧ u i = y.entry j q

/-- `A u = b` (column `q` of `b`) -/
def LinConstraint {n m : ℕ} (A : Matrix (Fin m) (Fin n) K) (b : QArg K) (q : ℕ) (u : Fin n → K) : Prop :=
  ∀ r : Fin m, ∑ i, A r i * u i = b.entry r q

/-! ## Proofs -/

omit [LinearOrder K] [IsStrictOrderedRing K] in
theorem scatter_spec {n : ℕ} (idx : List (Fin n)) (hd : idx.Nodup) (v : Fin idx.length → K) (u0 : Fin n → K) :
    (∀ j, scatter idx v u0 (idx.get j) = v j) ∧ ∀ i, i ∉ idx → scatter idx v u0 i = u0 i := by
  unfold scatter
  have key : ∀ (js : List (Fin idx.length)), js.Nodup → ∀ u : Fin n → K,
      (∀ j ∈ js, js.foldl (fun u j => Function.update u (idx.get j) (v j)) u (idx.get j) = v j) ∧
      ∀ i, (∀ j ∈ js, idx.get j ≠ i) → js.foldl (fun u j => Function.update u (idx.get j) (v j)) u i = u i := by
    intro js
    induction js with
    | nil => intro _ u; exact ⟨by simp, by simp⟩
    | cons a js ih =>
      intro hnd u
      rw [List.nodup_cons] at hnd
      obtain ⟨h1, h2⟩ := ih hnd.2 (Function.update u (idx.get a) (v a))
      constructor
      · intro j hj
        rw [List.foldl_cons]
        rcases List.mem_cons.mp hj with rfl | hj
        · rw [h2 _ ?_, Function.update_self]
          intro j' hj' he
          have := (List.Nodup.get_inj_iff hd).mp he
          exact hnd.1 (this ▸ hj')
        · exact h1 j hj
      · intro i hi
        rw [List.foldl_cons, h2 i (fun j hj => hi j (List.mem_cons_of_mem _ hj)), Function.update_of_ne]
        exact (hi a List.mem_cons_self).symm
  obtain ⟨h1, h2⟩ := key (List.finRange idx.length) (List.nodup_finRange _) u0
  refine ⟨fun j => h1 j (List.mem_finRange j), fun i hi => h2 i (fun j _ he => hi (he ▸ List.get_mem idx j))⟩

theorem complementIdx_mem {n : ℕ} (k : List (Fin n)) (i : Fin n) : i ∈ complementIdx k ↔ i ∉ k := by
  simp [complementIdx, List.mem_finRange]

theorem complementIdx_nodup {n : ℕ} (k : List (Fin n)) : (complementIdx k).Nodup := (List.nodup_finRange n).filter _

omit [LinearOrder K] [IsStrictOrderedRing K] in
theorem sum_get {n : ℕ} (l : List (Fin n)) (f : Fin n → K) : ∑ a : Fin l.length, f (l.get a) = (l.map f).sum := by
  rw [← List.sum_ofFn]
  congr 1
  have := List.map_ofFn (f := l.get) (g := f)
  rw [List.ofFn_get] at this
  exact this.symm

omit [LinearOrder K] [IsStrictOrderedRing K] in
theorem sum_split {n : ℕ} (k : List (Fin n)) (hd : k.Nodup) (f : Fin n → K) :
    ∑ i, f i = ∑ a : Fin (complementIdx k).length, f ((complementIdx k).get a) + ∑ a : Fin k.length, f (k.get a) := by
  rw [sum_get, sum_get, ← List.sum_append, ← List.map_append]
  have hp : (List.finRange n).Perm (complementIdx k ++ k) := by
    rw [List.perm_ext_iff_of_nodup (List.nodup_finRange n)]
    · intro i
      simp only [List.mem_finRange, List.mem_append, complementIdx_mem, true_iff]
      exact (Classical.em (i ∈ k)).symm
    · refine List.Nodup.append (complementIdx_nodup k) hd ?_
      intro i h1 h2
      exact (complementIdx_mem k i).mp h1 h2
  rw [← (hp.map f).sum_eq, ← List.sum_ofFn, List.ofFn_eq_map]

omit [LinearOrder K] [IsStrictOrderedRing K] in
theorem mem_get {n : ℕ} {l : List (Fin n)} {i : Fin n} (h : i ∈ l) : ∃ a, l.get a = i := List.get_of_mem h

/-- the optimality system satisfied by a column: fixed values, the constraint, and stationarity at the free unknowns -/
theorem qpColumn_kkt {solve : LinSolver K} (hs : solve.Correct) {garbage : ℕ → K} {n m : ℕ} {Q : Matrix (Fin n) (Fin n) K}
    {A : Matrix (Fin m) (Fin n) K} {k : List (Fin n)} (hd : k.Nodup) {c : Fin n → K} {b : Fin m → K} {y : Fin k.length → K}
    {u : Fin n → K} (h : qpColumn solve garbage Q A k c b y = some u) :
    (∀ j, u (k.get j) = y j) ∧ (∀ r, ∑ i, A r i * u i = b r) ∧
      ∃ l : Fin m → K, ∀ i, i ∉ k → ∑ j, Q i j * u j + c i + ∑ r, A r i * l r = 0 := by
  unfold qpColumn at h
  by_cases hk : k = []
  · subst hk
    rw [if_pos rfl] at h
    refine ⟨fun j => j.elim0, ?_⟩
    by_cases hm : m = 0
    · subst hm
      rw [if_pos rfl] at h
      have := hs _ _ _ _ h
      exact ⟨fun r => r.elim0, fun _ => 0, fun i _ => by rw [this i]; simp⟩
    · rw [if_neg hm, Option.map_eq_some_iff] at h
      obtain ⟨x, hx, rfl⟩ := h
      have := hs _ _ _ _ hx
      refine ⟨fun r => ?_, fun r => x (Sum.inr r), fun i _ => ?_⟩
      · have h1 := this (Sum.inr r)
        simpa [Fintype.sum_sum_type] using h1
      · have h1 := this (Sum.inl i)
        simp [Fintype.sum_sum_type, Matrix.transpose_apply] at h1
        linear_combination h1
  · rw [if_neg hk] at h
    simp only at h
    split at h
    · cases h
    · split at h
      · rename_i hm
        subst hm
        rw [Option.bind_eq_bind, Option.bind_eq_some_iff] at h
        obtain ⟨x, hx, hu⟩ := h
        rw [Option.some.injEq] at hu
        have h1 := hs _ _ _ _ hx
        obtain ⟨k1, k2⟩ := scatter_spec k hd y (scatter (complementIdx k) x (fun i => garbage i))
        obtain ⟨c1, c2⟩ := scatter_spec (complementIdx k) (complementIdx_nodup k) x (fun i => garbage i)
        rw [hu] at k1 k2
        have hfree : ∀ a, u ((complementIdx k).get a) = x a := fun a => by
          rw [k2 _ ((complementIdx_mem k _).mp (List.get_mem _ a)), c1]
        refine ⟨k1, fun r => r.elim0, fun _ => 0, fun i hi => ?_⟩
        obtain ⟨a, rfl⟩ := mem_get ((complementIdx_mem k i).mpr hi)
        have := h1 a
        rw [sum_split k hd]
        simp only [hfree, k1, Matrix.submatrix_apply, Matrix.mulVec, dotProduct] at this ⊢
        rw [this]; simp
      · rw [Option.bind_eq_bind, Option.bind_eq_some_iff] at h
        obtain ⟨x, hx, hu⟩ := h
        rw [Option.some.injEq] at hu
        have h1 := hs _ _ _ _ hx
        obtain ⟨k1, k2⟩ := scatter_spec k hd y (scatter (complementIdx k) (fun i => x (Sum.inl i)) (fun i => garbage i))
        obtain ⟨c1, c2⟩ := scatter_spec (complementIdx k) (complementIdx_nodup k) (fun i => x (Sum.inl i)) (fun i => garbage i)
        rw [hu] at k1 k2
        have hfree : ∀ a, u ((complementIdx k).get a) = x (Sum.inl a) := fun a => by
          rw [k2 _ ((complementIdx_mem k _).mp (List.get_mem _ a)), c1]
        refine ⟨k1, fun r => ?_, fun r => x (Sum.inr r), fun i hi => ?_⟩
        · have := h1 (Sum.inr r)
          rw [sum_split k hd]
          simp [Fintype.sum_sum_type, Matrix.mulVec, dotProduct] at this
          simp only [hfree, k1]
          simp only [List.get_eq_getElem]
          linear_combination this
        · obtain ⟨a, rfl⟩ := mem_get ((complementIdx_mem k i).mpr hi)
          have := h1 (Sum.inl a)
          rw [sum_split k hd]
          simp [Fintype.sum_sum_type, Matrix.mulVec, dotProduct] at this
          simp only [hfree, k1]
          simp only [List.get_eq_getElem]
          linear_combination this

theorem symmetrize_symm {n : ℕ} (Q : Matrix (Fin n) (Fin n) K) (i j : Fin n) : symmetrize Q i j = symmetrize Q j i := by
  unfold symmetrize
  by_cases h : Q ≠ Q.transpose
  · rw [if_pos h]; simp only [Matrix.smul_apply, Matrix.add_apply, Matrix.transpose_apply, smul_eq_mul]; ring
  · rw [if_neg h]
    have := congrFun (congrFun (not_not.mp h) i) j
    rw [Matrix.transpose_apply] at this
    exact this

theorem symmetrize_quad {n : ℕ} (Q : Matrix (Fin n) (Fin n) K) (u : Fin n → K) :
    ∑ i, ∑ j, u i * symmetrize Q i j * u j = ∑ i, ∑ j, u i * Q i j * u j := by
  unfold symmetrize
  by_cases h : Q ≠ Q.transpose
  · rw [if_pos h]
    have e : ∀ i j, u i * ((1 / 2 : K) • (Q + Q.transpose)) i j * u j = (1 / 2) * (u i * Q i j * u j) + (1 / 2) * (u j * Q j i * u i) := by
      intro i j; simp only [Matrix.smul_apply, Matrix.add_apply, Matrix.transpose_apply, smul_eq_mul]; ring
    simp only [e, Finset.sum_add_distrib, ← Finset.mul_sum]
    rw [Finset.sum_comm (f := fun i j => u j * Q j i * u i)]
    ring
  · rw [if_neg h]

theorem idx_mapM {n : ℕ} : ∀ (ks : List ℤ) (l : List (Fin n)),
    ks.mapM (fun (z : ℤ) => if h : 0 ≤ z ∧ z < (n : ℤ) then some (⟨z.toNat, by omega⟩ : Fin n) else none) = some l →
    ks = l.map (fun i : Fin n => ((i : ℕ) : ℤ))
  | [], l, hl => by simp at hl; subst hl; rfl
  | z :: ks, l, hl => by
    rw [List.mapM_cons] at hl
    simp only [Option.bind_eq_bind, Option.bind_eq_some_iff, Option.pure_def, Option.some.injEq] at hl
    obtain ⟨i, hi, l', hl', rfl⟩ := hl
    split at hi
    · rw [Option.some.injEq] at hi
      subst hi
      rename_i hz
      rw [List.map_cons, ← idx_mapM ks l' hl']
      congr 1
      simp; omega
    · cases hi

theorem checkIdx_spec {n : ℕ} {k : Option (List ℤ)} {kk : List (Fin n)} (h : checkIdx n k = some kk) :
    kk.Nodup ∧ (k = none → kk = []) ∧ ∀ ks, k = some ks → ks = kk.map (fun i : Fin n => ((i : ℕ) : ℤ)) := by
  unfold checkIdx at h
  split at h
  · rw [Option.some.injEq] at h
    subst h
    exact ⟨List.nodup_nil, fun _ => rfl, fun ks h => by cases h⟩
  · cases h
  · rename_i ks0 _ 
    rw [Option.bind_eq_bind, Option.bind_eq_some_iff] at h
    obtain ⟨l, hl, h⟩ := h
    split at h
    · rename_i hn
      rw [Option.some.injEq] at h
      subst h
      refine ⟨hn, (by intro h; cases h), fun ks hks => ?_⟩
      rw [Option.some.injEq] at hks
      subst hks
      exact idx_mapM _ _ hl
    · cases h

omit [LinearOrder K] [IsStrictOrderedRing K] in
/-- the fixed values in terms of the checked index list -/
theorem fixedValues_iff {n : ℕ} {k : Option (List ℤ)} {kk : List (Fin n)} (h : checkIdx n k = some kk) (y : QArg K) (q : ℕ) (u : Fin n → K) :
    FixedValues k y q u ↔ ∀ j : Fin kk.length, u (kk.get j) = y.entry j q := by
  obtain ⟨_, h0, h1⟩ := checkIdx_spec h
  unfold FixedValues
  constructor
  · intro hf j
    cases k with
    | none => rw [h0 rfl] at j; exact j.elim0
    | some ks =>
      obtain ⟨i, hi, he⟩ := hf ks rfl j (kk.get j : ℕ) (by rw [h1 ks rfl]; simp)
      have : i = kk.get j := by apply Fin.ext; exact_mod_cast hi
      rw [← this]; exact he
  · intro hf ks hks j z hz
    rw [h1 ks hks, List.getElem?_map, Option.map_eq_some_iff] at hz
    obtain ⟨i, hi, rfl⟩ := hz
    obtain ⟨hj, hj'⟩ := List.getElem?_eq_some_iff.mp hi
    refine ⟨i, rfl, ?_⟩
    rw [← hj']
    exact hf ⟨j, hj⟩

/-- one column: the optimality of the returned vector -/
theorem qpColumn_optimal {n m : ℕ} {Q : Matrix (Fin n) (Fin n) K} (hQ : ∀ i j, Q i j = Q j i) {A : Matrix (Fin m) (Fin n) K}
    {k : List (Fin n)} {c : Fin n → K} {l : Fin m → K} {u w : Fin n → K}
    (hst : ∀ i, i ∉ k → ∑ j, Q i j * u j + c i + ∑ r, A r i * l r = 0)
    (hk : ∀ i ∈ k, w i = u i) (hA : ∀ r, ∑ i, A r i * w i = ∑ i, A r i * u i) :
    (1 / 2) * ∑ i, ∑ j, w i * Q i j * w j + ∑ i, c i * w i =
      (1 / 2) * ∑ i, ∑ j, u i * Q i j * u j + ∑ i, c i * u i + (1 / 2) * ∑ i, ∑ j, (w i - u i) * Q i j * (w j - u j) := by
  have e1 : ∀ i j, w i * Q i j * w j = u i * Q i j * u j + (w i - u i) * Q i j * (w j - u j) + (w i - u i) * Q i j * u j +
      (w j - u j) * Q j i * u i := by
    intro i j; rw [hQ j i]; ring
  have e2 : ∑ i, ∑ j, w i * Q i j * w j = ∑ i, ∑ j, u i * Q i j * u j + ∑ i, ∑ j, (w i - u i) * Q i j * (w j - u j) +
      2 * ∑ i, ∑ j, (w i - u i) * Q i j * u j := by
    simp only [e1, Finset.sum_add_distrib]
    rw [Finset.sum_comm (f := fun i j => (w j - u j) * Q j i * u i)]
    ring
  have e3 : ∑ i, (w i - u i) * (∑ j, Q i j * u j + c i + ∑ r, A r i * l r) = 0 := by
    refine Finset.sum_eq_zero (fun i _ => ?_)
    by_cases hi : i ∈ k
    · rw [hk i hi]; ring
    · rw [hst i hi]; ring
  have e4 : ∑ i, (w i - u i) * ∑ r, A r i * l r = 0 := by
    simp only [Finset.mul_sum]
    rw [Finset.sum_comm]
    refine Finset.sum_eq_zero (fun r _ => ?_)
    have : ∀ i, (w i - u i) * (A r i * l r) = l r * (A r i * w i - A r i * u i) := fun i => by ring
    simp only [this, ← Finset.mul_sum, Finset.sum_sub_distrib, hA r, sub_self, mul_zero]
  have e5 : ∑ i, ∑ j, (w i - u i) * Q i j * u j = ∑ i, (w i - u i) * ∑ j, Q i j * u j :=
    Finset.sum_congr rfl (fun i _ => by rw [Finset.mul_sum]; exact Finset.sum_congr rfl (fun j _ => by ring))
  have e6 : ∑ i, c i * w i = ∑ i, c i * u i + ∑ i, (w i - u i) * c i := by
    rw [← Finset.sum_add_distrib]; exact Finset.sum_congr rfl (fun i _ => by ring)
  simp only [mul_add, Finset.sum_add_distrib, e4] at e3
  rw [e2, e5, e6]
  linear_combination e3

theorem mapM_range_get {α : Type} (f : ℕ → Option α) : ∀ (N : ℕ) (l : List α), (List.range N).mapM f = some l →
    l.length = N ∧ ∀ (q : ℕ) (u : α), l[q]? = some u → f q = some u
  | N, l, h => by
    have key : ∀ (qs : List ℕ) (l : List α), qs.mapM f = some l → l.length = qs.length ∧ ∀ (q : ℕ) (u : α), l[q]? = some u →
        ∃ a, qs[q]? = some a ∧ f a = some u := by
      intro qs
      induction qs with
      | nil => intro l hl; simp at hl; subst hl; exact ⟨rfl, by simp⟩
      | cons a qs ih =>
        intro l hl
        rw [List.mapM_cons] at hl
        simp only [Option.bind_eq_bind, Option.bind_eq_some_iff, Option.pure_def, Option.some.injEq] at hl
        obtain ⟨x, hx, l', hl', rfl⟩ := hl
        obtain ⟨h1, h2⟩ := ih l' hl'
        refine ⟨by simp [h1], fun q u hq => ?_⟩
        cases q with
        | zero => simp at hq; subst hq; exact ⟨a, rfl, hx⟩
        | succ q => rw [List.getElem?_cons_succ] at hq ⊢; exact h2 q u hq
    obtain ⟨h1, h2⟩ := key _ l h
    rw [List.length_range] at h1
    refine ⟨h1, fun q u hq => ?_⟩
    obtain ⟨a, ha, hf⟩ := h2 q u hq
    obtain ⟨hlt, he⟩ := List.getElem?_eq_some_iff.mp ha
    rw [List.getElem_range] at he
    rw [he]; exact hf

/-- **C43.** Whenever `min_quad_with_fixed` returns, every column `u` of the result has exactly the prescribed values at the
    fixed unknowns and satisfies the linear constraint; if the quadratic form is non-negative on the feasible directions, no
    vector satisfying both has a smaller objective; if it is positive on them, every other one has a larger objective. -/
theorem C43_min_quad {solve : LinSolver K} (hs : solve.Correct) {garbage : ℕ → K} {n m : ℕ} {Q : Matrix (Fin n) (Fin n) K} {c : QArg K}
    {A : Matrix (Fin m) (Fin n) K} {b : QArg K} {k : Option (List ℤ)} {y : QArg K} {cols : List (Fin n → K)}
    (h : minQuadWithFixed solve garbage Q c A b k y = some cols) :
    cols.length = max (max (max c.cp b.cp) y.cp) 1 ∧ ∀ (q : ℕ) (u : Fin n → K), cols[q]? = some u →
      FixedValues k y q u ∧ LinConstraint A b q u ∧
      ((∀ x : Fin n → K, FixedValues k .none q x → LinConstraint A .none q x → 0 ≤ ∑ i, ∑ j, x i * Q i j * x j) →
        ∀ w, FixedValues k y q w → LinConstraint A b q w → qpObjective Q c q u ≤ qpObjective Q c q w) ∧
      ((∀ x : Fin n → K, FixedValues k .none q x → LinConstraint A .none q x → x ≠ 0 → 0 < ∑ i, ∑ j, x i * Q i j * x j) →
        ∀ w, FixedValues k y q w → LinConstraint A b q w → w ≠ u → qpObjective Q c q u < qpObjective Q c q w) := by
  unfold minQuadWithFixed at h
  split at h
  · cases h
  rw [Option.bind_eq_bind, Option.bind_eq_some_iff] at h
  obtain ⟨kk, hk, h⟩ := h
  simp only at h
  split at h
  swap
  · cases h
  obtain ⟨hlen, hcol⟩ := mapM_range_get _ _ _ h
  refine ⟨hlen, fun q u hu => ?_⟩
  obtain ⟨h1, h2, l, h3⟩ := qpColumn_kkt hs (checkIdx_spec hk).1 (hcol q u hu)
  have hfix : FixedValues k y q u := (fixedValues_iff hk y q u).mpr h1
  have hdiff : ∀ w, FixedValues k y q w → LinConstraint A b q w →
      FixedValues k (QArg.none : QArg K) q (fun i => w i - u i) ∧ LinConstraint A (QArg.none : QArg K) q (fun i => w i - u i) ∧
      qpObjective Q c q w = qpObjective Q c q u + (1 / 2) * ∑ i, ∑ j, (w i - u i) * Q i j * (w j - u j) := by
    intro w hw hAw
    have hw' := (fixedValues_iff hk y q w).mp hw
    refine ⟨(fixedValues_iff hk _ q _).mpr (fun j => by rw [hw' j, h1 j]; simp [QArg.entry]), fun r => ?_, ?_⟩
    · simp only [mul_sub, Finset.sum_sub_distrib, hAw r, h2 r, sub_self, QArg.entry]
    · have := qpColumn_optimal (symmetrize_symm Q) (w := w) h3 (fun i hi => by
        obtain ⟨j, rfl⟩ := mem_get hi; rw [hw' j, h1 j]) (fun r => by rw [hAw r, h2 r])
      rw [symmetrize_quad, symmetrize_quad] at this
      have e := symmetrize_quad Q (fun i => w i - u i)
      rw [e] at this
      exact this
  refine ⟨hfix, h2, fun hpsd w hw hAw => ?_, fun hpd w hw hAw hne => ?_⟩
  · obtain ⟨d1, d2, d3⟩ := hdiff w hw hAw
    have := hpsd _ d1 d2
    rw [d3]; linarith
  · obtain ⟨d1, d2, d3⟩ := hdiff w hw hAw
    have := hpd _ d1 d2 (fun h0 => hne (funext fun i => sub_eq_zero.mp (congrFun h0 i)))
    rw [d3]; linarith

/-- **C43.** Whenever `fixed_dof_solve` returns, every column of the result has exactly the prescribed values at the fixed unknowns
    and satisfies the equations `(A u)_i = b_i` of all unknowns that are not fixed. -/
theorem C43_fixed_dof {solve : LinSolver K} (hs : solve.Correct) {garbage : ℕ → K} {n : ℕ} {A : Matrix (Fin n) (Fin n) K}
    {b : QArg K} {k : Option (List ℤ)} {y : QArg K} {cols : List (Fin n → K)} (h : fixedDofSolve solve garbage A b k y = some cols) :
    cols.length = max (max b.cp y.cp) 1 ∧ ∀ (q : ℕ) (u : Fin n → K), cols[q]? = some u →
      FixedValues k y q u ∧ ∀ i : Fin n, (i : ℤ) ∉ k.getD [] → ∑ j, A i j * u j = b.entry i q := by
  unfold fixedDofSolve at h
  split at h
  · cases h
  rw [Option.bind_eq_bind, Option.bind_eq_some_iff] at h
  obtain ⟨kk, hk, h⟩ := h
  simp only at h
  split at h
  swap
  · cases h
  obtain ⟨hlen, hcol⟩ := mapM_range_get _ _ _ h
  refine ⟨hlen, fun q u hu => ?_⟩
  obtain ⟨hd, hk0, hk1⟩ := checkIdx_spec hk
  have hmem : ∀ i : Fin n, (i : ℤ) ∉ k.getD [] → i ∉ kk := by
    intro i hi hik
    cases k with
    | none => rw [hk0 rfl] at hik; cases hik
    | some ks => exact hi (by rw [Option.getD_some, hk1 ks rfl]; exact List.mem_map.mpr ⟨i, hik, rfl⟩)
  have hc := hcol q u hu
  unfold dofColumn at hc
  have hkk := hk
  by_cases hk : kk = []
  · rw [if_pos hk] at hc
    refine ⟨(fixedValues_iff hkk y q u).mpr (fun j => absurd j.2 (by have h0 : kk.length = 0 := List.length_eq_zero_iff.mpr hk; omega)), fun i _ => hs _ _ _ _ hc i⟩
  · rw [if_neg hk] at hc
    simp only at hc
    split at hc
    · cases hc
    · rw [Option.bind_eq_bind, Option.bind_eq_some_iff] at hc
      obtain ⟨x, hx, hu⟩ := hc
      rw [Option.some.injEq] at hu
      have h1 := hs _ _ _ _ hx
      obtain ⟨k1, k2⟩ := scatter_spec kk hd (fun i => y.entry i q) (scatter (complementIdx kk) x (fun i => garbage i))
      obtain ⟨c1, c2⟩ := scatter_spec (complementIdx kk) (complementIdx_nodup kk) x (fun i => garbage i)
      rw [hu] at k1 k2
      have hfree : ∀ a, u ((complementIdx kk).get a) = x a := fun a => by
        rw [k2 _ ((complementIdx_mem kk _).mp (List.get_mem _ a)), c1]
      refine ⟨(fixedValues_iff hkk y q u).mpr k1, fun i hi => ?_⟩
      obtain ⟨a, rfl⟩ := mem_get ((complementIdx_mem kk i).mpr (hmem i hi))
      have := h1 a
      rw [sum_split kk hd]
      simp only [hfree, k1, Matrix.submatrix_apply, Matrix.mulVec, dotProduct] at this ⊢
      rw [this]; ring

/-- the index array is `None`, or nonempty with distinct entries in range -/
def GoodIdx (n : ℕ) (k : Option (List ℤ)) : Prop := ∀ ks, k = some ks → ks ≠ [] ∧ ks.Nodup ∧ ∀ z ∈ ks, 0 ≤ z ∧ z < (n : ℤ)

/-- the number of fixed unknowns -/
def numFixed (k : Option (List ℤ)) : ℕ := (k.getD []).length

theorem idx_mapM_some {n : ℕ} : ∀ ks : List ℤ, (∀ z ∈ ks, 0 ≤ z ∧ z < (n : ℤ)) → ∃ l : List (Fin n),
    ks.mapM (fun (z : ℤ) => if h : 0 ≤ z ∧ z < (n : ℤ) then some (⟨z.toNat, by omega⟩ : Fin n) else none) = some l
  | [], _ => ⟨[], rfl⟩
  | z :: ks, h => by
    obtain ⟨l, hl⟩ := idx_mapM_some ks (fun z hz => h z (List.mem_cons_of_mem _ hz))
    refine ⟨⟨z.toNat, by have := h z List.mem_cons_self; omega⟩ :: l, ?_⟩
    rw [List.mapM_cons, hl, dif_pos (h z List.mem_cons_self)]
    rfl

theorem checkIdx_some {n : ℕ} {k : Option (List ℤ)} (h : GoodIdx n k) :
    ∃ kk : List (Fin n), checkIdx n k = some kk ∧ kk.length = numFixed k := by
  cases k with
  | none => exact ⟨[], rfl, rfl⟩
  | some ks =>
    obtain ⟨h0, h1, h2⟩ := h ks rfl
    cases ks with
    | nil => exact absurd rfl h0
    | cons z ks =>
      obtain ⟨l, hl⟩ := idx_mapM_some _ h2
      have he := idx_mapM _ _ hl
      refine ⟨l, ?_, ?_⟩
      · unfold checkIdx
        simp only
        rw [hl]
        simp only [Option.bind_eq_bind, Option.bind_some]
        rw [if_pos]
        rw [he] at h1
        exact List.Nodup.of_map _ h1
      · unfold numFixed
        rw [Option.getD_some, he, List.length_map]

theorem mapM_range_some {α : Type} {f : ℕ → Option α} (hf : ∀ q, ∃ u, f q = some u) : ∀ qs : List ℕ, ∃ l, qs.mapM f = some l
  | [] => ⟨[], rfl⟩
  | q :: qs => by
    obtain ⟨l, hl⟩ := mapM_range_some hf qs
    obtain ⟨u, hu⟩ := hf q
    exact ⟨u :: l, by rw [List.mapM_cons, hl, hu]; rfl⟩

theorem complementIdx_length {n : ℕ} {k : List (Fin n)} (hd : k.Nodup) : (complementIdx k).length = n - k.length := by
  have := sum_split (K := ℚ) k hd (fun _ => 1)
  simp only [Finset.sum_const, Finset.card_univ, Fintype.card_fin, nsmul_eq_mul, mul_one] at this
  have : n = (complementIdx k).length + k.length := by exact_mod_cast this
  omega

/-- A solver that does not fail on matrices with trivial kernel. -/
def LinSolver.Complete (solve : LinSolver K) : Prop :=
  ∀ (ι : Type) [Fintype ι] (M : Matrix ι ι K), (∀ x : ι → K, (∀ i, ∑ j, M i j * x j = 0) → x = 0) → ∀ r, ∃ x, solve ι M r = some x

theorem kkt_inj {ι : Type} [Fintype ι] {n m : ℕ} {e : ι → Fin n} (he : Function.Injective e) {Q : Matrix (Fin n) (Fin n) K}
    {A : Matrix (Fin m) (Fin n) K}
    (hpd : ∀ d : Fin n → K, (∀ i, i ∉ Set.range e → d i = 0) → (∀ r, ∑ i, A r i * d i = 0) → d ≠ 0 → 0 < ∑ i, ∑ j, d i * Q i j * d j)
    (hA : ∀ l : Fin m → K, (∀ a, ∑ r, A r (e a) * l r = 0) → l = 0) (x : ι → K) (l : Fin m → K)
    (h1 : ∀ a, ∑ a', Q (e a) (e a') * x a' + ∑ r, A r (e a) * l r = 0) (h2 : ∀ r, ∑ a, A r (e a) * x a = 0) : x = 0 ∧ l = 0 := by
  set d := Function.extend e x 0 with hd
  have hde : ∀ a, d (e a) = x a := fun a => by rw [hd, he.extend_apply]
  have hd0 : ∀ i, i ∉ Set.range e → d i = 0 := fun i hi => by
    rw [hd, Function.extend_apply' _ _ _ (fun ⟨a, ha⟩ => hi ⟨a, ha⟩)]; rfl
  have hAd : ∀ r, ∑ i, A r i * d i = 0 := fun r => by
    rw [← h2 r]
    exact (Fintype.sum_of_injective e he _ _ (fun i hi => by rw [hd0 i hi, mul_zero]) (fun a => by rw [hde])).symm
  have hq : ∑ i, ∑ j, d i * Q i j * d j = 0 := by
    have e1 : ∑ i, ∑ j, d i * Q i j * d j = ∑ a, ∑ a', x a * Q (e a) (e a') * x a' := by
      refine (Fintype.sum_of_injective e he _ _ (fun i hi => ?_) (fun a => ?_)).symm
      · rw [hd0 i hi]; simp
      · exact Fintype.sum_of_injective e he _ _ (fun i hi => by rw [hd0 i hi, mul_zero]) (fun a' => by rw [hde, hde])
    have e2 : ∀ a, ∑ a', x a * Q (e a) (e a') * x a' = - ∑ r, l r * (A r (e a) * x a) := by
      intro a
      have h := h1 a
      have e3 : ∑ a', x a * Q (e a) (e a') * x a' = x a * ∑ a', Q (e a) (e a') * x a' := by
        rw [Finset.mul_sum]; exact Finset.sum_congr rfl (fun _ _ => by ring)
      have e4 : ∑ r, l r * (A r (e a) * x a) = x a * ∑ r, A r (e a) * l r := by
        rw [Finset.mul_sum]; exact Finset.sum_congr rfl (fun _ _ => by ring)
      rw [e3, e4]; linear_combination x a * h
    rw [e1, Finset.sum_congr rfl (fun a _ => e2 a), Finset.sum_neg_distrib, Finset.sum_comm]
    simp only [← Finset.mul_sum, h2, mul_zero, Finset.sum_const_zero, neg_zero]
  have hdz : d = 0 := by
    by_contra hne
    have := hpd d hd0 hAd hne
    rw [hq] at this
    exact lt_irrefl _ this
  have hx : x = 0 := by
    funext a
    rw [← hde a, hdz]; rfl
  refine ⟨hx, hA l (fun a => ?_)⟩
  have := h1 a
  rw [hx] at this
  simpa using this

omit [LinearOrder K] [IsStrictOrderedRing K] in
theorem bind_some_of {α β : Type} {o : Option α} (f : α → β) (h : ∃ x, o = some x) : ∃ u, (o.bind fun x => some (f x)) = some u := by
  obtain ⟨x, rfl⟩ := h
  exact ⟨f x, rfl⟩

omit [LinearOrder K] [IsStrictOrderedRing K] in
theorem map_some_of {α β : Type} {o : Option α} (f : α → β) (h : ∃ x, o = some x) : ∃ u, o.map f = some u := by
  obtain ⟨x, rfl⟩ := h
  exact ⟨f x, rfl⟩

/-- **C43.** The function returns for all arguments of admissible shape when the quadratic form is positive on the nonzero feasible
    directions and the constraints are independent on the free unknowns, for every solver that does not fail on matrices with
    trivial kernel. -/
theorem C43_returns {solve : LinSolver K} (hs : solve.Complete)
    (garbage : ℕ → K) {n m : ℕ} (hn : 0 < n) (Q : Matrix (Fin n) (Fin n) K) {c : QArg K}
    (A : Matrix (Fin m) (Fin n) K) {b : QArg K} {k : Option (List ℤ)} {y : QArg K} (hk : GoodIdx n k)
    (hc : c.shapeOk n (max (max c.cp b.cp) y.cp) true) (hb : b.shapeOk m (max (max c.cp b.cp) y.cp) (decide (0 < m)))
    (hy : y.shapeOk (numFixed k) (max (max c.cp b.cp) y.cp) (decide (0 < numFixed k)))
    (hpd : ∀ x : Fin n → K, FixedValues k .none 0 x → LinConstraint A .none 0 x → x ≠ 0 → 0 < ∑ i, ∑ j, x i * Q i j * x j)
    (hA : ∀ l : Fin m → K, (∀ i : Fin n, (i : ℤ) ∉ k.getD [] → ∑ r, A r i * l r = 0) → l = 0) :
    ∃ cols, minQuadWithFixed solve garbage Q c A b k y = some cols := by
  unfold minQuadWithFixed
  rw [if_neg (by omega)]
  obtain ⟨kk, hkk, hl⟩ := checkIdx_some hk
  obtain ⟨hd, hk0, hk1⟩ := checkIdx_spec hkk
  have hmem : ∀ i : Fin n, (i : ℤ) ∈ k.getD [] → i ∈ kk := by
    intro i hi
    cases k with
    | none => cases hi
    | some ks =>
      rw [Option.getD_some, hk1 ks rfl, List.mem_map] at hi
      obtain ⟨i', h1, h2⟩ := hi
      have : i' = i := Fin.ext (by exact_mod_cast h2)
      exact this ▸ h1
  have hpd' : ∀ x : Fin n → K, (∀ i ∈ kk, x i = 0) → (∀ r, ∑ i, A r i * x i = 0) → x ≠ 0 →
      0 < ∑ i, ∑ j, x i * symmetrize Q i j * x j := by
    intro x h1 h2 h3
    rw [symmetrize_quad]
    refine hpd x ((fixedValues_iff hkk _ 0 x).mpr (fun j => ?_)) h2 h3
    rw [h1 _ (List.get_mem kk j)]; rfl
  rw [hkk]
  simp only [Option.bind_eq_bind, Option.bind_some]
  rw [if_pos (by rw [hl]; simp only [Bool.and_eq_true]; exact ⟨⟨hc, hb⟩, hy⟩)]
  apply mapM_range_some
  intro q
  unfold qpColumn
  split
  · rename_i hnil
    have hinj := kkt_inj (e := (id : Fin n → Fin n)) Function.injective_id (Q := symmetrize Q) (A := A)
      (fun d h1 h2 h3 => hpd' d (by rw [hnil]; simp) h2 h3) (fun l hl => hA l (fun i _ => hl i))
    split
    · rename_i hm
      subst hm
      refine hs _ _ (fun x hx => ?_) _
      exact (hinj x 0 (fun a => by simpa using hx a) (fun r => r.elim0)).1
    · refine map_some_of _ (hs _ _ (fun z hz => ?_) _)
      obtain ⟨h1, h2⟩ := hinj (fun i => z (Sum.inl i)) (fun r => z (Sum.inr r))
        (fun a => by simpa [Fintype.sum_sum_type] using hz (Sum.inl a)) (fun r => by simpa [Fintype.sum_sum_type] using hz (Sum.inr r))
      funext i
      cases i with
      | inl i => exact congrFun h1 i
      | inr i => exact congrFun h2 i
  · have hrange : ∀ i, i ∉ Set.range (complementIdx kk).get ↔ i ∈ kk := by
      intro i
      rw [← not_iff_not, not_not, ← complementIdx_mem]
      constructor
      · rintro ⟨a, rfl⟩; exact List.get_mem _ _
      · intro h; obtain ⟨a, ha⟩ := mem_get h; exact ⟨a, ha⟩
    have hinj := kkt_inj (e := (complementIdx kk).get) (List.nodup_iff_injective_get.mp (complementIdx_nodup kk)) (Q := symmetrize Q) (A := A)
      (fun d h1 h2 h3 => hpd' d (fun i hi => h1 i ((hrange i).mpr hi)) h2 h3) (fun l hl => hA l (fun i hi => by
        have : i ∈ complementIdx kk := (complementIdx_mem kk i).mpr (fun h => hi (by
          cases k with
          | none => rw [hk0 rfl] at h; cases h
          | some ks => rw [Option.getD_some, hk1 ks rfl]; exact List.mem_map.mpr ⟨i, h, rfl⟩))
        obtain ⟨a, rfl⟩ := mem_get this
        exact hl a))
    simp only
    rw [if_neg (by rw [complementIdx_length (checkIdx_spec hkk).1]; simp)]
    split
    · rename_i hm
      subst hm
      refine bind_some_of _ (hs _ _ (fun x hx => ?_) _)
      exact (hinj x 0 (fun a => by simpa using hx a) (fun r => r.elim0)).1
    · refine bind_some_of _ (hs _ _ (fun z hz => ?_) _)
      obtain ⟨h1, h2⟩ := hinj (fun i => z (Sum.inl i)) (fun r => z (Sum.inr r))
        (fun a => by simpa [Fintype.sum_sum_type] using hz (Sum.inl a)) (fun r => by simpa [Fintype.sum_sum_type] using hz (Sum.inr r))
      funext i
      cases i with
      | inl i => exact congrFun h1 i
      | inr i => exact congrFun h2 i

/-- **C43.** `fixed_dof_solve` returns for all arguments of admissible shape when the only vector that is zero at the fixed unknowns and solves the homogeneous equations of the free ones is zero, for every solver that does
    not fail on matrices with trivial kernel. -/
theorem C43_dof_returns {solve : LinSolver K} (hs : solve.Complete) (garbage : ℕ → K) {n : ℕ} (hn : 0 < n) (A : Matrix (Fin n) (Fin n) K) {b : QArg K} {k : Option (List ℤ)} {y : QArg K} (hk : GoodIdx n k)
    (hb : b.shapeOk n (max b.cp y.cp) true) (hy : y.shapeOk (numFixed k) (max b.cp y.cp) (decide (0 < numFixed k)))
    (hA : ∀ x : Fin n → K, FixedValues k .none 0 x → (∀ i : Fin n, (i : ℤ) ∉ k.getD [] → ∑ j, A i j * x j = 0) → x = 0) :
    ∃ cols, fixedDofSolve solve garbage A b k y = some cols := by
  unfold fixedDofSolve
  rw [if_neg (by omega)]
  obtain ⟨kk, hkk, hl⟩ := checkIdx_some hk
  obtain ⟨hd, hk0, hk1⟩ := checkIdx_spec hkk
  have hmem : ∀ i : Fin n, (i : ℤ) ∉ k.getD [] → i ∉ kk := by
    intro i hi hik
    cases k with
    | none => rw [hk0 rfl] at hik; cases hik
    | some ks => exact hi (by rw [Option.getD_some, hk1 ks rfl]; exact List.mem_map.mpr ⟨i, hik, rfl⟩)
  rw [hkk]
  simp only [Option.bind_eq_bind, Option.bind_some]
  rw [if_pos (by rw [hl]; simp only [Bool.and_eq_true]; exact ⟨hb, hy⟩)]
  apply mapM_range_some
  intro q
  unfold dofColumn
  split
  · rename_i hnil
    refine hs _ _ (fun x hx => hA x ((fixedValues_iff hkk _ 0 x).mpr (fun j => ?_)) (fun i _ => hx i)) _
    exact absurd j.2 (by have h0 : kk.length = 0 := List.length_eq_zero_iff.mpr hnil; omega)
  · simp only
    rw [if_neg (by rw [complementIdx_length hd]; simp)]
    refine bind_some_of _ (hs _ _ (fun x hx => ?_) _)
    obtain ⟨c1, c2⟩ := scatter_spec (complementIdx kk) (complementIdx_nodup kk) x (fun _ => 0)
    have h0 : ∀ i ∈ kk, scatter (complementIdx kk) x (fun _ => 0) i = 0 := fun i hi => c2 i (fun h => (complementIdx_mem kk i).mp h hi)
    have hz := hA (scatter (complementIdx kk) x (fun _ => 0)) ((fixedValues_iff hkk _ 0 _).mpr (fun j => by rw [h0 _ (List.get_mem kk j)]; rfl)) (fun i hi => by
      obtain ⟨a, rfl⟩ := mem_get ((complementIdx_mem kk i).mpr (hmem i hi))
      rw [sum_split kk hd]
      have e1 : ∀ j : Fin kk.length, A ((complementIdx kk).get a) (kk.get j) * scatter (complementIdx kk) x (fun _ => 0) (kk.get j) = 0 := fun j => by
        rw [h0 _ (List.get_mem kk j), mul_zero]
      have := hx a
      simp only [c1, e1, Finset.sum_const_zero, add_zero, zero_add, Matrix.submatrix_apply] at this ⊢
      exact this)
    funext a
    rw [← c1 a, hz]; rfl

omit [LinearOrder K] [IsStrictOrderedRing K] in
/-- **C43.** Both functions refuse an empty matrix and index arrays that are empty, have an entry out of range or an entry twice. -/
theorem C43_refused (solve : LinSolver K) (garbage : ℕ → K) {n m : ℕ} (Q : Matrix (Fin n) (Fin n) K) (c : QArg K) (A : Matrix (Fin m) (Fin n) K) (b : QArg K) (k : Option (List ℤ)) (y : QArg K)
    (h : n = 0 ∨ ¬ GoodIdx n k) : minQuadWithFixed solve garbage Q c A b k y = none ∧ fixedDofSolve solve garbage Q c k y = none := by
  have key : n ≠ 0 → checkIdx n k = none := by
    intro hn
    have hbad := h.resolve_left hn
    cases hck : checkIdx n k with
    | none => rfl
    | some kk =>
      exfalso; apply hbad
      obtain ⟨hd, hk0, hk1⟩ := checkIdx_spec hck
      rintro ks rfl
      have e := hk1 ks rfl
      refine ⟨?_, ?_, ?_⟩
      · rintro rfl; simp [checkIdx] at hck
      · rw [e]; exact hd.map (fun a b hab => Fin.ext (by exact_mod_cast hab))
      · intro z hz
        rw [e] at hz
        obtain ⟨i, -, rfl⟩ := List.mem_map.mp hz
        have := i.2
        omega
  unfold minQuadWithFixed fixedDofSolve
  by_cases hn : n = 0
  · rw [if_pos hn, if_pos hn]; exact ⟨rfl, rfl⟩
  · rw [if_neg hn, if_neg hn, key hn]; exact ⟨rfl, rfl⟩

open Classical in
/-- a solver meeting the contract -/
noncomputable def exactSolver : LinSolver K := fun ι _ M r =>
  if h : ∃ x : ι → K, ∀ i, ∑ j, M i j * x j = r i then some h.choose else none

omit [LinearOrder K] [IsStrictOrderedRing K] in
theorem exactSolver_correct : (exactSolver : LinSolver K).Correct := by
  intro ι _ M r x h
  unfold exactSolver at h
  split at h
  · rename_i hx
    rw [Option.some.injEq] at h
    rw [← h]; exact hx.choose_spec
  · cases h

omit [LinearOrder K] [IsStrictOrderedRing K] in
theorem exactSolver_complete : (exactSolver : LinSolver K).Complete := by
  intro ι _ M hM r
  have hinj : Function.Injective M.mulVecLin := by
    rw [injective_iff_map_eq_zero]
    intro x hx
    exact hM x (fun i => congrFun hx i)
  obtain ⟨x, hx⟩ := LinearMap.injective_iff_surjective.mp hinj r
  unfold exactSolver
  rw [dif_pos ⟨x, fun i => congrFun hx i⟩]
  exact ⟨_, rfl⟩

/-- The hypotheses are met, e.g. by minimising `1/2 |u|^2` over the `u` with `u[2] = 5` and `u[0]+u[1] = 1`. -/
theorem C43_example : ∃ cols, minQuadWithFixed exactSolver (fun _ => 7) (1 : Matrix (Fin 3) (Fin 3) ℚ) .none
    (Matrix.of ![![1, 1, 0]] : Matrix (Fin 1) (Fin 3) ℚ) (.scalar 1) (some [2]) (.vec [5]) = some cols := by
  refine C43_returns exactSolver_complete _ (by norm_num) _ _ ?_ (by decide) (by decide) (by decide) ?_ ?_
  · intro ks h; cases h; exact ⟨by decide, by decide, by decide⟩
  · intro x _ _ hx
    obtain ⟨i, hi⟩ := Function.ne_iff.mp hx
    have : ∑ i, ∑ j, x i * (1 : Matrix (Fin 3) (Fin 3) ℚ) i j * x j = ∑ i, x i * x i := by
      refine Finset.sum_congr rfl (fun i _ => ?_)
      simp [Matrix.one_apply]
    rw [this]
    exact Finset.sum_pos' (fun i _ => mul_self_nonneg _) ⟨i, Finset.mem_univ _, mul_self_pos.mpr hi⟩
  · intro l h
    have := h 0 (by decide)
    funext r
    have hr : r = 0 := Subsingleton.elim _ _
    subst hr
    simpa using this

end Gpy
