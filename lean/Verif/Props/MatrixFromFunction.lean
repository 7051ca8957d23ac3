import Verif.Proofs.MatrixFromFunction
import Mathlib.Tactic.FinCases
import Mathlib.Tactic.NormNum

/-! # C83: `matrix_from_function` and the covariance matrices of `gaussian_process` -/

set_option autoImplicit false
namespace Gpy
open Np

theorem takeRows_some {α : Type} {X : List α} {I : List ℕ} (h : ∀ i ∈ I, i < X.length) : ∃ l, takeRows X I = some l ∧ l.length = I.length ∧ ∀ (m : ℕ) (x : α), I[m]?.bind (fun i => X[i]?) = some x → l[m]? = some x := by
  unfold takeRows
  induction I with
  | nil => exact ⟨[], rfl, rfl, by simp⟩
  | cons a t ih =>
    obtain ⟨l, h1, h2, h3⟩ := ih (fun i hi => h i (by simp [hi]))
    have ha := h a (by simp)
    refine ⟨X[a] :: l, ?_, by simp [h2], ?_⟩
    · rw [List.mapM_cons, h1, List.getElem?_eq_getElem ha]; rfl
    · intro m x hx
      cases m with
      | zero => simpa [List.getElem?_eq_getElem ha] using hx
      | succ m => simpa using h3 m x (by simpa using hx)

theorem takeRows_raises {α : Type} {X : List α} {I : List ℕ} {l : List α} (h : takeRows X I = some l) : ∀ i ∈ I, i < X.length := by
  unfold takeRows at h
  induction I generalizing l with
  | nil => simp
  | cons a t ih =>
    rw [List.mapM_cons] at h
    cases ha : X[a]? with
    | none => rw [ha] at h; cases h
    | some x =>
      rw [ha] at h
      cases ht : List.mapM (fun i => X[i]?) t with
      | none => rw [ht] at h; cases h
      | some t' =>
        intro i hi
        rcases List.mem_cons.mp hi with rfl | hi
        · exact (List.getElem?_eq_some_iff.mp ha).1
        · exact ih ht i hi

theorem count_sum_pairs (l : List (ℕ × ℕ)) (a : ℕ × ℕ) (v : ℝ) : (l.map (fun p => if p = a then v else 0)).sum = (l.count a : ℝ) * v := by
  induction l with
  | nil => simp
  | cons b t ih =>
    rw [List.map_cons, List.sum_cons, ih, List.count_cons]
    by_cases h : b = a
    · subst h; simp; ring
    · simp [h]

/-- `matrix_from_function` with a pattern -/
theorem mff_pattern {α : Type} (k : α → α → ℝ) (X1 X2 : List α) (I J : List ℕ) (hlen : I.length = J.length) (hI : ∀ i ∈ I, i < X1.length) (hJ : ∀ j ∈ J, j < X2.length) :
    ∃ M, matrixFromFunction (List.zipWith k) X1 X2 (some (I, J)) = some M ∧ M.WF ∧ M.nrows = X1.length ∧ M.ncols = X2.length ∧
      (∀ (i j : ℕ) (x y : α), X1[i]? = some x → X2[j]? = some y → M.get i j = ((I.zip J).count (i, j) : ℝ) * k x y) ∧ (∀ t ∈ M.trip, t.2.2 ≠ 0) ∧ (M.trip.map (fun t => (t.1, t.2.1))).Nodup := by
  obtain ⟨l1, a1, a2, a3⟩ := takeRows_some hI
  obtain ⟨l2, b1, b2, b3⟩ := takeRows_some hJ
  have hM0 : csrMatrix (List.zipWith k l1 l2) I J X1.length X2.length = some ⟨X1.length, X2.length, zip3 I J (List.zipWith k l1 l2)⟩ := by
    unfold csrMatrix
    rw [if_pos]
    refine ⟨by simp [a2, b2, hlen], by simp [a2, b2, hlen], hI, hJ⟩
  have hwf := (csrMatrix_wf hM0).1
  refine ⟨eliminateZeros ⟨X1.length, X2.length, zip3 I J (List.zipWith k l1 l2)⟩, ?_, eliminateZeros_wf hwf, rfl, rfl, ?_, fun t h => ((eliminateZeros_stored _).1 t h).2, (eliminateZeros_stored _).2⟩
  · unfold matrixFromFunction
    simp only [a1, b1, hM0, Option.map_some]
  · intro i j x y hx hy
    rw [eliminateZeros_get]
    have e : (zip3 I J (List.zipWith k l1 l2)).map (fun t => if t.1 = i ∧ t.2.1 = j then t.2.2 else 0) = (I.zip J).map (fun p => if p = (i, j) then k x y else 0) := by
      unfold zip3
      apply List.ext_getElem
      · simp [a2, b2, hlen]
      · intro m h1 h2
        simp only [List.getElem_map, List.getElem_zip, List.getElem_zipWith, Prod.mk.injEq]
        have hm : m < I.length := by simp at h2; omega
        have hm' : m < J.length := by omega
        split
        · next h =>
          obtain ⟨h3, h4⟩ := h
          have c1 := a3 m x (by rw [List.getElem?_eq_getElem hm]; simp [h3, hx])
          have c2 := b3 m y (by rw [List.getElem?_eq_getElem hm']; simp [h4, hy])
          rw [List.getElem?_eq_getElem (by omega)] at c1 c2
          rw [Option.some.inj c1, Option.some.inj c2]
        · rfl
    unfold Csr.get
    simp only
    rw [e, count_sum_pairs]

/-- **C83** (sparse and dense).  If `fun` works row by row, `matrix_from_function` returns the matrix of all values: the sparse form has one stored entry for every non-zero value and no other, the dense
form the same entries. -/
theorem C83_matrix {α : Type} (k : α → α → ℝ) (X1 X2 : List α) :
    (∃ M, matrixFromFunction (List.zipWith k) X1 X2 none = some M ∧ M.nrows = X1.length ∧ M.ncols = X2.length ∧ (∀ (i : Fin X1.length) (j : Fin X2.length), M.get i j = k X1[i] X2[j]) ∧
      (∀ t ∈ M.trip, t.2.2 ≠ 0 ∧ t.1 < X1.length ∧ t.2.1 < X2.length) ∧ (M.trip.map (fun t => (t.1, t.2.1))).Nodup) ∧
    ∃ D, matrixFromFunctionDense (List.zipWith k) X1 X2 = some D ∧ ∀ i j, D i j = k X1[i] X2[j] := by
  constructor
  · obtain ⟨M, h1, h2, h3, h4⟩ := mff_full k X1 X2
    refine ⟨M, h1, h2.rows, h2.cols, fun i j => h2.entry i j _ _ (by simp) (by simp), ?_, h4⟩
    intro t ht
    have := h2.wf t ht
    exact ⟨h3 t ht, by rw [← h2.rows]; exact this.1, by rw [← h2.cols]; exact this.2⟩
  · unfold matrixFromFunctionDense
    simp only
    rw [if_pos (by simp [List.length_flatMap, List.sum_replicate, List.map_const', Nat.mul_comm])]
    refine ⟨_, rfl, fun i j => ?_⟩
    have key : ∀ (X2 : List α) (j : ℕ) (hj : j < X2.length), (List.zipWith k (List.replicate X2.length X1).flatten (X2.flatMap (fun x => List.replicate X1.length x)))[i.val + X1.length * j]? = some (k X1[i] X2[j]) := by
      intro X2
      induction X2 with
      | nil => intro j hj; simp at hj
      | cons a t ih =>
        intro j hj
        simp only [List.length_cons, List.replicate_succ, List.flatten_cons, List.flatMap_cons]
        rw [List.zipWith_append (by simp)]
        cases j with
        | zero =>
          rw [List.getElem?_append_left (by simp)]
          simp
        | succ j =>
          rw [List.getElem?_append_right (by simp; nlinarith [i.isLt])]
          have : i.val + X1.length * (j + 1) - (List.zipWith k X1 (List.replicate X1.length a)).length = i.val + X1.length * j := by
            simp only [List.length_zipWith, List.length_replicate, min_self, Nat.mul_add, Nat.mul_one]
            omega
          rw [this]
          simpa using ih j (by simpa using hj)
    rw [List.getD_eq_getElem?_getD, key X2 j.val j.isLt]
    rfl

/-- **C83** (pattern).  With a sparsity pattern `(I,J)` the entry `(i,j)` is the value times the number of times `(i,j)` occurs in the pattern: the value on the pattern (if it lists every pair once) and zero elsewhere. -/
theorem C83_pattern {α : Type} (k : α → α → ℝ) (X1 X2 : List α) (I J : List ℕ) (hlen : I.length = J.length) (hI : ∀ i ∈ I, i < X1.length) (hJ : ∀ j ∈ J, j < X2.length) :
    ∃ M, matrixFromFunction (List.zipWith k) X1 X2 (some (I, J)) = some M ∧ M.nrows = X1.length ∧ M.ncols = X2.length ∧
      (∀ (i : Fin X1.length) (j : Fin X2.length), M.get i j = ((I.zip J).count (i.val, j.val) : ℝ) * k X1[i] X2[j]) ∧
      ((I.zip J).Nodup → ∀ (i : Fin X1.length) (j : Fin X2.length), M.get i j = if (i.val, j.val) ∈ I.zip J then k X1[i] X2[j] else 0) := by
  obtain ⟨M, h1, -, h2, h3, h4, -⟩ := mff_pattern k X1 X2 I J hlen hI hJ
  have h5 : ∀ (i : Fin X1.length) (j : Fin X2.length), M.get i j = ((I.zip J).count (i.val, j.val) : ℝ) * k X1[i] X2[j] := fun i j => h4 i j _ _ (by simp) (by simp)
  refine ⟨M, h1, h2, h3, h5, fun hn i j => ?_⟩
  rw [h5]
  split
  · next h => rw [List.count_eq_one_of_mem hn h]; simp
  · next h => rw [List.count_eq_zero_of_not_mem h]; simp

/-- **C83** (covariance matrices).  The covariance matrix has one row for every observation at the first points and one column for every observation at the second; with gradients these are the values
followed by the derivatives in each coordinate. -/
theorem C83_covariance {d : ℕ} (query : BallQuery d) (ker : Kernel d) (X1 X2 : List (Pt d)) (g : Bool) :
    ∃ M, covMatrix query ker X1 X2 g none = some M ∧ M.nrows = (obs X1 g).length ∧ M.ncols = (obs X2 g).length ∧
      ∀ (i : Fin (obs X1 g).length) (j : Fin (obs X2 g).length), M.get i j = ker (obs X1 g)[i].2 (obs X2 g)[j].2 (obs X1 g)[i].1 (obs X2 g)[j].1 := by
  obtain ⟨M, h1, h2⟩ := covMatrix_full query ker X1 X2 g
  exact ⟨M, h1, h2.rows, h2.cols, fun i j => h2.entry i j _ _ (by simp) (by simp)⟩

/-- the row of derivative `a` at point `i` is row `(a+1)*n + i` -/
theorem C83_rows {d : ℕ} (X : List (Pt d)) (i : ℕ) (x : Pt d) (h : X[i]? = some x) : (obs X false)[i]? = some (x, none) ∧ (obs X true)[i]? = some (x, none) ∧
    ∀ a : Fin d, (obs X true)[(a.val + 1) * X.length + i]? = some (x, some a) := by
  have hi : i < X.length := (List.getElem?_eq_some_iff.mp h).1
  have key : ∀ (as : List (Option (Fin d))) (a : ℕ) (b : Option (Fin d)), as[a]? = some b → (as.flatMap (fun a => X.map (fun x => (x, a))))[a * X.length + i]? = some (x, b) := by
    intro as
    induction as with
    | nil => intro a b hb; simp at hb
    | cons c t ih =>
      intro a b hb
      rw [List.flatMap_cons]
      cases a with
      | zero =>
        simp only [List.getElem?_cons_zero, Option.some.injEq] at hb
        subst hb
        rw [List.getElem?_append_left (by simpa using hi)]
        simp [h]
      | succ a =>
        rw [List.getElem?_append_right (by simp; nlinarith)]
        have : (a + 1) * X.length + i - (X.map (fun x => (x, c))).length = a * X.length + i := by
          rw [List.length_map, Nat.add_mul]; omega
        rw [this]
        exact ih a b (by simpa using hb)
  refine ⟨by simp [obs, h], ?_, fun a => ?_⟩
  · have := key (none :: (List.finRange d).map some) 0 none rfl
    simpa [obs] using this
  · exact key (none :: (List.finRange d).map some) (a.val + 1) (some a) (by simp)

/-- two points on the line and one test point; a pattern that lists a pair twice doubles the entry -/
example : ∃ M, matrixFromFunction (List.zipWith (fun x y : ℕ => (x : ℝ) + 10 * y)) [1, 2] [3] (some ([1, 1], [0, 0])) = some M ∧ M.get 1 0 = 64 ∧ M.get 0 0 = 0 := by
  obtain ⟨M, h1, -, -, h2, -⟩ := C83_pattern (fun x y : ℕ => (x : ℝ) + 10 * y) [1, 2] [3] [1, 1] [0, 0] rfl (by simp) (by simp)
  refine ⟨M, h1, ?_, ?_⟩
  · have := h2 ⟨1, by simp⟩ ⟨0, by simp⟩
    simp at this
    rw [this]; norm_num
  · have := h2 ⟨0, by simp⟩ ⟨0, by simp⟩
    simpa using this

end Gpy
