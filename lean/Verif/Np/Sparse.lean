import Mathlib.Algebra.BigOperators.Group.Finset.Basic
import Mathlib.Algebra.BigOperators.Ring.Finset
import Mathlib.Algebra.Ring.Defs
import Mathlib.Algebra.Order.BigOperators.Group.List
import Mathlib.Tactic.Ring
import Mathlib.Tactic.Abel

/-!
# scipy sparse matrices

`scipy.sparse.csr_matrix((data,(i,j)), shape=(r,c))` sums the entries of duplicate index pairs (documented), and raises
`ValueError` if an index is out of the shape.
-/

namespace Np
open Finset

/-- A sparse matrix in coordinate form. -/
structure Csr (K : Type*) where
  nrows : ℕ
  ncols : ℕ
  trip : List (ℕ × ℕ × K)

variable {K : Type*}

/-- the triples `(i_k, j_k, data_k)` -/
def zip3 (rows cols : List ℕ) (data : List K) : List (ℕ × ℕ × K) := rows.zip (cols.zip data)

/-- `csr_matrix((data,(rows,cols)), shape=(r,c))`; `none` = `ValueError` (length mismatch or index out of range). -/
def csrMatrix (data : List K) (rows cols : List ℕ) (r c : ℕ) : Option (Csr K) :=
  if rows.length = data.length ∧ cols.length = data.length ∧ (∀ i ∈ rows, i < r) ∧ (∀ j ∈ cols, j < c) then
    some ⟨r, c, zip3 rows cols data⟩
  else none

/-- `M[i,j]` : duplicates are summed. -/
def Csr.get [AddCommMonoid K] (M : Csr K) (i j : ℕ) : K :=
  (M.trip.map (fun t => if t.1 = i ∧ t.2.1 = j then t.2.2 else 0)).sum

/-- `scipy.sparse.diags(d)`. -/
def Csr.diags (d : List K) : Csr K := ⟨d.length, d.length, d.zipIdx.map (fun p => (p.2, p.2, p.1))⟩

/-- Matrix times vector, `(M @ u)[i]`. -/
def Csr.mulVec [Semiring K] (M : Csr K) (u : ℕ → K) (i : ℕ) : K := ∑ j ∈ range M.ncols, M.get i j * u j

/-- Entry of a matrix product, `(A @ B)[i,k]`. -/
def Csr.mulGet [Semiring K] (A B : Csr K) (i k : ℕ) : K := ∑ j ∈ range A.ncols, A.get i j * B.get j k

/-- indices within the shape -/
def Csr.WF (M : Csr K) : Prop := ∀ t ∈ M.trip, t.1 < M.nrows ∧ t.2.1 < M.ncols

theorem zip3_append {r1 r2 c1 c2 : List ℕ} {d1 d2 : List K} (h1 : r1.length = d1.length) (h2 : c1.length = d1.length) :
    zip3 (r1 ++ r2) (c1 ++ c2) (d1 ++ d2) = zip3 r1 c1 d1 ++ zip3 r2 c2 d2 := by
  unfold zip3
  rw [List.zip_append h2, List.zip_append (by simp [h1, h2])]

theorem zip3_map {α : Type*} (l : List α) (f g : α → ℕ) (h : α → K) :
    zip3 (l.map f) (l.map g) (l.map h) = l.map (fun x => (f x, g x, h x)) := by
  unfold zip3
  induction l with
  | nil => rfl
  | cons a t ih => simp only [List.map_cons, List.zip_cons_cons, ih]

theorem csrMatrix_wf {data : List K} {rows cols : List ℕ} {r c : ℕ} {M : Csr K}
    (h : csrMatrix data rows cols r c = some M) : M.WF ∧ M.nrows = r ∧ M.ncols = c ∧ M.trip = zip3 rows cols data := by
  unfold csrMatrix at h
  split at h
  · next hc =>
    cases h
    refine ⟨?_, rfl, rfl, rfl⟩
    intro t ht
    unfold zip3 at ht
    obtain ⟨t1, t2, t3⟩ := t
    have h1 := (List.of_mem_zip ht)
    exact ⟨hc.2.2.1 _ h1.1, hc.2.2.2 _ (List.of_mem_zip h1.2).1⟩
  · cases h

theorem diags_wf (d : List K) : (Csr.diags d).WF := by
  intro t ht
  unfold Csr.diags at *
  simp only [List.mem_map] at ht
  obtain ⟨⟨a, k⟩, hp, rfl⟩ := ht
  rw [List.mem_zipIdx_iff_getElem?] at hp
  have := (List.getElem?_eq_some_iff.mp hp).1
  exact ⟨this, this⟩

section semiring
variable [Semiring K]

theorem sum_range_ite_mul (n c : ℕ) (hc : c < n) (p : Prop) [Decidable p] (v : K) (u : ℕ → K) :
    ∑ j ∈ range n, (if p ∧ c = j then v else 0) * u j = if p then v * u c else 0 := by
  by_cases hp : p
  · simp only [hp, true_and, if_true]
    rw [Finset.sum_eq_single c]
    · simp
    · intro b _ hb; rw [if_neg (fun h => hb h.symm)]; simp
    · intro h; exact absurd (Finset.mem_range.mpr hc) h
  · simp [hp]

theorem mulVec_eq (M : Csr K) (hM : M.WF) (u : ℕ → K) (i : ℕ) :
    M.mulVec u i = (M.trip.map (fun t => if t.1 = i then t.2.2 * u t.2.1 else 0)).sum := by
  unfold Csr.mulVec Csr.get
  have hM' : ∀ t ∈ M.trip, t.2.1 < M.ncols := fun t ht => (hM t ht).2
  revert hM'
  generalize M.trip = T
  intro hT
  induction T with
  | nil => simp
  | cons a t ih =>
    simp only [List.map_cons, List.sum_cons, add_mul, Finset.sum_add_distrib]
    rw [ih (fun x hx => hT x (by simp [hx])), sum_range_ite_mul _ _ (hT a (by simp))]

theorem mulVec_add (M : Csr K) (u w : ℕ → K) (i : ℕ) : M.mulVec (fun j => u j + w j) i = M.mulVec u i + M.mulVec w i := by
  unfold Csr.mulVec; rw [← Finset.sum_add_distrib]; apply Finset.sum_congr rfl; intros; rw [mul_add]

theorem mulVec_single (M : Csr K) (i k : ℕ) (hM : M.WF) :
    M.mulVec (fun j => if j = k then 1 else 0) i = M.get i k := by
  rw [mulVec_eq M hM]
  unfold Csr.get
  congr 1
  apply List.map_congr_left
  intro t _
  by_cases h1 : t.1 = i <;> by_cases h2 : t.2.1 = k <;> simp [h1, h2]

theorem mulGet_eq_mulVec (A B : Csr K) (i k : ℕ) : A.mulGet B i k = A.mulVec (fun j => B.get j k) i := rfl

end semiring

/-! ### sums over `zipIdx` -/

theorem sum_zipIdx_single {α : Type*} [AddCommMonoid K] (l : List α) (g : α → K) (k n : ℕ) :
    ((l.zipIdx n).map (fun p => if p.2 = k then g p.1 else 0)).sum = if n ≤ k then ((l[k - n]?).map g).getD 0 else 0 := by
  induction l generalizing n with
  | nil => simp
  | cons a t ih =>
    rw [List.zipIdx_cons, List.map_cons, List.sum_cons, ih]
    by_cases h : n = k
    · subst h; simp
    · by_cases h2 : n ≤ k
      · have h3 : n + 1 ≤ k := by omega
        have h4 : k - n = (k - (n + 1)) + 1 := by omega
        simp only [h, if_false, h2, if_true, h3, zero_add, h4, List.getElem?_cons_succ]
      · simp [h, h2, show ¬ (n + 1 ≤ k) by omega]

theorem sum_map_zipIdx_eq_range {α : Type*} [AddCommMonoid K] (l : List α) (g : α → ℕ → K) :
    ((l.zipIdx).map (fun p => g p.1 p.2)).sum = ∑ k ∈ range l.length, ((l[k]?).map (fun a => g a k)).getD 0 := by
  induction l using List.reverseRecOn with
  | nil => simp
  | append_singleton t a ih =>
    rw [List.zipIdx_append, List.map_append, List.sum_append, ih, List.length_append]
    simp only [List.length_cons, List.length_nil, zero_add, Finset.sum_range_succ]
    congr 1
    · apply Finset.sum_congr rfl
      intro k hk
      rw [List.getElem?_append_left (Finset.mem_range.mp hk)]
    · simp

theorem getElem?_diags_get [AddCommMonoid K] (d : List K) (i j : ℕ) :
    (Csr.diags d).get i j = if i = j then (d[i]?).getD 0 else 0 := by
  unfold Csr.diags Csr.get
  rw [List.map_map]
  by_cases h : i = j
  · subst h
    have := sum_zipIdx_single d (fun x => x) i 0
    simp only [Nat.zero_le, if_true, Nat.sub_zero] at this
    simp only [if_true]
    rw [← (by simpa using this : _ = (d[i]?).getD 0)]
    congr 1
    apply List.map_congr_left
    intro t _
    simp [Function.comp]
  · rw [if_neg h]
    have : ∀ x ∈ (d.zipIdx.map ((fun t : ℕ × ℕ × K => if t.1 = i ∧ t.2.1 = j then t.2.2 else 0) ∘
        fun p => (p.2, p.2, p.1))), x = 0 := by
      intro x hx
      rw [List.mem_map] at hx
      obtain ⟨p, _, rfl⟩ := hx
      simp only [Function.comp]
      rw [if_neg]
      rintro ⟨h1, h2⟩; exact h (h1.symm.trans h2)
    exact List.sum_eq_zero this

end Np
