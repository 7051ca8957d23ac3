import Verif.Model.GaussianProcess
import Verif.Spec.GaussianProcess

/-! Entries of `matrix_from_function` and of the stacked covariance matrices. -/

set_option autoImplicit false
namespace Gpy
open Np

theorem csr_get_append (r c r' c' : ℕ) (t t' : List (ℕ × ℕ × ℝ)) (i j : ℕ) : Csr.get ⟨r, c, t ++ t'⟩ i j = Csr.get ⟨r, c, t⟩ i j + Csr.get ⟨r', c', t'⟩ i j := by
  simp [Csr.get]

theorem csr_get_zero {M : Csr ℝ} {i j : ℕ} (h : ∀ t ∈ M.trip, ¬ (t.1 = i ∧ t.2.1 = j)) : M.get i j = 0 := by
  unfold Csr.get
  refine List.sum_eq_zero (fun x hx => ?_)
  obtain ⟨t, ht, rfl⟩ := List.mem_map.mp hx
  rw [if_neg (h t ht)]

theorem nodup_sum_single {α : Type} [DecidableEq α] (l : List α) (hl : l.Nodup) (g : α → ℝ) (a : α) : (l.map (fun p => if p = a then g p else 0)).sum = if a ∈ l then g a else 0 := by
  induction l with
  | nil => simp
  | cons b t ih =>
    rw [List.map_cons, List.sum_cons, ih (List.nodup_cons.mp hl).2]
    by_cases h : b = a
    · subst h
      simp [(List.nodup_cons.mp hl).1]
    · have : a ≠ b := fun e => h e.symm
      simp [h, this]

theorem eliminateZeros_get (M : Csr ℝ) (i j : ℕ) : (eliminateZeros M).get i j = M.get i j := by
  unfold eliminateZeros
  have h1 := nodup_sum_single (((M.trip.map (fun t => (t.1, t.2.1))).dedup.filter (fun p => decide (M.get p.1 p.2 ≠ 0)))) ((List.nodup_dedup _).filter _) (fun p => M.get p.1 p.2) (i, j)
  unfold Csr.get at *
  simp only [List.map_map]
  refine Eq.trans ?_ (h1.trans ?_)
  · congr 1
    refine List.map_congr_left (fun p _ => ?_)
    simp only [Function.comp, Prod.ext_iff]
  · split
    · rfl
    · next hm =>
      symm
      by_contra hne
      apply hm
      rw [List.mem_filter]
      refine ⟨?_, by simpa using hne⟩
      rw [List.mem_dedup, List.mem_map]
      by_contra hno
      apply hne
      refine csr_get_zero (M := M) (fun t ht hh => hno ⟨t, ht, by rw [hh.1, hh.2]⟩)

theorem eliminateZeros_wf {M : Csr ℝ} (h : M.WF) : (eliminateZeros M).WF := by
  intro t ht
  simp only [eliminateZeros, List.mem_map, List.mem_filter, List.mem_dedup] at ht ⊢
  obtain ⟨p, ⟨⟨s, hs, rfl⟩, -⟩, rfl⟩ := ht
  exact h s hs

theorem eliminateZeros_stored (M : Csr ℝ) : (∀ t ∈ (eliminateZeros M).trip, t.2.2 = M.get t.1 t.2.1 ∧ t.2.2 ≠ 0) ∧ ((eliminateZeros M).trip.map (fun t => (t.1, t.2.1))).Nodup := by
  constructor
  · intro t ht
    simp only [eliminateZeros, List.mem_map, List.mem_filter, List.mem_dedup] at ht
    obtain ⟨p, ⟨-, hp⟩, rfl⟩ := ht
    exact ⟨rfl, by simpa using hp⟩
  · simp only [eliminateZeros, List.map_map]
    have : ((fun t : ℕ × ℕ × ℝ => (t.1, t.2.1)) ∘ fun p : ℕ × ℕ => (p.1, p.2, M.get p.1 p.2)) = id := by funext p; rfl
    rw [this, List.map_id]
    exact (List.nodup_dedup _).filter _

/-- all pairs, second index outermost -/
theorem zip3_pairs {α : Type} (k : α → α → ℝ) (X1 X2 : List α) (n : ℕ) :
    zip3 (List.replicate X2.length (List.range X1.length)).flatten ((List.range' n X2.length).flatMap (fun j => List.replicate X1.length j))
      (List.zipWith k (List.replicate X2.length X1).flatten (X2.flatMap (fun x => List.replicate X1.length x))) =
    (X2.zipIdx n).flatMap (fun q => X1.zipIdx.map (fun p => (p.2, q.2, k p.1 q.1))) := by
  induction X2 generalizing n with
  | nil => simp [zip3]
  | cons a t ih =>
    simp only [List.length_cons, List.replicate_succ, List.flatten_cons, List.range'_succ, List.flatMap_cons, List.zipIdx_cons]
    rw [List.zipWith_append (by simp), zip3_append (by simp) (by simp), ih (n + 1)]
    congr 1
    unfold zip3
    apply List.ext_getElem
    · simp
    · intro m h1 h2
      simp

theorem sum_flatMap' {α : Type} (l : List α) (g : α → List ℝ) : (l.flatMap g).sum = (l.map (fun a => (g a).sum)).sum := by
  induction l with
  | nil => simp
  | cons a t ih => simp [ih]

theorem pairs_get {α : Type} (k : α → α → ℝ) (X1 X2 : List α) (r c i j : ℕ) :
    Csr.get ⟨r, c, X2.zipIdx.flatMap (fun q => X1.zipIdx.map (fun p => (p.2, q.2, k p.1 q.1)))⟩ i j = ((X2[j]?).map (fun y => ((X1[i]?).map (fun x => k x y)).getD 0)).getD 0 := by
  unfold Csr.get
  simp only [List.map_flatMap, List.map_map]
  rw [sum_flatMap']
  have := sum_zipIdx_single X2 (fun y => ((X1[i]?).map (fun x => k x y)).getD 0) j 0
  simp only [Nat.zero_le, if_true, Nat.sub_zero] at this
  rw [← this]
  congr 1
  refine List.map_congr_left (fun q _ => ?_)
  by_cases hq : q.2 = j
  · rw [if_pos hq]
    have h2 := sum_zipIdx_single X1 (fun x => k x q.1) i 0
    simp only [Nat.zero_le, if_true, Nat.sub_zero] at h2
    rw [← h2]
    congr 1
    refine List.map_congr_left (fun p _ => ?_)
    simp [hq]
  · rw [if_neg hq]
    refine List.sum_eq_zero (fun x hx => ?_)
    obtain ⟨p, -, rfl⟩ := List.mem_map.mp hx
    simp [hq]

/-- `M` has the entries `k l1[i] l2[j]` -/
structure Represents {β : Type} (M : Csr ℝ) (l1 l2 : List β) (k : β → β → ℝ) : Prop where
  wf : M.WF
  rows : M.nrows = l1.length
  cols : M.ncols = l2.length
  entry : ∀ (i j : ℕ) (x y : β), l1[i]? = some x → l2[j]? = some y → M.get i j = k x y

theorem mff_full {α : Type} (k : α → α → ℝ) (X1 X2 : List α) : ∃ M, matrixFromFunction (List.zipWith k) X1 X2 none = some M ∧ Represents M X1 X2 k ∧
    (∀ t ∈ M.trip, t.2.2 ≠ 0) ∧ (M.trip.map (fun t => (t.1, t.2.1))).Nodup := by
  unfold matrixFromFunction
  simp only
  have hlen : (List.zipWith k (List.replicate X2.length X1).flatten (X2.flatMap (fun x => List.replicate X1.length x))).length = X2.length * X1.length := by
    simp [List.length_flatMap, List.sum_replicate, List.map_const']
  have hc : ∀ (d : List ℝ), d.length = X2.length * X1.length → ∃ M0, csrMatrix d (List.replicate X2.length (List.range X1.length)).flatten ((List.range X2.length).flatMap (fun j => List.replicate X1.length j)) X1.length X2.length = some M0 := by
    intro d hd
    unfold csrMatrix
    rw [if_pos]
    · exact ⟨_, rfl⟩
    · refine ⟨by simp [hd], by simp [hd, List.length_flatMap, List.map_const', List.sum_replicate], ?_, ?_⟩
      · intro i hi
        simp only [List.mem_flatten, List.mem_replicate] at hi
        obtain ⟨l, ⟨-, rfl⟩, hi⟩ := hi
        exact List.mem_range.mp hi
      · intro j hj
        simp only [List.mem_flatMap, List.mem_replicate, List.mem_range] at hj
        obtain ⟨a, ha, -, rfl⟩ := hj
        exact ha
  obtain ⟨M0, hM0⟩ := hc _ hlen
  obtain ⟨hwf, hr, hcl, ht⟩ := csrMatrix_wf hM0
  rw [List.range_eq_range' (n := X2.length), zip3_pairs] at ht
  refine ⟨eliminateZeros M0, by rw [hM0]; rfl, ⟨eliminateZeros_wf hwf, hr, hcl, ?_⟩, fun t h => ((eliminateZeros_stored M0).1 t h).2, (eliminateZeros_stored M0).2⟩
  intro i j x y hx hy
  rw [eliminateZeros_get]
  have := pairs_get k X1 X2 M0.nrows M0.ncols i j
  rw [← ht] at this
  rw [hx, hy] at this
  exact this

/-- side by side -/
def hpair (A B : Csr ℝ) : Csr ℝ := ⟨A.nrows, A.ncols + B.ncols, A.trip ++ B.trip.map (fun t => (t.1, A.ncols + t.2.1, t.2.2))⟩

/-- above each other -/
def vpair (A B : Csr ℝ) : Csr ℝ := ⟨A.nrows + B.nrows, A.ncols, A.trip ++ B.trip.map (fun t => (A.nrows + t.1, t.2.1, t.2.2))⟩

theorem hpair_get {A B : Csr ℝ} (hA : A.WF) (i j : ℕ) : (hpair A B).get i j = if j < A.ncols then A.get i j else B.get i (j - A.ncols) := by
  have h1 : (hpair A B).get i j = A.get i j + Csr.get ⟨0, 0, B.trip.map (fun t => (t.1, A.ncols + t.2.1, t.2.2))⟩ i j := csr_get_append _ _ 0 0 _ _ i j
  rw [h1]
  split
  · next h =>
    rw [csr_get_zero (M := ⟨0, 0, _⟩), add_zero]
    intro t ht hh
    obtain ⟨s, -, rfl⟩ := List.mem_map.mp ht
    simp only at hh
    omega
  · next h =>
    rw [csr_get_zero (M := A), zero_add]
    · unfold Csr.get
      simp only [List.map_map]
      congr 1
      refine List.map_congr_left (fun t _ => ?_)
      simp only [Function.comp]
      have : (A.ncols + t.2.1 = j) ↔ (t.2.1 = j - A.ncols) := by omega
      simp only [this]
    · intro t ht hh
      have := (hA t ht).2
      omega

theorem vpair_get {A B : Csr ℝ} (hA : A.WF) (i j : ℕ) : (vpair A B).get i j = if i < A.nrows then A.get i j else B.get (i - A.nrows) j := by
  have h1 : (vpair A B).get i j = A.get i j + Csr.get ⟨0, 0, B.trip.map (fun t => (A.nrows + t.1, t.2.1, t.2.2))⟩ i j := csr_get_append _ _ 0 0 _ _ i j
  rw [h1]
  split
  · next h =>
    rw [csr_get_zero (M := ⟨0, 0, _⟩), add_zero]
    intro t ht hh
    obtain ⟨s, -, rfl⟩ := List.mem_map.mp ht
    simp only at hh
    omega
  · next h =>
    rw [csr_get_zero (M := A), zero_add]
    · unfold Csr.get
      simp only [List.map_map]
      congr 1
      refine List.map_congr_left (fun t _ => ?_)
      simp only [Function.comp]
      have : (A.nrows + t.1 = i) ↔ (t.1 = i - A.nrows) := by omega
      simp only [this]
    · intro t ht hh
      have := (hA t ht).1
      omega

theorem Represents.hpair {β : Type} {A B : Csr ℝ} {l1 l2 l2' : List β} {k : β → β → ℝ} (hA : Represents A l1 l2 k) (hB : Represents B l1 l2' k) : Represents (hpair A B) l1 (l2 ++ l2') k := by
  refine ⟨?_, hA.rows, by simp [Gpy.hpair, hA.cols, hB.cols], ?_⟩
  · intro t ht
    rcases List.mem_append.mp ht with h | h
    · have := hA.wf t h
      exact ⟨this.1, by simp only [Gpy.hpair]; omega⟩
    · obtain ⟨s, hs, rfl⟩ := List.mem_map.mp h
      have := hB.wf s hs
      have e := hA.rows
      have e' := hB.rows
      simp only [Gpy.hpair]
      omega
  · intro i j x y hx hy
    rw [hpair_get hA.wf, hA.cols]
    split
    · next h => exact hA.entry i j x y hx (by rwa [List.getElem?_append_left h] at hy)
    · next h => exact hB.entry i _ x y hx (by rwa [List.getElem?_append_right (by omega)] at hy)

theorem Represents.vpair {β : Type} {A B : Csr ℝ} {l1 l1' l2 : List β} {k : β → β → ℝ} (hA : Represents A l1 l2 k) (hB : Represents B l1' l2 k) : Represents (vpair A B) (l1 ++ l1') l2 k := by
  refine ⟨?_, by simp [Gpy.vpair, hA.rows, hB.rows], hA.cols, ?_⟩
  · intro t ht
    rcases List.mem_append.mp ht with h | h
    · have := hA.wf t h
      exact ⟨by simp only [Gpy.vpair]; omega, this.2⟩
    · obtain ⟨s, hs, rfl⟩ := List.mem_map.mp h
      have := hB.wf s hs
      have e := hA.cols
      have e' := hB.cols
      simp only [Gpy.vpair]
      omega
  · intro i j x y hx hy
    rw [vpair_get hA.wf, hA.rows]
    split
    · next h => exact hA.entry i j x y (by rwa [List.getElem?_append_left h] at hx) hy
    · next h => exact hB.entry _ j x y (by rwa [List.getElem?_append_right (by omega)] at hx) hy

theorem hstack_repr {β γ : Type} (l1 : List β) (k : β → β → ℝ) (f : γ → Csr ℝ) (g : γ → List β) (a : γ) (as : List γ) (h : ∀ c ∈ a :: as, Represents (f c) l1 (g c) k) :
    ∃ M, hstackCsr ((a :: as).map f) = some M ∧ Represents M l1 ((a :: as).flatMap g) k := by
  simp only [List.map_cons, hstackCsr, List.flatMap_cons]
  have key : ∀ (as : List γ) (A : Csr ℝ) (l : List β), Represents A l1 l k → (∀ c ∈ as, Represents (f c) l1 (g c) k) →
      ∃ M, (as.map f).foldlM (fun acc B => if B.nrows = acc.nrows then some (hpair acc B) else none) A = some M ∧ Represents M l1 (l ++ as.flatMap g) k := by
    intro as
    induction as with
    | nil => intro A l hA _; exact ⟨A, rfl, by simpa using hA⟩
    | cons b t ih =>
      intro A l hA hB
      have hb := hB b (by simp)
      simp only [List.map_cons, List.foldlM_cons]
      rw [if_pos (by rw [hb.rows, hA.rows])]
      obtain ⟨M, h1, h2⟩ := ih (hpair A (f b)) (l ++ g b) (hA.hpair hb) (fun c hc => hB c (by simp [hc]))
      refine ⟨M, h1, ?_⟩
      rw [List.flatMap_cons, ← List.append_assoc]
      exact h2
  exact key as (f a) (g a) (h a (by simp)) (fun c hc => h c (by simp [hc]))

theorem vstack_repr {β γ : Type} (l2 : List β) (k : β → β → ℝ) (f : γ → Csr ℝ) (g : γ → List β) (a : γ) (as : List γ) (h : ∀ c ∈ a :: as, Represents (f c) (g c) l2 k) :
    ∃ M, vstackCsr ((a :: as).map f) = some M ∧ Represents M ((a :: as).flatMap g) l2 k := by
  simp only [List.map_cons, vstackCsr, List.flatMap_cons]
  have key : ∀ (as : List γ) (A : Csr ℝ) (l : List β), Represents A l l2 k → (∀ c ∈ as, Represents (f c) (g c) l2 k) →
      ∃ M, (as.map f).foldlM (fun acc B => if B.ncols = acc.ncols then some (vpair acc B) else none) A = some M ∧ Represents M (l ++ as.flatMap g) l2 k := by
    intro as
    induction as with
    | nil => intro A l hA _; exact ⟨A, rfl, by simpa using hA⟩
    | cons b t ih =>
      intro A l hA hB
      have hb := hB b (by simp)
      simp only [List.map_cons, List.foldlM_cons]
      rw [if_pos (by rw [hb.cols, hA.cols])]
      obtain ⟨M, h1, h2⟩ := ih (vpair A (f b)) (l ++ g b) (hA.vpair hb) (fun c hc => hB c (by simp [hc]))
      refine ⟨M, h1, ?_⟩
      rw [List.flatMap_cons, ← List.append_assoc]
      exact h2
  exact key as (f a) (g a) (h a (by simp)) (fun c hc => h c (by simp [hc]))

theorem Represents.map {α β : Type} {M : Csr ℝ} {X1 X2 : List α} (f g : α → β) (k : β → β → ℝ) (h : Represents M X1 X2 (fun x y => k (f x) (g y))) : Represents M (X1.map f) (X2.map g) k := by
  refine ⟨h.wf, by simp [h.rows], by simp [h.cols], ?_⟩
  intro i j x y hx hy
  rw [List.getElem?_map] at hx hy
  obtain ⟨x', hx', rfl⟩ := Option.map_eq_some_iff.mp hx
  obtain ⟨y', hy', rfl⟩ := Option.map_eq_some_iff.mp hy
  exact h.entry i j x' y' hx' hy'

theorem mapM_some_map {α β : Type} (l : List α) (f : α → Option β) (g : α → β) (h : ∀ a ∈ l, f a = some (g a)) : l.mapM f = some (l.map g) := by
  induction l with
  | nil => rfl
  | cons a t ih =>
    rw [List.mapM_cons, h a (by simp), ih (fun b hb => h b (by simp [hb]))]
    rfl

theorem derivs_eq (d : ℕ) : (List.finRange (d + 1)).map (derivOf (d := d)) = none :: (List.finRange d).map some := by
  rw [List.finRange_succ]
  simp only [List.map_cons, List.map_map]
  congr 1

theorem covMatrix_full {d : ℕ} (query : BallQuery d) (ker : Kernel d) (X1 X2 : List (Pt d)) (g : Bool) :
    ∃ M, covMatrix query ker X1 X2 g none = some M ∧ Represents M (obs X1 g) (obs X2 g) (obsKer ker) := by
  unfold covMatrix
  simp only [Option.map_none, Option.isSome_none, Bool.false_eq_true, false_and, if_false]
  cases g with
  | false =>
    simp only [Bool.false_eq_true, if_false]
    obtain ⟨M, h1, h2, -⟩ := mff_full (ker none none) X1 X2
    refine ⟨M, h1, ?_⟩
    simp only [obs, Bool.false_eq_true, if_false]
    exact Represents.map _ _ _ h2
  | true =>
    simp only [if_true]
    choose M hM hR using fun (i j : Fin (d + 1)) => mff_full (ker (derivOf i) (derivOf j)) X1 X2
    have e1 : ∀ i, (List.finRange (d + 1)).mapM (fun j => matrixFromFunction (List.zipWith (ker (derivOf i) (derivOf j))) X1 X2 none) = some ((List.finRange (d + 1)).map (M i)) :=
      fun i => mapM_some_map _ _ _ (fun j _ => hM i j)
    simp only [e1]
    have e2 : ∀ i, ∃ B, hstackCsr ((List.finRange (d + 1)).map (M i)) = some B ∧ Represents B (X1.map (fun x => (x, derivOf i))) (obs X2 true) (obsKer ker) := by
      intro i
      have := hstack_repr (X1.map (fun x => (x, derivOf i))) (obsKer ker) (M i) (fun j => X2.map (fun x => (x, derivOf j))) 0 ((List.finRange d).map Fin.succ) (fun c _ => Represents.map _ _ (obsKer ker) (hR i c).1)
      rw [← List.finRange_succ] at this
      obtain ⟨B, h1, h2⟩ := this
      refine ⟨B, h1, ?_⟩
      have : (List.finRange (d + 1)).flatMap (fun j => X2.map (fun x => (x, derivOf j))) = obs X2 true := by
        unfold obs
        rw [if_pos rfl, ← derivs_eq, List.flatMap_map]
      rwa [this] at h2
    choose B hB hBR using e2
    have e3 : (List.finRange (d + 1)).mapM (fun i => hstackCsr ((List.finRange (d + 1)).map (M i))) = some ((List.finRange (d + 1)).map B) := mapM_some_map _ _ _ (fun i _ => hB i)
    simp only [e3]
    have := vstack_repr (obs X2 true) (obsKer ker) B (fun i => X1.map (fun x => (x, derivOf i))) 0 ((List.finRange d).map Fin.succ) (fun c _ => hBR c)
    rw [← List.finRange_succ] at this
    obtain ⟨C, h1, h2⟩ := this
    refine ⟨C, h1, ?_⟩
    have : (List.finRange (d + 1)).flatMap (fun j => X1.map (fun x => (x, derivOf j))) = obs X1 true := by
      unfold obs
      rw [if_pos rfl, ← derivs_eq, List.flatMap_map]
    rwa [this] at h2

end Gpy
