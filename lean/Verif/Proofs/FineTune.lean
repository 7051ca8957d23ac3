import Verif.Model.FineTune
import Verif.Proofs.Feasible

/-!
# Fine tuning of the point cloud: proofs
-/

set_option autoImplicit false
namespace Gpy.Arcs
open Classical

variable {d : ℕ}

/-! ## moving along arcs -/

theorem psq_rotate2 (θ : ℝ) (x y : Pt 2) : psq (rotate 2 θ x y) = psq x := by
  show psq (rotate2 θ x y) = psq x
  unfold rotate2
  dsimp only
  rw [psq2, psq2]
  generalize (if x 0 * y 1 - x 1 * y 0 < 0 then (-1 : ℝ) else 1) * θ = α
  have h := Real.sin_sq_add_cos_sq α
  simp only [Matrix.cons_val_zero, Matrix.cons_val_one]
  linear_combination (x 0 ^ 2 + x 1 ^ 2) * h

theorem psq_rotate3 (θ : ℝ) (x y : Pt 3) (h : cross x y ≠ 0) : psq (rotate 3 θ x y) = psq x := by
  have hN := psq_normalized h
  have hperp : pdot (cross x y) x = 0 := by
    rw [pdot_3]; unfold cross; simp; ring
  have hNx : pdot (normalized (cross x y)) x = 0 := by
    rw [normalized_eq h]
    have : pdot (fun j => cross x y j / pnorm (cross x y)) x = pdot (cross x y) x / pnorm (cross x y) := by rw [pdot_3, pdot_3]; ring
    rw [this, hperp, zero_div]
  show psq (rotate3 θ x y) = psq x
  unfold rotate3
  dsimp only
  set N := normalized (cross x y)
  rw [hNx]
  have hs := Real.sin_sq_add_cos_sq θ
  rw [psq3] at hN
  rw [pdot_3] at hNx
  rw [psq3, psq3]
  have e0 : cross N x 0 = N 1 * x 2 - N 2 * x 1 := rfl
  have e1 : cross N x 1 = N 2 * x 0 - N 0 * x 2 := rfl
  have e2 : cross N x 2 = N 0 * x 1 - N 1 * x 0 := rfl
  rw [e0, e1, e2]
  generalize Real.sin θ = s at *
  generalize Real.cos θ = c at *
  clear_value N
  linear_combination (x 0 ^ 2 + x 1 ^ 2 + x 2 ^ 2) * hs + s ^ 2 * (x 0 ^ 2 + x 1 ^ 2 + x 2 ^ 2) * hN - s ^ 2 * (N 0 * x 0 + N 1 * x 1 + N 2 * x 2) * hNx

theorem rotate3_zero (θ : ℝ) (x y : Pt 3) (h : cross x y = 0) : rotate 3 θ x y = fun j => Real.cos θ * x j := by
  show rotate3 θ x y = _
  unfold rotate3
  dsimp only
  rw [h]
  have : normalized (0 : Pt 3) = 0 := by unfold normalized; simp [psq]
  rw [this]
  funext j
  have : cross 0 x j = 0 := by unfold cross; fin_cases j <;> simp
  rw [this]
  simp

theorem psq_rotate_le (d : ℕ) (θ : ℝ) (x y : Pt d) : psq (rotate d θ x y) ≤ psq x := by
  match d with
  | 2 => exact (psq_rotate2 θ x y).le
  | 3 =>
    by_cases h : cross x y = 0
    · rw [rotate3_zero θ x y h, psq_smul]
      have := Real.cos_sq_le_one θ
      nlinarith [psq_nonneg x]
    · exact (psq_rotate3 θ x y h).le
  | 0 => exact le_rfl
  | 1 => exact le_rfl
  | _ + 4 => exact le_rfl

/-- vectors of space with the same length whose cross product is zero are equal or opposite -/
theorem cross_zero {x y : Pt 3} (h : cross x y = 0) (hn : psq x = psq y) : y = x ∨ y = -x := by
  have h0 : x 1 * y 2 - x 2 * y 1 = 0 := congrFun h 0
  have h1 : x 2 * y 0 - x 0 * y 2 = 0 := congrFun h 1
  have h2 : x 0 * y 1 - x 1 * y 0 = 0 := congrFun h 2
  rw [psq3, psq3] at hn
  have hd : (x 0 * y 0 + x 1 * y 1 + x 2 * y 2 - (x 0 ^ 2 + x 1 ^ 2 + x 2 ^ 2)) * (x 0 * y 0 + x 1 * y 1 + x 2 * y 2 + (x 0 ^ 2 + x 1 ^ 2 + x 2 ^ 2)) = 0 := by
    linear_combination -(x 0 ^ 2 + x 1 ^ 2 + x 2 ^ 2) * hn - (x 1 * y 2 - x 2 * y 1) * h0 - (x 2 * y 0 - x 0 * y 2) * h1 - (x 0 * y 1 - x 1 * y 0) * h2
  rcases mul_eq_zero.mp hd with e | e
  · left
    have : psq (y - x) = 0 := by
      rw [psq3]; simp only [Pi.sub_apply]
      linear_combination -2 * e - hn
    by_contra hne
    exact absurd this (psq_pos_of_ne (sub_ne_zero.mpr hne)).ne'
  · right
    have : psq (y - -x) = 0 := by
      rw [psq3]; simp only [Pi.sub_apply, Pi.neg_apply]
      linear_combination 2 * e - hn
    by_contra hne
    exact absurd this (psq_pos_of_ne (sub_ne_zero.mpr hne)).ne'

theorem lineSearch_cases (t : Tree d) (tol : ℝ) (c x y q : Pt d) (m k : ℕ) (θ : ℝ) :
    lineSearch t tol c x y q m k θ = q ∨ ∃ φ : ℝ, lineSearch t tol c x y q m k θ = fun j => c j + rotate d φ x y j := by
  induction m generalizing k θ with
  | zero => left; rw [lineSearch]
  | succ m ih =>
    rw [lineSearch]
    split
    · exact Or.inr ⟨θ, rfl⟩
    · exact ih _ _

section
variable (U : ℕ → Pt d) (S : ℕ → ℝ)

theorem on_projOnto [NeZero d] (W : ℕ → ℝ) (p : Pt d) (i : ℕ) : On (projOnto U S W p i) (U i) |S i| := by
  unfold projOnto
  dsimp only
  have h := psq_direction (p - U i)
  have h' : psq (fun j => direction (p - U i) j * ((if S i < 0 then -1 else 1) * if W i > 1 / 2 then -1 else 1)) = 1 := by
    refine Eq.trans ?_ h
    unfold psq
    refine Finset.sum_congr rfl (fun j _ => ?_)
    split <;> split <;> ring
  exact on_add (abs_nonneg _) h'

/-- what holds of `p`, of the target and of the points of the arc holds of the moved point -/
theorem movePQ_pred (t : Tree d) (tol lt : ℝ) (p q : Pt d) (i : ℕ) (Q : Pt d → Prop) (hp : Q p) (hq : Q q)
    (hr : ¬ pnorm (p - q) < tol → ∀ φ : ℝ, Q (fun j => U i j + rotate d φ (p - U i) (q - U i) j)) : Q (movePQ U S t tol lt p q i) := by
  unfold movePQ
  dsimp only
  split
  · exact hp
  · rename_i h
    push Not at h
    rcases lineSearch_cases t tol (U i) (p - U i) (q - U i) q 20 0 (min (lt / |S i|) (2 * Real.arcsin (min 1 (1 / 2 * pnorm (p - q) / |S i|)))) with e | ⟨φ, e⟩
    · rw [e]; exact hq
    · rw [e]; exact hr (not_lt.mpr h.1) φ

theorem on_arc2 (U : ℕ → Pt 2) (S : ℕ → ℝ) (p q : Pt 2) (i : ℕ) (hp : On p (U i) |S i|) (φ : ℝ) : On (fun j => U i j + rotate 2 φ (p - U i) (q - U i) j) (U i) |S i| := by
  rw [on_iff (abs_nonneg _)] at *
  have : (fun j => U i j + rotate 2 φ (p - U i) (q - U i) j) - U i = rotate 2 φ (p - U i) (q - U i) := by funext j; simp
  rw [this, psq_rotate2, hp]

theorem in_arc (p q : Pt d) (i : ℕ) (hp : pnorm (p - U i) ≤ |S i|) (φ : ℝ) : pnorm ((fun j => U i j + rotate d φ (p - U i) (q - U i) j) - U i) ≤ |S i| := by
  have : (fun j => U i j + rotate d φ (p - U i) (q - U i) j) - U i = rotate d φ (p - U i) (q - U i) := by funext j; simp
  rw [this]
  exact le_trans (Real.sqrt_le_sqrt (psq_rotate_le d _ _ _)) hp

theorem on_arc3 (U : ℕ → Pt 3) (S : ℕ → ℝ) (p q : Pt 3) (i : ℕ) (hp : On p (U i) |S i|) (hq : On q (U i) |S i|) (hne : p ≠ q) (hanti : q - U i ≠ -(p - U i)) (φ : ℝ) :
    On (fun j => U i j + rotate 3 φ (p - U i) (q - U i) j) (U i) |S i| := by
  rw [on_iff (abs_nonneg _)] at *
  have : (fun j => U i j + rotate 3 φ (p - U i) (q - U i) j) - U i = rotate 3 φ (p - U i) (q - U i) := by funext j; simp
  rw [this, psq_rotate3, hp]
  intro hc
  rcases cross_zero hc (by rw [hp, hq]) with e | e
  · exact hne (sub_left_inj.mp e).symm
  · exact hanti e

theorem alsoMove_sub {α : Type} (bad : Bool) (size : ℕ) (maxP : Int) (j : ℕ) (L : List α) : ∀ x ∈ alsoMove bad size maxP j L, x ∈ L := by
  induction L generalizing j with
  | nil => simp [alsoMove]
  | cons a L ih =>
    intro x hx
    rw [alsoMove] at hx
    split at hx
    · simp at hx
    · split at hx
      · simp at hx
      · rcases List.mem_cons.mp hx with rfl | hx
        · simp
        · exact List.mem_cons_of_mem _ (ih _ x hx)

theorem alsoMove_length {α : Type} (bad : Bool) (size : ℕ) (maxP : Int) (j : ℕ) (L : List α) (hj : (j : Int) + 1 ≤ maxP) : ((alsoMove bad size maxP j L).length : Int) + j + 1 ≤ maxP := by
  induction L generalizing j with
  | nil => simpa [alsoMove] using hj
  | cons a L ih =>
    rw [alsoMove]
    split
    · simpa using hj
    · rename_i h
      split
      · simpa using hj
      · have := ih (j + 1) (by push_cast; omega)
        rw [List.length_cons]
        push_cast at this ⊢
        omega

theorem closest_mem (q : Pt d) (a : ℕ × Pt d) (L : List (ℕ × Pt d)) : closest q a L ∈ a :: L := by
  unfold closest
  induction L generalizing a with
  | nil => simp
  | cons b L ih =>
    rw [List.foldl_cons]
    have := ih (if psq (b.2 - q) < psq (a.2 - q) then b else a)
    rcases List.mem_cons.mp this with e | e
    · rw [e]; split <;> simp
    · simp [e]

theorem feasInv_mem (C : List (Row d)) (i a : ℕ) (x : Pt d) (h : (a, x) ∈ feasInv C i) : ∃ r, C[a]? = some r ∧ r.index = i ∧ r.point = x := by
  unfold feasInv at h
  obtain ⟨y, hy, e⟩ := List.mem_map.mp h
  obtain ⟨h1, h2⟩ := List.mem_filter.mp hy
  obtain ⟨r, b⟩ := y
  simp only [Prod.mk.injEq] at e
  obtain ⟨rfl, rfl⟩ := e
  exact ⟨r, List.mem_zipIdx_iff_getElem?.mp h1, of_decide_eq_true h2, rfl⟩

theorem feasInv_length (C : List (Row d)) (i : ℕ) : (feasInv C i).length = (C.map Row.index).count i := by
  unfold feasInv
  rw [List.length_map]
  have : ∀ k, (List.filter (fun x : Row d × ℕ => decide (x.1.index = i)) (C.zipIdx k)).length = (C.map Row.index).count i := by
    induction C with
    | nil => intro k; rfl
    | cons r C ih =>
      intro k
      rw [List.zipIdx_cons, List.filter_cons, List.map_cons, List.count_cons]
      by_cases hr : r.index = i
      · simp [hr, ih (k + 1)]
      · simp [hr, ih (k + 1)]
  exact this 0

/-- what holds of the points of the sphere, of the old points and of the arcs from them holds of the points after the first loop -/
theorem movePts_pred [NeZero d] (rc : Recon d) (sortC : List (ℕ × Pt d) → List (ℕ × Pt d)) (hs : ∀ l, (sortC l).Perm l) (t : Tree d) (tol lt : ℝ) (maxP : Int) (C : List (Row d)) (i : ℕ)
    (Q : Pt d → Prop) (hQ : ∀ x, On x (U i) |S i| → Q x) (hC : ∀ r ∈ C, r.index = i → Q r.point)
    (harc : ∀ r ∈ C, r.index = i → ∀ z, (z = rc.near i ∨ ∃ (a : ℕ) (r' : Row d), C[a]? = some r' ∧ r'.index = i ∧ z = rc.nearC a) → ¬ pnorm (r.point - projOnto U S rc.W z i) < tol →
      ∀ φ : ℝ, Q (fun j => U i j + rotate d φ (r.point - U i) (projOnto U S rc.W z i - U i) j)) :
    ∀ x ∈ movePts U S rc sortC t tol lt maxP C i, Q x := by
  have hq := hQ _ (on_projOnto U S rc.W (rc.near i) i)
  have hclose : ∀ a L, feasInv C i = a :: L → Q (movePQ U S t tol lt (closest (projOnto U S rc.W (rc.near i) i) a L).2 (projOnto U S rc.W (rc.near i) i) i) := by
    intro a L hf
    have hm := closest_mem (projOnto U S rc.W (rc.near i) i) a L
    rw [← hf] at hm
    generalize closest (projOnto U S rc.W (rc.near i) i) a L = cp at hm ⊢
    obtain ⟨r, h1, h2, h3⟩ := feasInv_mem C i cp.1 cp.2 hm
    rw [← h3]
    have hr := List.mem_of_getElem? h1
    exact movePQ_pred U S t tol lt _ _ i Q (hC r hr h2) hq (harc r hr h2 _ (Or.inl rfl))
  intro x hx
  unfold movePts at hx
  dsimp only at hx
  split at hx
  · split at hx
    · rw [List.mem_singleton.mp hx]; exact hq
    · rename_i a L hf
      rcases List.mem_cons.mp hx with rfl | hx
      · exact hclose a L hf
      · split at hx
        · obtain ⟨y, hy, rfl⟩ := List.mem_map.mp hx
          have hy := (hs _).mem_iff.mp (alsoMove_sub _ _ _ _ _ y hy)
          rw [← hf] at hy
          obtain ⟨r, h1, h2, h3⟩ := feasInv_mem C i _ _ hy
          rw [← h3]
          have hr := List.mem_of_getElem? h1
          exact movePQ_pred U S t tol lt _ _ i Q (hC r hr h2) (hQ _ (on_projOnto U S rc.W _ i)) (harc r hr h2 _ (Or.inr ⟨y.1, r, h1, h2, rfl⟩))
        · simp at hx
  · split at hx
    · split at hx
      · rw [List.mem_singleton.mp hx]; exact hq
      · rename_i a L hf
        rw [List.mem_singleton.mp hx]
        exact hclose a L hf
    · split at hx
      · rw [List.mem_singleton.mp hx]; exact hq
      · rename_i a L hf
        obtain ⟨y, hy, rfl⟩ := List.mem_map.mp hx
        rw [← hf] at hy
        obtain ⟨r, h1, h2, h3⟩ := feasInv_mem C i _ _ hy
        rw [← h3]
        exact hC r (List.mem_of_getElem? h1) h2

theorem movePts_length [NeZero d] (rc : Recon d) (sortC : List (ℕ × Pt d) → List (ℕ × Pt d)) (t : Tree d) (tol lt : ℝ) (maxP : Int) (hm : 1 ≤ maxP) (C : List (Row d)) (i : ℕ)
    (hC : ((C.map Row.index).count i : Int) ≤ maxP) : ((movePts U S rc sortC t tol lt maxP C i).length : Int) ≤ maxP := by
  rw [← feasInv_length] at hC
  unfold movePts
  dsimp only
  split
  · split
    · simpa using hm
    · split
      · rename_i a L hf _
        have := alsoMove_length (decide (rc.dsq i > (4 / 5 * |S i|) ^ 2)) (a :: L).length maxP 0 (sortC (a :: L)) (by simpa using hm)
        rw [List.length_cons, List.length_map]
        push_cast at this ⊢
        omega
      · simpa using hm
  · split
    · split
      · simpa using hm
      · simpa using hm
    · split
      · simpa using hm
      · rename_i a L hf
        rw [hf] at hC
        rw [List.length_map]
        exact hC

/-! ## the first loop -/

theorem moved_eq [NeZero d] (rc : Recon d) (sortC : List (ℕ × Pt d) → List (ℕ × Pt d)) (t : Tree d) (tol lt : ℝ) (maxP : Int) (C : List (Row d)) (sh : List ℕ) (slices : List (List ℕ))
    (hsl : slices.flatten = List.range sh.length) :
    moved U S rc sortC t tol lt maxP C sh slices = sh.flatMap (fun i => (movePts U S rc sortC t tol lt maxP C i).map (fun x => (x, i))) := by
  unfold moved
  have h1 : ∀ (f : ℕ → List (Pt d × ℕ)) (ss : List (List ℕ)), (ss.map (fun sl => sl.flatMap f)).flatten = ss.flatten.flatMap f := by
    intro f ss
    induction ss with
    | nil => rfl
    | cons a ss ih => rw [List.map_cons, List.flatten_cons, List.flatten_cons, List.flatMap_append, ih]
  rw [h1, hsl]
  have h2 : sh = (List.range sh.length).filterMap (fun p => sh[p]?) := by
    apply List.ext_getElem?
    intro k
    have : (List.range sh.length).filterMap (fun p => sh[p]?) = (List.range sh.length).map (fun p => sh.getD p 0) := by
      rw [← List.filterMap_eq_map]
      refine List.filterMap_congr (fun p hp => ?_)
      rw [List.mem_range] at hp
      simp [hp]
    rw [this, List.getElem?_map]
    by_cases hk : k < sh.length
    · simp [hk]
    · simp [hk]
  conv_rhs => rw [h2]
  generalize List.range sh.length = l
  induction l with
  | nil => rfl
  | cons p l ih =>
    rw [List.flatMap_cons, ih, List.filterMap_cons]
    cases sh[p]? <;> simp

/-! ## the second loop -/

section
variable (sort : List ℕ → List ℕ) (t : Tree d) (nS iters : Int) (tol clamp : ℝ) (M : List (Pt d × ℕ))

/-- what one iteration computes -/
noncomputable def oneG (k : ℕ) : Option (Pt d) :=
  match M[k]? with
  | none => none
  | some (x, i) =>
    if clamp ≤ |S i| then none
    else
      let r := search U S sort t nS tol i (iters + 1).toNat [] x
      if r.1 then some r.2.1 else none

theorem foldG_spec (l : List (ℕ × ℕ)) (hl : (l.map Prod.fst).Nodup) (st : LState d)
    (h0 : ∀ k ∈ l.map Prod.fst, st.feas k = false ∧ ∀ x i, M[k]? = some (x, i) → st.points k = x) :
    let st' := l.foldl (fun st x => loopG U S sort t nS iters tol clamp M st x.1 x.2) st
    ∀ k, (k ∈ l.map Prod.fst → (st'.feas k = (oneG U S sort t nS iters tol clamp M k).isSome ∧ ∀ y, oneG U S sort t nS iters tol clamp M k = some y → st'.points k = y)) ∧
      (k ∉ l.map Prod.fst → st'.feas k = st.feas k ∧ st'.points k = st.points k) := by
  induction l generalizing st with
  | nil => intro st' k; exact ⟨by simp, fun _ => ⟨rfl, rfl⟩⟩
  | cons x l ih =>
    intro st' k
    rw [List.map_cons, List.nodup_cons] at hl
    set st1 := loopG U S sort t nS iters tol clamp M st x.1 x.2 with hst1
    have hself : st1.feas x.1 = (oneG U S sort t nS iters tol clamp M x.1).isSome ∧ ∀ y, oneG U S sort t nS iters tol clamp M x.1 = some y → st1.points x.1 = y := by
      obtain ⟨f0, p0⟩ := h0 x.1 (by simp)
      rw [hst1]
      unfold loopG oneG
      cases hM : M[x.1]? with
      | none => exact ⟨by simpa using f0, by simp⟩
      | some e =>
        obtain ⟨y, i⟩ := e
        have hp := p0 y i hM
        dsimp only
        split
        · exact ⟨by simpa using f0, by simp⟩
        · rw [f0, hp]
          obtain ⟨s1, s2⟩ := search_prims U S sort t nS tol i (iters + 1).toNat (st.prims x.2) [] y
          simp only [Bool.false_eq_true, if_false, Function.update_self]
          rw [s1, s2]
          split
          · rename_i h; exact ⟨by rw [h]; rfl, fun y hy => Option.some.inj hy⟩
          · rename_i h; exact ⟨by rw [Bool.not_eq_true] at h; rw [h]; rfl, fun y hy => (by cases hy)⟩
    have hother : ∀ k, k ≠ x.1 → st1.feas k = st.feas k ∧ st1.points k = st.points k := by
      intro k hk
      rw [hst1]
      unfold loopG
      split
      · exact ⟨rfl, rfl⟩
      · split
        · exact ⟨rfl, rfl⟩
        · simp [Function.update_of_ne hk]
    have hstep := ih hl.2 st1 (by
      intro k hk
      have hne : k ≠ x.1 := fun e => hl.1 (e ▸ hk)
      rw [(hother k hne).1, (hother k hne).2]
      exact h0 k (by simp [hk])) k
    refine ⟨fun hk => ?_, fun hk => ?_⟩
    · rw [List.map_cons, List.mem_cons] at hk
      by_cases hk' : k ∈ l.map Prod.fst
      · exact hstep.1 hk'
      · have hkx : k = x.1 := hk.resolve_right hk'
        have h2 := hstep.2 hk'
        show (List.foldl _ _ _ : LState d).feas k = _ ∧ ∀ y, _ → (List.foldl _ _ _ : LState d).points k = y
        rw [List.foldl_cons, h2.1, h2.2, hkx]
        exact hself
    · rw [List.map_cons, List.mem_cons, not_or] at hk
      have h2 := hstep.2 hk.2
      show (List.foldl _ _ _ : LState d).feas k = _ ∧ (List.foldl _ _ _ : LState d).points k = _
      rw [List.foldl_cons, h2.1, h2.2]
      exact hother k hk.1

theorem rowsG_spec [NeZero d] (l : List (ℕ × ℕ)) (hl : (l.map Prod.fst).Perm (List.range M.length)) :
    rowsG U S M (l.foldl (fun st x => loopG U S sort t nS iters tol clamp M st x.1 x.2) ⟨fun k => (M[k]?.map Prod.fst).getD 0, fun _ => false, fun _ => []⟩) =
      M.zipIdx.filterMap (fun x => (oneG U S sort t nS iters tol clamp M x.2).map (rowOf U S x.1.2)) := by
  have h := foldG_spec U S sort t nS iters tol clamp M l (hl.nodup_iff.mpr List.nodup_range) ⟨fun k => (M[k]?.map Prod.fst).getD 0, fun _ => false, fun _ => []⟩
    (fun k _ => ⟨rfl, fun x i hx => by simp [hx]⟩)
  dsimp only at h
  unfold rowsG
  rw [← List.filterMap_eq_map, List.filterMap_filter]
  refine List.filterMap_congr (fun x hx => ?_)
  have hM := List.mem_zipIdx_iff_getElem?.mp hx
  have hlt := (List.getElem?_eq_some_iff.mp hM).1
  obtain ⟨h1, h2⟩ := (h x.2).1 (hl.mem_iff.mpr (List.mem_range.mpr hlt))
  rw [h1]
  cases ho : oneG U S sort t nS iters tol clamp M x.2 with
  | none => rfl
  | some y =>
    show some (_ : Row d) = some (rowOf U S x.1.2 y)
    unfold rowOf
    dsimp only
    rw [h2 y ho]

end
end

end Gpy.Arcs
