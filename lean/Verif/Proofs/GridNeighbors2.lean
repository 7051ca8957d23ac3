import Verif.Proofs.GridNeighbors

/-! order two with `output_unique=True` -/

set_option autoImplicit false
namespace Gpy
open Np Finset Gpy.Spec

abbrev GPath := List ℤ × Option (List ℤ)

def GPath.disp : GPath → List ℤ
  | (i, none) => i
  | (i, some k) => List.zipWith (· + ·) i k

def GPath.mono : GPath → Bool
  | (_, none) => true
  | (i, some k) => (List.zipWith (fun a b : ℤ => decide (0 ≤ a * b)) i k).all id

def GPath.row (gs : List ℕ) : GPath → GRow
  | (i, none) => gnRow gs i
  | (i, some k) => ⟨fun c => (gnRow gs k).nb ((gnRow gs i).nb c), fun c => (gnRow gs i).oob c || (gnRow gs k).oob ((gnRow gs i).nb c)⟩

def gpaths (offs : List (List ℤ)) : List GPath :=
  offs.map (fun o => (o, none)) ++ offs.flatMap (fun i => offs.map (fun k => (i, some k)))

theorem gnStep_paths (gs : List ℕ) (offs : List (List ℤ)) : gnStep (offs.map (gnRow gs)) = (gpaths offs).map (GPath.row gs) := by
  unfold gnStep gpaths
  rw [List.map_append, List.map_map, List.flatMap_map, List.map_flatMap]
  congr 1
  apply List.flatMap_congr
  intro i _
  rw [List.map_map, List.map_map]
  rfl

/-- the first path with a given displacement does not go back and forth -/
def firstOk : List (List ℤ) → List GPath → Bool
  | _, [] => true
  | seen, p :: t =>
    if p.disp ∈ seen then firstOk seen t
    else (p.mono || p.disp.all (· == 0)) && firstOk (p.disp :: seen) t

theorem firstOk_get : ∀ (P : List GPath) (seen : List (List ℤ)), firstOk seen P = true → ∀ (n : ℕ) (p : GPath), P[n]? = some p →
    (∀ (m : ℕ) (q : GPath), m < n → P[m]? = some q → q.disp ≠ p.disp) → p.disp ∉ seen → p.mono = true ∨ ∀ v ∈ p.disp, v = 0 := by
  intro P
  induction P with
  | nil => intro _ _ n p h; simp at h
  | cons a t ih =>
    intro seen hok n p hp hfirst hns
    cases n with
    | zero =>
      simp only [List.getElem?_cons_zero, Option.some.injEq] at hp
      subst hp
      simp only [firstOk, if_neg hns, Bool.and_eq_true, Bool.or_eq_true, List.all_eq_true, beq_iff_eq] at hok
      exact hok.1
    | succ n =>
      rw [List.getElem?_cons_succ] at hp
      have hf : ∀ (m : ℕ) (q : GPath), m < n → t[m]? = some q → q.disp ≠ p.disp := by
        intro m q hm hq
        exact hfirst (m + 1) q (by omega) (by rw [List.getElem?_cons_succ]; exact hq)
      by_cases ha : a.disp ∈ seen
      · simp only [firstOk, if_pos ha] at hok
        exact ih seen hok n p hp hf hns
      · simp only [firstOk, if_neg ha, Bool.and_eq_true] at hok
        refine ih _ hok.2 n p hp hf ?_
        rw [List.mem_cons, not_or]
        exact ⟨fun h => hfirst 0 a (by omega) rfl h.symm, hns⟩

theorem firstOk2 (diag self : Bool) : firstOk [] (gpaths (gnOffs2 diag self)) = true := by
  cases diag <;> cases self <;> decide +kernel

/-- in 3D with diagonals it may (see `C36_order2_diagonal_violated`) -/
theorem firstOk3 (self : Bool) : firstOk [] (gpaths (gnOffs3 false self)) = true := by
  cases self <;> decide +kernel

theorem unrZ_length (gs : List ℕ) (c : ℕ) : (unrZ gs c).length = gs.length := by simp [unrZ, unr_length]

/-- wrapping twice is wrapping once -/
theorem ravel_ravel (gs : List ℕ) (hg : ∀ g ∈ gs, 0 < g) : ∀ l o : List ℤ, l.length = gs.length → o.length = gs.length →
    ravelWrapF gs (List.zipWith (· + ·) (unrZ gs (ravelWrapF gs l)) o) = ravelWrapF gs (List.zipWith (· + ·) l o) := by
  induction gs with
  | nil => intro l o h1 h2; cases l <;> cases o <;> simp_all [ravelWrapF]
  | cons g gs ih =>
    intro l o h1 h2
    cases l with
    | nil => simp at h1
    | cons i l =>
      cases o with
      | nil => simp at h2
      | cons j o =>
        have hg0 : (0 : ℤ) < g := by have := hg g (by simp); omega
        have m1 := Int.emod_nonneg i hg0.ne'
        have m2 := Int.emod_lt_of_pos i hg0
        have t1 : (i % (g : ℤ)).toNat < g := by omega
        have ih' := ih (fun g hg' => hg g (by simp [hg'])) l o (by simpa using h1) (by simpa using h2)
        unfold unrZ at ih' ⊢
        simp only [ravelWrapF, unravelF, List.map_cons, List.zipWith_cons_cons]
        rw [Nat.add_mul_mod_self_left, Nat.mod_eq_of_lt t1, Nat.add_mul_div_left _ _ (by omega : 0 < g), Nat.div_eq_of_lt t1, Nat.zero_add, ih']
        congr 2
        rw [show (((i % (g : ℤ)).toNat : ℕ) : ℤ) = i % (g : ℤ) by omega, Int.emod_add_emod]

theorem zipWith_assoc (a b e : List ℤ) : List.zipWith (· + ·) (List.zipWith (· + ·) a b) e = List.zipWith (· + ·) a (List.zipWith (· + ·) b e) := by
  induction a generalizing b e with
  | nil => simp
  | cons x a ih => cases b <;> cases e <;> simp_all [add_assoc]

def GPath.WF (gs : List ℕ) : GPath → Prop
  | (i, none) => i.length = gs.length ∧ ∀ v ∈ i, |v| ≤ 1
  | (i, some k) => (i.length = gs.length ∧ ∀ v ∈ i, |v| ≤ 1) ∧ (k.length = gs.length ∧ ∀ v ∈ k, |v| ≤ 1)

theorem row_nb (gs : List ℕ) (hg : ∀ g ∈ gs, 0 < g) (p : GPath) (hp : p.WF gs) (c : ℕ) :
    (p.row gs).nb c = ravelWrapF gs (List.zipWith (· + ·) (unrZ gs c) p.disp) := by
  obtain ⟨i, k⟩ := p
  cases k with
  | none => simp only [GPath.row, GPath.disp, gnRow, gnRow_idx]
  | some k =>
    simp only [GPath.row, GPath.disp, gnRow, gnRow_idx]
    rw [ravel_ravel gs hg _ _ (by simp [unrZ_length, hp.1.1]) hp.2.1, zipWith_assoc]

theorem disp_small (gs : List ℕ) (p : GPath) (hp : p.WF gs) : p.disp.length = gs.length ∧ ∀ v ∈ p.disp, |v| ≤ 2 := by
  obtain ⟨i, k⟩ := p
  cases k with
  | none => exact ⟨hp.1, fun v hv => (hp.2 v hv).trans (by norm_num)⟩
  | some k =>
    refine ⟨by simp [GPath.disp, hp.1.1, hp.2.1], ?_⟩
    intro v hv
    simp only [GPath.disp] at hv
    have : ∀ a b : List ℤ, (∀ v ∈ a, |v| ≤ 1) → (∀ v ∈ b, |v| ≤ 1) → ∀ v ∈ List.zipWith (· + ·) a b, |v| ≤ 2 := by
      intro a
      induction a with
      | nil => intro b _ _ v hv; simp at hv
      | cons x a ih =>
        intro b h1 h2 v hv
        cases b with
        | nil => simp at hv
        | cons y b =>
          rw [List.zipWith_cons_cons, List.mem_cons] at hv
          rcases hv with rfl | hv
          · have e1 := h1 x (by simp)
            have e2 := h2 y (by simp)
            have := abs_add_le x y
            omega
          · exact ih b (fun v hv => h1 v (by simp [hv])) (fun v hv => h2 v (by simp [hv])) v hv
    exact this i k hp.1.2 hp.2.2 v hv

theorem between_ok (gs : List ℕ) : ∀ u i k : List ℤ, gnOut gs u = false →
    gnOut gs (List.zipWith (· + ·) u (List.zipWith (· + ·) i k)) = false → u.length = gs.length → i.length = gs.length → k.length = gs.length →
    (List.zipWith (fun a b : ℤ => decide (0 ≤ a * b)) i k).all id = true → gnOut gs (List.zipWith (· + ·) u i) = false := by
  induction gs with
  | nil => intro u i k _ _ _ _ _ _; cases u <;> cases i <;> simp_all [gnOut]
  | cons g gs ih =>
    intro u i k h1 h2 l1 l2 l3 hm
    cases u with
    | nil => simp at l1
    | cons u us =>
      cases i with
      | nil => simp at l2
      | cons i is =>
        cases k with
        | nil => simp at l3
        | cons k ks =>
          simp only [List.zipWith_cons_cons, gnOut, Bool.or_eq_false_iff, decide_eq_false_iff_not, not_lt, not_le, List.all_cons, id_eq,
            Bool.and_eq_true, decide_eq_true_eq] at *
          refine ⟨?_, ih us is ks h1.2 h2.2 (by simpa using l1) (by simpa using l2) (by simpa using l3) hm.2⟩
          obtain ⟨⟨a1, a2⟩, _⟩ := h1
          obtain ⟨⟨b1, b2⟩, _⟩ := h2
          rcases mul_nonneg_iff.mp hm.1 with ⟨c1, c2⟩ | ⟨c1, c2⟩ <;> constructor <;> omega

/-- the selected row lists the cell -/
theorem mono_row (gs : List ℕ) (hg : ∀ g ∈ gs, 0 < g) (p : GPath) (hp : p.WF gs) (hm : p.mono = true) {c d : ℕ} (hc : c < gs.prod) (hd : d < gs.prod)
    (he : unrZ gs d = List.zipWith (· + ·) (unrZ gs c) p.disp) : (p.row gs).oob c = false ∧ (p.row gs).nb c = d := by
  have hnb := row_nb gs hg p hp c
  rw [← he, (unr_ok gs d hd).2] at hnb
  refine ⟨?_, hnb⟩
  obtain ⟨i, k⟩ := p
  cases k with
  | none =>
    exact ((gnRow_spec hp.1 c d).mpr ⟨hd, he⟩).1
  | some k =>
    simp only [GPath.disp] at he
    have h1 : gnOut gs (List.zipWith (· + ·) (unrZ gs c) i) = false := by
      refine between_ok gs _ i k (unr_ok gs c hc).1 ?_ (unrZ_length gs c) hp.1.1 hp.2.1 hm
      rw [← he]; exact (unr_ok gs d hd).1
    have h2 := ravel_ok gs _ (by simp [unrZ_length, hp.1.1]) h1
    simp only [GPath.row, Bool.or_eq_false_iff]
    constructor
    · simp only [gnRow, gnRow_idx]; exact h1
    · refine ((gnRow_spec hp.2.1 _ d).mpr ⟨hd, ?_⟩).1
      simp only [gnRow, gnRow_idx]
      rw [h2.2, zipWith_assoc]; exact he

theorem gpaths_wf {gs : List ℕ} {offs : List (List ℤ)} (ho : ∀ o ∈ offs, o.length = gs.length ∧ ∀ v ∈ o, |v| ≤ 1) :
    ∀ p ∈ gpaths offs, p.WF gs := by
  intro p hp
  unfold gpaths at hp
  rw [List.mem_append] at hp
  rcases hp with hp | hp
  · obtain ⟨o, h, rfl⟩ := List.mem_map.mp hp; exact ho o h
  · obtain ⟨i, hi, hp⟩ := List.mem_flatMap.mp hp
    obtain ⟨k, hk, rfl⟩ := List.mem_map.mp hp
    exact ⟨ho i hi, ho k hk⟩

theorem row_unr {gs : List ℕ} {p : GPath} (hp : p.WF gs) {c d : ℕ} (h1 : (p.row gs).oob c = false) (h2 : (p.row gs).nb c = d) :
    d < gs.prod ∧ unrZ gs d = List.zipWith (· + ·) (unrZ gs c) p.disp := by
  obtain ⟨i, k⟩ := p
  cases k with
  | none => exact (gnRow_spec hp.1 c d).mp ⟨h1, h2⟩
  | some k =>
    simp only [GPath.row, Bool.or_eq_false_iff] at h1 h2
    obtain ⟨_, e1⟩ := (gnRow_spec hp.1.1 c _).mp ⟨h1.1, rfl⟩
    obtain ⟨e2, e3⟩ := (gnRow_spec hp.2.1 _ d).mp ⟨h1.2, h2⟩
    refine ⟨e2, ?_⟩
    rw [e3, e1, GPath.disp, zipWith_assoc]

theorem lt_idxOf_ne {l : List ℕ} {v : ℕ} {m : ℕ} (h : m < l.idxOf v) : ∀ w, l[m]? = some w → w ≠ v := by
  intro w hw hv
  subst hv
  unfold List.idxOf at h
  have := List.not_of_lt_findIdx h
  obtain ⟨hm, e⟩ := List.getElem?_eq_some_iff.mp hw
  rw [e] at this
  simp at this

theorem select_complete {gs : List ℕ} (hg5 : ∀ g ∈ gs, 5 ≤ g) (P : List GPath) (hP : ∀ p ∈ P, p.WF gs) (hok : firstOk [] P = true) {c d : ℕ}
    (hc : c < gs.prod) (hne : d ≠ c) (h : Rel (P.map (GPath.row gs)) c d) :
    Rel ((npUniqueIndex ((P.map (GPath.row gs)).map (fun r => r.nb 0))).filterMap (fun k => (P.map (GPath.row gs))[k]?)) c d := by
  have hg0 : ∀ g ∈ gs, 0 < g := fun g hg => by have := hg5 g hg; omega
  obtain ⟨r, hr, h1, h2⟩ := h
  obtain ⟨p, hp, rfl⟩ := List.mem_map.mp hr
  obtain ⟨hd, hu⟩ := row_unr (hP p hp) h1 h2
  set l := (P.map (GPath.row gs)).map (fun r => r.nb 0) with hl
  set v := (p.row gs).nb 0 with hv
  have hvl : v ∈ l := by rw [hl, List.mem_map]; exact ⟨_, hr, rfl⟩
  have hidx := List.getElem?_idxOf hvl
  have col : ∀ q ∈ P, (q.row gs).nb 0 = v → q.disp = p.disp := by
    intro q hq he
    rw [hv, row_nb gs hg0 q (hP q hq), row_nb gs hg0 p (hP p hp), unrZ_zero gs _ (disp_small gs q (hP q hq)).1,
      unrZ_zero gs _ (disp_small gs p (hP p hp)).1] at he
    exact ravel_inj (B := 2) gs (fun g hg => by have := hg5 g hg; omega) _ _ (disp_small gs q (hP q hq)).1 (disp_small gs p (hP p hp)).1
      (disp_small gs q (hP q hq)).2 (disp_small gs p (hP p hp)).2 he
  rw [hl, List.getElem?_map, List.getElem?_map] at hidx
  rw [← hl] at hidx
  obtain ⟨q, hq, hqv⟩ : ∃ q, P[l.idxOf v]? = some q ∧ (q.row gs).nb 0 = v := by
    cases hh : P[l.idxOf v]? with
    | none => rw [hh] at hidx; simp at hidx
    | some q => rw [hh] at hidx; exact ⟨q, rfl, by simpa using hidx⟩
  have hqP := List.mem_of_getElem? hq
  have hqd := col q hqP hqv
  have hmono : q.mono = true := by
    have := firstOk_get P [] hok (l.idxOf v) q hq ?_ (by simp)
    · rcases this with h | h
      · exact h
      · exfalso
        apply hne
        apply unr_inj hd hc
        rw [hu, ← hqd]
        have hlen : q.disp.length = (unrZ gs c).length := by rw [(disp_small gs q (hP q hqP)).1, unrZ_length]
        revert h hlen
        generalize unrZ gs c = u
        generalize q.disp = w
        intro h hlen
        induction u generalizing w with
        | nil => simp
        | cons a u ih =>
          cases w with
          | nil => simp at hlen
          | cons b w =>
            rw [List.zipWith_cons_cons, ih w (fun v hv => h v (by simp [hv])) (by simpa using hlen), h b (by simp), add_zero]
    · intro m q' hm hq' hd'
      have hq'P := List.mem_of_getElem? hq'
      refine lt_idxOf_ne hm ((q'.row gs).nb 0) ?_ ?_
      · rw [hl, List.getElem?_map, List.getElem?_map, hq']; rfl
      · rw [← hqv, row_nb gs hg0 q' (hP q' hq'P), row_nb gs hg0 q (hP q hqP), hd']
  obtain ⟨o1, o2⟩ := mono_row gs hg0 q (hP q hqP) hmono hc hd (by rw [hqd]; exact hu)
  refine ⟨q.row gs, ?_, o1, o2⟩
  rw [List.mem_filterMap]
  refine ⟨l.idxOf v, ?_, by rw [List.getElem?_map, hq]; rfl⟩
  unfold npUniqueIndex npUnique
  rw [List.mem_map]
  refine ⟨v, ?_, rfl⟩
  rw [List.mem_insertionSort, List.mem_dedup]; exact hvl

end Gpy
