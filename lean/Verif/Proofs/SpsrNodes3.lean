import Verif.Proofs.SpsrNodes

/-! The covariances of the nodes in `stochastic_poisson_surface_reconstruction`, in three dimensions. -/

set_option autoImplicit false
namespace Gpy.Spsr
open Np Finset

/-- from a cell that is not on the border every path that ends in the grid stays in it -/
theorem inner_row (gs : List ℕ) (hg : ∀ g ∈ gs, 0 < g) (p : GPath) (hp : p.WF gs) {c d : ℕ} (hin : ∀ o : List ℤ, o.length = gs.length → (∀ v ∈ o, |v| ≤ 1) → gnOut gs (List.zipWith (· + ·) (unrZ gs c) o) = false)
    (hd : d < gs.prod) (he : unrZ gs d = List.zipWith (· + ·) (unrZ gs c) p.disp) : (p.row gs).oob c = false ∧ (p.row gs).nb c = d := by
  have hnb := row_nb gs hg p hp c
  rw [← he, (unr_ok gs d hd).2] at hnb
  refine ⟨?_, hnb⟩
  obtain ⟨i, k⟩ := p
  cases k with
  | none =>
    exact ((gnRow_spec hp.1 c d).mpr ⟨hd, he⟩).1
  | some k =>
    simp only [GPath.disp] at he
    have h1 : gnOut gs (List.zipWith (· + ·) (unrZ gs c) i) = false := hin i hp.1.1 hp.1.2
    have h2 := ravel_ok gs _ (by simp [unrZ_length, hp.1.1]) h1
    simp only [GPath.row, Bool.or_eq_false_iff]
    constructor
    · simp only [gnRow, gnRow_idx]; exact h1
    · refine ((gnRow_spec hp.2.1 _ d).mpr ⟨hd, ?_⟩).1
      simp only [gnRow, gnRow_idx]
      rw [h2.2, zipWith_assoc]; exact he

/-- every displacement of at most two cells in each direction is that of a path -/
theorem disp_all3 (a b c : ℤ) (ha : |a| ≤ 2) (hb : |b| ≤ 2) (hc : |c| ≤ 2) : ∃ p ∈ gpaths (gnOffs3 true true), GPath.disp p = [a, b, c] := by
  have ha' := abs_le.mp ha
  have hb' := abs_le.mp hb
  have hc' := abs_le.mp hc
  have : ∀ a ∈ Finset.Icc (-2 : ℤ) 2, ∀ b ∈ Finset.Icc (-2 : ℤ) 2, ∀ c ∈ Finset.Icc (-2 : ℤ) 2, ∃ p ∈ gpaths (gnOffs3 true true), GPath.disp p = [a, b, c] := by decide +kernel
  exact this a (Finset.mem_Icc.mpr ha') b (Finset.mem_Icc.mpr hb') c (Finset.mem_Icc.mpr hc')

/-- The covariances of the nodes in three dimensions: an entry is the kernel if the neighbour is listed, 0 otherwise; the neighbours of nodes that are not on the border are all listed. -/
theorem k1_three {gs : Fin 3 → ℕ} {h corner : Pt 3} (hh : ∀ k, 0 < h k) (hg : ∀ k, 5 ≤ gs k) :
    ∃ rows K, gridNeighbors (List.ofFn gs) 2 true true true = some rows ∧ k1 gs h corner = some K ∧ K.WF ∧ K.nrows = size gs ∧ K.ncols = size gs ∧ ∀ i j : ℕ, i < size gs → j < size gs →
      ((j : ℤ) ∈ rows.map (fun f => f i) → K.get i j = kern h (node gs h corner i) (node gs h corner j)) ∧ ((j : ℤ) ∉ rows.map (fun f => f i) → K.get i j = 0) ∧
      ((∀ k : Fin 3, 1 ≤ (unravelF (List.ofFn gs) i).getD k 0 ∧ (unravelF (List.ofFn gs) i).getD k 0 + 2 ≤ gs k) → K.get i j = kern h (node gs h corner i) (node gs h corner j)) := by
  generalize hL : List.ofFn gs = L
  have hLl : L.length = 3 := by rw [← hL]; simp
  have hL5 : ∀ g ∈ L, 5 ≤ g := by
    intro g hg'
    rw [← hL] at hg'
    obtain ⟨k, rfl⟩ := List.mem_ofFn.mp hg'
    exact hg k
  have hL0 : ∀ g ∈ L, 0 < g := fun g hg' => by have := hL5 g hg'; omega
  have hsize : size gs = L.prod := by unfold size; rw [hL]
  have hwf : ∀ p ∈ gpaths (gnOffs3 true true), p.WF L := gpaths_wf (by rw [hLl]; exact offs3_small true true)
  obtain ⟨Q, q1, q2, q3, q4⟩ := sel_paths hL5 (gpaths (gnOffs3 true true)) hwf
  have hQwf : ∀ q ∈ Q, q.WF L := fun q hq => by obtain ⟨n, hn, -⟩ := q3 q hq; exact hwf q (List.mem_of_getElem? hn)
  have hQl : ∀ q ∈ Q, q.disp.length = 3 := fun q hq => by rw [(disp_small L q (hQwf q hq)).1, hLl]
  have hrows : gridNeighbors (List.ofFn gs) 2 true true true = some (Q.map (fun q (c : ℕ) => if (q.row L).oob c then -1 else ((q.row L).nb c : ℤ))) := by
    rw [hL, gridNeighbors_eq (Or.inr hLl)]
    simp only [if_true, show 2 - 1 = 1 from rfl, gnLoop, gnStep_paths]
    unfold gnOffs
    rw [if_neg (by omega), q1, List.map_map]
    rfl
  have hval : ∀ q ∈ Q, ∀ i e : ℕ, (if (q.row L).oob i then (-1 : ℤ) else ((q.row L).nb i : ℤ)) = (e : ℤ) → e < L.prod ∧ unrZ L e = List.zipWith (· + ·) (unrZ L i) q.disp := by
    intro q hq i e he
    by_cases ho : (q.row L).oob i = true
    · rw [if_pos ho] at he; omega
    · rw [if_neg ho] at he
      exact row_unr (hQwf q hq) (by simpa using ho) (by omega)
  -- interior cells
  have hinner : ∀ i : ℕ, (∀ k : Fin 3, 1 ≤ (unravelF L i).getD k 0 ∧ (unravelF L i).getD k 0 + 2 ≤ gs k) →
      ∀ o : List ℤ, o.length = L.length → (∀ v ∈ o, |v| ≤ 1) → gnOut L (List.zipWith (· + ·) (unrZ L i) o) = false := by
    intro i hi o ho hv
    have h0 := hi 0
    have h1 := hi 1
    have h2 := hi 2
    rw [hLl] at ho
    have lu : (unravelF L i).length = 3 := by rw [unravel_length, hLl]
    have eL : L = [gs 0, gs 1, gs 2] := by rw [← hL]; simp [List.ofFn_succ]
    unfold unrZ
    match hu : unravelF L i, lu with
    | [x, y, z], _ =>
      match o, ho with
      | [a, b, c], _ =>
        rw [hu] at h0 h1 h2
        have a1 := abs_le.mp (hv a (by simp))
        have a2 := abs_le.mp (hv b (by simp))
        have a3 := abs_le.mp (hv c (by simp))
        rw [eL]
        simp at h0 h1 h2
        simp [gnOut]
        omega
  have hfind : ∃ c, (List.range (size gs)).find? (fun c => (Q.map (fun q (c : ℕ) => if (q.row L).oob c then (-1 : ℤ) else ((q.row L).nb c : ℤ))).all (fun f => decide (0 ≤ f c))) = some c := by
    rw [← Option.isSome_iff_exists, List.find?_isSome]
    have eL : L = [gs 0, gs 1, gs 2] := by rw [← hL]; simp [List.ofFn_succ]
    have g0 := hg 0
    have g1 := hg 1
    have g2 := hg 2
    obtain ⟨r1, r2⟩ := ravel_ok L [2, 2, 2] (by rw [hLl]; rfl) (by rw [eL]; simp [gnOut]; omega)
    have hc : unravelF L (ravelWrapF L [2, 2, 2]) = [2, 2, 2] := by
      have := r2
      unfold unrZ at this
      have lu : (unravelF L (ravelWrapF L [2, 2, 2])).length = 3 := by rw [unravel_length, hLl]
      match hu : unravelF L (ravelWrapF L [2, 2, 2]), lu with
      | [x, y, z], _ =>
        rw [hu] at this
        simp at this
        obtain ⟨e1, e2, e3⟩ := this
        rw [show x = 2 by omega, show y = 2 by omega, show z = 2 by omega]
    refine ⟨ravelWrapF L [2, 2, 2], List.mem_range.mpr (by rw [hsize]; exact r1), ?_⟩
    rw [List.all_eq_true]
    intro f hf
    obtain ⟨q, hq, rfl⟩ := List.mem_map.mp hf
    have hsm := (disp_small L q (hQwf q hq)).2
    have hl := hQl q hq
    match hd : q.disp, hl with
    | [x, y, z], _ =>
      rw [hd] at hsm
      have hx := abs_le.mp (hsm x (by simp))
      have hy := abs_le.mp (hsm y (by simp))
      have hz := abs_le.mp (hsm z (by simp))
      obtain ⟨s1, s2⟩ := ravel_ok L [2 + x, 2 + y, 2 + z] (by rw [hLl]; rfl) (by rw [eL]; simp [gnOut]; omega)
      obtain ⟨m1, m2⟩ := inner_row L hL0 q (hQwf q hq) (hinner _ (by
        intro k
        rw [hc]
        fin_cases k <;> simp <;> omega)) s1 (by rw [s2, r2, hd]; rfl)
      simp only [m1]
      simp
  obtain ⟨c, hc⟩ := hfind
  have hlt : ∀ f ∈ Q.map (fun q (c : ℕ) => if (q.row L).oob c then (-1 : ℤ) else ((q.row L).nb c : ℤ)), ∀ i : ℕ, i < size gs → f i < ((size gs : ℕ) : ℤ) := by
    intro f hf i hi
    obtain ⟨q, hq, rfl⟩ := List.mem_map.mp hf
    by_cases ho : (q.row L).oob i = true
    · simp only [ho, if_true]; omega
    · have := hval q hq i _ (if_neg ho)
      simp only [if_neg ho]
      rw [hsize]
      exact_mod_cast this.1
  have h0 : 0 < size gs := by
    rw [hsize]
    exact List.prod_pos hL0
  obtain ⟨K, k1', k2', k3', k4', k5'⟩ := k1_get (h := h) (corner := corner) hrows hc hlt h0
  refine ⟨_, K, by rw [← hL]; exact hrows, k1', k2', k3', k4', ?_⟩
  intro i j hi hj
  have hi' : i < L.prod := by rw [← hsize]; exact hi
  have hj' : j < L.prod := by rw [← hsize]; exact hj
  have hcv := List.find?_some hc
  rw [List.all_eq_true] at hcv
  have hdisp : ∃ o : List ℤ, o.length = 3 ∧ unrZ L j = List.zipWith (· + ·) (unrZ L i) o := by
    have l1 := unrZ_length L i
    have l2 := unrZ_length L j
    rw [hLl] at l1 l2
    match hu : unrZ L i, l1 with
    | [a, b, c], _ =>
      match hv : unrZ L j, l2 with
      | [a', b', c'], _ => exact ⟨[a' - a, b' - b, c' - c], rfl, by simp⟩
  obtain ⟨o, ol, oj⟩ := hdisp
  have hne : ∀ q ∈ Q, GPath.disp q ≠ o → (if (if (q.row L).oob i = true then (-1 : ℤ) else ((q.row L).nb i : ℤ)) = (j : ℤ) then
      kern h (node gs h corner c) (node gs h corner (if (q.row L).oob c = true then (-1 : ℤ) else ((q.row L).nb c : ℤ)).toNat) else 0) = 0 := by
    intro q hq hne
    rw [if_neg]
    intro he
    obtain ⟨-, e2⟩ := hval q hq i j he
    rw [oj] at e2
    refine hne ?_
    exact (zipWith_add_inj (by rw [ol, unrZ_length, hLl]) (by rw [hQl q hq, unrZ_length, hLl]) e2).symm
  have hk : ∀ q ∈ Q, GPath.disp q = o → kern h (node gs h corner c) (node gs h corner (if (q.row L).oob c = true then (-1 : ℤ) else ((q.row L).nb c : ℤ)).toNat) =
      kern h (node gs h corner i) (node gs h corner j) := by
    intro q hq he
    have hcq := hcv _ (List.mem_map_of_mem hq)
    simp only [decide_eq_true_eq] at hcq
    generalize hz : (if (q.row L).oob c = true then (-1 : ℤ) else ((q.row L).nb c : ℤ)) = z at *
    obtain ⟨e, rfl⟩ := Int.eq_ofNat_of_zero_le hcq
    obtain ⟨-, e2⟩ := hval q hq c e hz
    rw [Int.toNat_natCast]
    rw [he] at e2
    refine kern_sub h (fun k => ?_)
    rw [node_diff ol (by rw [hL]; exact e2) k, node_diff ol (by rw [hL]; exact oj) k]
  have hlisted : (j : ℤ) ∈ (Q.map (fun q (c : ℕ) => if (q.row L).oob c then (-1 : ℤ) else ((q.row L).nb c : ℤ))).map (fun f => f i) → K.get i j = kern h (node gs h corner i) (node gs h corner j) := by
    intro hm
    rw [List.map_map, List.mem_map] at hm
    obtain ⟨q0, hq0, e0⟩ := hm
    simp only [Function.comp_apply] at e0
    have hd0 : GPath.disp q0 = o := by
      by_contra hd
      obtain ⟨-, e2⟩ := hval q0 hq0 i j e0
      rw [oj] at e2
      exact hd (zipWith_add_inj (by rw [ol, unrZ_length, hLl]) (by rw [hQl q0 hq0, unrZ_length, hLl]) e2).symm
    rw [k5' i j hi, List.map_map]
    refine nodup_map_sum Q GPath.disp o _ _ q2 ?_ ?_ ?_
    · intro q hq hd
      exact hne q hq hd
    · intro q hq hd
      have : q = q0 := List.inj_on_of_nodup_map q2 hq hq0 (by rw [hd, hd0])
      subst this
      simp only [Function.comp_apply]
      rw [if_pos e0]
      exact hk q hq hd
    · intro hno
      exact absurd (List.mem_map.mpr ⟨q0, hq0, hd0⟩) hno
  refine ⟨hlisted, ?_, ?_⟩
  · intro hm
    rw [k5' i j hi, List.map_map]
    apply List.sum_eq_zero
    intro x hx
    obtain ⟨q, hq, rfl⟩ := List.mem_map.mp hx
    simp only [Function.comp_apply]
    rw [if_neg]
    intro he
    refine hm ?_
    rw [List.map_map, List.mem_map]
    exact ⟨q, hq, he⟩
  · intro hint
    by_cases hbig : ∃ k : Fin 3, 2 < |o.getD k.val 0|
    · obtain ⟨k, hkb⟩ := hbig
      have e1 : kern h (node gs h corner i) (node gs h corner j) = 0 := by
        refine kern_zero_le hh k ?_
        rw [node_diff ol (by rw [hL]; exact oj) k, abs_neg, abs_mul, abs_of_pos (hh k)]
        have h3 : (3 : ℝ) ≤ |((o.getD k.val 0 : ℤ) : ℝ)| := by
          rw [← Int.cast_abs]
          exact_mod_cast hkb
        have := minH_le h k
        have := hh k
        nlinarith [minH_pos (by norm_num) hh]
      rw [e1, k5' i j hi, List.map_map]
      apply List.sum_eq_zero
      intro x hx
      obtain ⟨q, hq, rfl⟩ := List.mem_map.mp hx
      refine hne q hq ?_
      rintro rfl
      have := (disp_small L q (hQwf q hq)).2 (q.disp.getD k.val 0) (by
        rw [List.getD_eq_getElem _ _ (by rw [ol]; exact k.isLt)]
        exact List.getElem_mem _)
      omega
    · push Not at hbig
      obtain ⟨p, hp, hpd⟩ : ∃ p ∈ gpaths (gnOffs3 true true), GPath.disp p = o := by
        match ho : o, ol with
        | [a, b, e], _ => exact disp_all3 a b e (by simpa using hbig 0) (by simpa using hbig 1) (by simpa using hbig 2)
      obtain ⟨q, hq, hqd⟩ := q4 p hp
      obtain ⟨m1, m2⟩ := inner_row L hL0 q (hQwf q hq) (hinner i hint) hj' (by rw [hqd, hpd]; exact oj)
      refine hlisted ?_
      rw [List.map_map, List.mem_map]
      refine ⟨q, hq, ?_⟩
      simp only [Function.comp_apply]
      rw [m1, m2]
      simp

end Gpy.Spsr
