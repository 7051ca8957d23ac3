import Verif.Proofs.Raster
import Verif.Spec.Raster
import Mathlib.Data.Fin.VecNotation
import Mathlib.Tactic.FinCases
import Mathlib.Tactic.NormNum

/-!
# C107: outside points from rasterisation (`reach_for_the_arcs`)
-/

set_option autoImplicit false
namespace Gpy.Raster
open Classical

variable {d : ℕ}

section
variable (env : Env d) (he : EnvOk env) (n : ℕ) (U : ℕ → Pt d) (S : ℕ → ℝ) (res numSpheres : Int) (narrow : Bool)

include he in
theorem used_ok (hn : 0 < n) : 0 < (used env n numSpheres).length ∧ ∀ i ∈ used env n numSpheres, i < n := by
  unfold used
  split
  · rename_i h
    obtain ⟨h1, -, h3⟩ := he.choice n numSpheres.toNat (by omega)
    exact ⟨by rw [h1]; omega, h3⟩
  · simpa using hn

include he in
/-- the result as a list of cells of the window -/
theorem raster_cells (P : List (Pt d)) (h : pyRaster env n U S res numSpheres narrow = some P) :
    0 < n ∧ 2 ≤ (resOf res).toNat ∧ ∃ lo hi : Fin d → ℕ, (∀ c ∈ cells lo hi, ∀ j, c j < (resOf res).toNat) ∧ ∃ ξ : (Fin d → ℕ) → Fin d → ℝ, (∀ c j, 0 ≤ ξ c j ∧ ξ c j < 1) ∧
      ∃ L : List (Fin d → ℕ), L.Nodup ∧ P = L.map (cellPt (resOf res).toNat ξ) ∧
        (∀ c, c ∈ L ↔ c ∈ cells lo hi ∧ ¬ InShrunk (used env n numSpheres) U S (cellPt (resOf res).toNat ξ c) ∧
          (narrow = true → ∃ c' ∈ cells lo hi, Touch c c' ∧ InShrunk (used env n numSpheres) U S (cellPt (resOf res).toNat ξ c'))) ∧
        ((∀ i < n, S i ≠ 0) → ∀ c c', (∀ j, c j < (resOf res).toNat) → (∀ j, c' j < (resOf res).toNat) → Touch c c' →
          InShrunk (used env n numSpheres) U S (cellPt (resOf res).toNat ξ c) → c' ∈ cells lo hi) := by
  unfold pyRaster at h
  split at h
  · simp at h
  rename_i h1
  push Not at h1
  split at h
  · simp at h
  split at h
  · simp at h
  rename_i h3
  have hN : 2 ≤ (resOf res).toNat := by unfold resOf; split <;> omega
  have hn : 0 < n := Nat.pos_of_ne_zero h1.1
  refine ⟨hn, hN, ?_⟩
  generalize (resOf res).toNat = N at *
  dsimp only at h
  rw [Option.some.injEq] at h
  subst h
  obtain ⟨hm, hlt⟩ := used_ok env he n numSpheres hn
  generalize used env n numSpheres = L at *
  set U' : ℕ → Pt d := fun k => U (L.getD k 0) with hU'
  set r' : ℕ → ℝ := fun k => |S (L.getD k 0)| with hr'
  have hget : ∀ k < L.length, L.getD k 0 ∈ L := fun k hk => by rw [List.getD_eq_getElem?_getD, List.getElem?_eq_getElem hk]; exact List.getElem_mem _
  have hUb : ∀ k < L.length, ∀ j, 0 ≤ U' k j ∧ U' k j ≤ 1 := fun k hk j => h1.2 _ (hlt _ (hget k hk)) j
  have hrb : ∀ k < L.length, 0 ≤ r' k := fun k _ => abs_nonneg _
  have hocc : ∀ x : Pt d, Occ L.length U' r' x ↔ InShrunk L U S x := by
    intro x
    unfold Occ InShrunk
    constructor
    · rintro ⟨k, hk, h⟩
      refine ⟨L.getD k 0, hget k hk, ?_⟩
      rw [hU', hr'] at h
      dsimp only at h
      rw [sq_abs] at h
      linarith
    · rintro ⟨i, hi, h⟩
      obtain ⟨k, hk, rfl⟩ := List.mem_iff_getElem.mp hi
      refine ⟨k, hk, ?_⟩
      rw [hU', hr']
      dsimp only
      have : L.getD k 0 = L[k] := by rw [List.getD_eq_getElem?_getD, List.getElem?_eq_getElem hk]; rfl
      rw [this, sq_abs]
      linarith
  set lo := bbLo N L.length U' r' with hlo
  set hi := bbHi N L.length U' r' with hhi
  have hN0 : 0 < N := by omega
  refine ⟨lo, hi, fun c hc j => lt_of_window N L.length U' r' hN0 hm hUb hrb c hc j, offset lo hi env.rnd, fun c j => offset_range env.rnd he.rnd lo hi c j, ?_⟩
  have hj := joined_spec N L.length U' r' hN0 hm hUb hrb env.rnd he.rnd (env.asg L.length) (he.asg _) env.junkP env.junkG
  have hp := pts_spec N L.length U' r' hN0 hm hUb hrb env.rnd env.junkP
  unfold rasterCpu
  dsimp only
  rw [← hlo, ← hhi] at hj hp ⊢
  refine ⟨_, (nodup_cells lo hi).filter _, List.map_congr_left (fun c hc => hp c (List.mem_filter.mp hc).1), fun c => ?_, ?_⟩
  · rw [List.mem_filter]
    refine and_congr_right (fun hc => ?_)
    rw [decide_eq_true_eq]
    have hfree : ∀ c ∈ cells lo hi, (joined N lo hi (grids N U' r' (gridPts N lo hi env.rnd env.junkP) (env.asg L.length)) env.junkG (emb N c) = false ↔
        ¬ InShrunk L U S (cellPt N (offset lo hi env.rnd) c)) := by
      intro c hc
      rw [← Bool.not_eq_true, hj c hc, hocc]
      rfl
    cases narrow with
    | false => simpa using hfree c hc
    | true =>
      have hns := narrowed_spec N L.length U' r' hN0 hm hUb hrb env.junkN (joined N lo hi (grids N U' r' (gridPts N lo hi env.rnd env.junkP) (env.asg L.length)) env.junkG) c hc
      rw [← hlo, ← hhi] at hns
      rw [if_pos rfl, hns, hfree c hc]
      refine and_congr_right (fun _ => ?_)
      simp only [forall_const]
      constructor
      · rintro ⟨c', hc', hnb, h⟩
        exact ⟨c', hc', hnb, (hocc _).mp ((hj c' hc').mp h)⟩
      · rintro ⟨c', hc', hnb, h⟩
        exact ⟨c', hc', hnb, (hj c' hc').mpr ((hocc _).mpr h)⟩
  · intro hS c c' hcn hcn' ht hin
    refine (mem_cells lo hi c').mpr ?_
    exact window N L.length U' r' (fun k hk => abs_pos.mpr (hS _ (hlt _ (hget k hk)))) (cellPt N (offset lo hi env.rnd) c) c c' hcn' hcn (offset lo hi env.rnd c)
      (offset_range env.rnd he.rnd lo hi c) rfl ((hocc _).mpr hin) ht

/-- The call is refused without samples, for samples outside the unit box, in other dimensions, and for a resolution below two. -/
theorem C107_refused (h : n = 0 ∨ (∃ i < n, ∃ j, U i j < 0 ∨ 1 < U i j) ∨ (d ≠ 2 ∧ d ≠ 3) ∨ res < 2) : pyRaster env n U S res numSpheres narrow = none := by
  unfold pyRaster
  by_cases h1 : n = 0 ∨ ¬ (∀ i < n, ∀ j, 0 ≤ U i j ∧ U i j ≤ 1)
  · rw [if_pos h1]
  rw [if_neg h1]
  by_cases h2 : ¬ (d = 2 ∨ d = 3)
  · rw [if_pos h2]
  rw [if_neg h2]
  rw [if_pos]
  push Not at h1
  rcases h with h | ⟨i, hi, j, h⟩ | h | h
  · exact absurd h h1.1
  · have := h1.2 i hi j
    rcases h with h | h <;> linarith
  · exact absurd h (by tauto)
  · omega

/-- The call returns whenever its assertions hold. -/
theorem C107_returns (hn : 0 < n) (hU : ∀ i < n, ∀ j, 0 ≤ U i j ∧ U i j ≤ 1) (hd : d = 2 ∨ d = 3) (hres : 2 ≤ res) : ∃ P, pyRaster env n U S res numSpheres narrow = some P := by
  unfold pyRaster
  rw [if_neg (by push Not; exact ⟨hn.ne', hU⟩), if_neg (not_not_intro hd), if_neg (by omega)]
  exact ⟨_, rfl⟩

include he in
/-- Every point returned is in the unit box and outside all spheres that are used, when their squared radius is shrunk by 0.95. -/
theorem C107_outside (P : List (Pt d)) (h : pyRaster env n U S res numSpheres narrow = some P) :
    ∀ p ∈ P, (∀ j, 0 ≤ p j ∧ p j < 1) ∧ ∀ i ∈ used env n numSpheres, 95 / 100 * S i ^ 2 < psq (p - U i) := by
  obtain ⟨hn, hN, lo, hi, hlt, ξ, hξ, L, -, rfl, hL, -⟩ := raster_cells env he n U S res numSpheres narrow P h
  intro p hp
  obtain ⟨c, hc, rfl⟩ := List.mem_map.mp hp
  obtain ⟨hc, hfree, -⟩ := (hL c).mp hc
  constructor
  · intro j
    have hN0 : (0 : ℝ) < (resOf res).toNat := by exact_mod_cast (by omega : 0 < (resOf res).toNat)
    have h1 := hξ c j
    have h2 : (c j : ℝ) + 1 ≤ (resOf res).toNat := by exact_mod_cast hlt c hc j
    unfold cellPt
    constructor
    · exact div_nonneg (by linarith [(Nat.cast_nonneg (c j) : (0 : ℝ) ≤ c j)]) hN0.le
    · rw [div_lt_one hN0]; linarith
  · intro i hi
    by_contra hcon
    exact hfree ⟨i, hi, not_lt.mp hcon⟩

include he in
/-- With the narrow band (as `reach_for_the_arcs` does), and samples none of which is zero: there is one random point in every cell of the grid, and the points returned are those
that are in no shrunk sphere and whose cell touches a cell with a point in one, each once. -/
theorem C107_band (hS : ∀ i < n, S i ≠ 0) (P : List (Pt d)) (h : pyRaster env n U S res numSpheres true = some P) :
    ∃ ξ : (Fin d → ℕ) → Fin d → ℝ, (∀ c j, 0 ≤ ξ c j ∧ ξ c j < 1) ∧ ∃ L : List (Fin d → ℕ), L.Nodup ∧ P = L.map (cellPt (resOf res).toNat ξ) ∧
      ∀ c, c ∈ L ↔ (∀ j, c j < (resOf res).toNat) ∧ ¬ InShrunk (used env n numSpheres) U S (cellPt (resOf res).toNat ξ c) ∧
        ∃ c', (∀ j, c' j < (resOf res).toNat) ∧ Touch c c' ∧ InShrunk (used env n numSpheres) U S (cellPt (resOf res).toNat ξ c') := by
  obtain ⟨hn, hN, lo, hi, hlt, ξ, hξ, L, hnd, hP, hL, hwin⟩ := raster_cells env he n U S res numSpheres true P h
  refine ⟨ξ, hξ, L, hnd, hP, fun c => ?_⟩
  rw [hL c]
  simp only [forall_const]
  constructor
  · rintro ⟨hc, hf, c', hc', ht, ho⟩
    exact ⟨hlt c hc, hf, c', hlt c' hc', ht, ho⟩
  · rintro ⟨hc, hf, c', hc', ht, ho⟩
    refine ⟨hwin hS c' c hc' hc (fun j => ⟨(ht j).2, (ht j).1⟩) ho, hf, c', ?_, ht, ho⟩
    exact hwin hS c' c' hc' hc' (fun j => ⟨by omega, by omega⟩) ho

include he in
/-- The result does not depend on the threads, nor on what was in the memory that is not initialised. -/
theorem C107_threads (env' : Env d) (he' : EnvOk env') (h1 : env'.choice = env.choice) (h2 : env'.rnd = env.rnd) :
    pyRaster env' n U S res numSpheres narrow = pyRaster env n U S res numSpheres narrow := by
  unfold pyRaster
  split
  · rfl
  rename_i hU
  push Not at hU
  split
  · rfl
  split
  · rfl
  rename_i hres
  have hN : 0 < (resOf res).toNat := by unfold resOf; split <;> omega
  have hn : 0 < n := Nat.pos_of_ne_zero hU.1
  have hu : used env' n numSpheres = used env n numSpheres := by unfold used; rw [h1]
  dsimp only
  rw [hu, h2]
  congr 1
  obtain ⟨hm, hlt⟩ := used_ok env he n numSpheres hn
  generalize used env n numSpheres = L at *
  generalize (resOf res).toNat = N at *
  set U' : ℕ → Pt d := fun k => U (L.getD k 0) with hU'
  set r' : ℕ → ℝ := fun k => |S (L.getD k 0)| with hr'
  have hget : ∀ k < L.length, L.getD k 0 ∈ L := fun k hk => by rw [List.getD_eq_getElem?_getD, List.getElem?_eq_getElem hk]; exact List.getElem_mem _
  have hUb : ∀ k < L.length, ∀ j, 0 ≤ U' k j ∧ U' k j ≤ 1 := fun k hk j => hU.2 _ (hlt _ (hget k hk)) j
  have hrb : ∀ k < L.length, 0 ≤ r' k := fun k _ => abs_nonneg _
  unfold rasterCpu
  dsimp only
  set lo := bbLo N L.length U' r' with hlo
  set hi := bbHi N L.length U' r' with hhi
  have hp := pts_spec N L.length U' r' hN hm hUb hrb env.rnd env.junkP
  have hp' := pts_spec N L.length U' r' hN hm hUb hrb env.rnd env'.junkP
  have hj := joined_spec N L.length U' r' hN hm hUb hrb env.rnd he.rnd (env.asg L.length) (he.asg _) env.junkP env.junkG
  have hj' := joined_spec N L.length U' r' hN hm hUb hrb env.rnd he.rnd (env'.asg L.length) (he'.asg _) env'.junkP env'.junkG
  rw [← hlo, ← hhi] at hp hp' hj hj'
  have hjj : ∀ c ∈ cells lo hi, joined N lo hi (grids N U' r' (gridPts N lo hi env.rnd env'.junkP) (env'.asg L.length)) env'.junkG (emb N c) =
      joined N lo hi (grids N U' r' (gridPts N lo hi env.rnd env.junkP) (env.asg L.length)) env.junkG (emb N c) := by
    intro c hc
    rw [Bool.eq_iff_iff, hj c hc, hj' c hc]
  have hfil : (cells lo hi).filter (fun c => decide ((if narrow = true then narrowed N lo hi (joined N lo hi (grids N U' r' (gridPts N lo hi env.rnd env'.junkP) (env'.asg L.length)) env'.junkG) env'.junkN
      else joined N lo hi (grids N U' r' (gridPts N lo hi env.rnd env'.junkP) (env'.asg L.length)) env'.junkG) (emb N c) = false)) =
      (cells lo hi).filter (fun c => decide ((if narrow = true then narrowed N lo hi (joined N lo hi (grids N U' r' (gridPts N lo hi env.rnd env.junkP) (env.asg L.length)) env.junkG) env.junkN
      else joined N lo hi (grids N U' r' (gridPts N lo hi env.rnd env.junkP) (env.asg L.length)) env.junkG) (emb N c) = false)) := by
    refine List.filter_congr (fun c hc => ?_)
    rw [decide_eq_decide]
    cases narrow with
    | false => simpa using by rw [hjj c hc]
    | true =>
      rw [if_pos rfl, if_pos rfl]
      have a := narrowed_spec N L.length U' r' hN hm hUb hrb env.junkN (joined N lo hi (grids N U' r' (gridPts N lo hi env.rnd env.junkP) (env.asg L.length)) env.junkG) c hc
      have b := narrowed_spec N L.length U' r' hN hm hUb hrb env'.junkN (joined N lo hi (grids N U' r' (gridPts N lo hi env.rnd env'.junkP) (env'.asg L.length)) env'.junkG) c hc
      rw [← hlo, ← hhi] at a b
      rw [a, b, hjj c hc]
      refine and_congr_right (fun _ => ?_)
      constructor
      · rintro ⟨c', hc', hnb, h⟩
        exact ⟨c', hc', hnb, by rw [← hjj c' hc']; exact h⟩
      · rintro ⟨c', hc', hnb, h⟩
        exact ⟨c', hc', hnb, by rw [hjj c' hc']; exact h⟩
  rw [hfil]
  exact List.map_congr_left (fun c hc => by rw [hp' c (List.mem_filter.mp hc).1, hp c (List.mem_filter.mp hc).1])

end

noncomputable def exEnv : Env 2 where
  choice := fun _ k => List.range k
  rnd := fun _ => 1 / 2
  asg := fun m => [List.range m, []]
  junkP := fun _ => 0
  junkG := fun _ => true
  junkN := fun _ => true

theorem exEnv_ok : EnvOk exEnv where
  choice := fun n k hk => ⟨List.length_range, List.nodup_range, fun i hi => lt_of_lt_of_le (List.mem_range.mp hi) hk⟩
  rnd := fun k => by show 0 ≤ (1 / 2 : ℝ) ∧ (1 / 2 : ℝ) < 1; norm_num
  asg := fun m => by show List.Perm [List.range m, []].flatten _; simp

/-- the hypotheses can be met: a sphere around the origin, and the four by four grid; points are found -/
example : ∃ P, pyRaster exEnv 1 (fun _ => ![0, 0]) (fun _ => 1 / 2) 4 0 true = some P ∧ P ≠ [] := by
  obtain ⟨P, hP⟩ := C107_returns exEnv 1 (fun _ => ![0, 0]) (fun _ => 1 / 2) 4 0 true (by norm_num) (by intro i _ j; fin_cases j <;> norm_num) (Or.inl rfl) (by norm_num)
  refine ⟨P, hP, ?_⟩
  obtain ⟨ξ, hξ, L, -, rfl, hL⟩ := C107_band exEnv exEnv_ok 1 (fun _ => ![0, 0]) (fun _ => 1 / 2) 4 0 (fun _ _ => by norm_num) P hP
  have hres : (resOf 4).toNat = 4 := by decide
  rw [hres] at hL
  have hu : used exEnv 1 0 = [0] := by unfold used; rw [if_neg (by norm_num)]; rfl
  rw [hu] at hL
  have hin : ∀ k : ℕ, InShrunk [0] (fun _ => (![0, 0] : Pt 2)) (fun _ => 1 / 2) (cellPt 4 ξ (fun _ => k)) ↔
      ((k + ξ (fun _ => k) 0) / 4) ^ 2 + ((k + ξ (fun _ => k) 1) / 4) ^ 2 ≤ (95 / 400 : ℝ) := by
    intro k
    unfold InShrunk cellPt psq
    simp only [List.mem_singleton, exists_eq_left, Fin.sum_univ_two, Pi.sub_apply, Matrix.cons_val_zero, Matrix.cons_val_one, sub_zero]
    norm_num
  have h0 : InShrunk [0] (fun _ => (![0, 0] : Pt 2)) (fun _ => 1 / 2) (cellPt 4 ξ (fun _ => 0)) := by
    rw [hin]
    have a := hξ (fun _ => 0) 0
    have b := hξ (fun _ => 0) 1
    push_cast
    nlinarith
  have h2 : ¬ InShrunk [0] (fun _ => (![0, 0] : Pt 2)) (fun _ => 1 / 2) (cellPt 4 ξ (fun _ => 2)) := by
    rw [hin]
    have a := hξ (fun _ => 2) 0
    have b := hξ (fun _ => 2) 1
    push_cast
    nlinarith
  intro hnil
  rw [List.map_eq_nil_iff] at hnil
  rw [hnil] at hL
  by_cases h1 : InShrunk [0] (fun _ => (![0, 0] : Pt 2)) (fun _ => 1 / 2) (cellPt 4 ξ (fun _ => 1))
  · exact absurd ((hL (fun _ => 2)).mpr ⟨fun _ => by norm_num, h2, fun _ => 1, fun _ => by norm_num, fun _ => by norm_num, h1⟩) (by simp)
  · exact absurd ((hL (fun _ => 1)).mpr ⟨fun _ => by norm_num, h1, fun _ => 0, fun _ => by norm_num, fun _ => by norm_num, h0⟩) (by simp)

end Gpy.Raster
