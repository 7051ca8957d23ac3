import Verif.Proofs.TriTri
import Mathlib.Topology.Order.OrderClosed
import Mathlib.Topology.Order.Lattice

/-! Two triangles: the face tests. -/

set_option autoImplicit false
namespace Gpy

/-- the normal `Sn`, `Tn` -/
def nrm (S : Pt 3 × Pt 3 × Pt 3) : Pt 3 := pcross (sideVec S 0) (sideVec S 1)

/-- the tests of lines 117-125 -/
noncomputable def Lf (S : Pt 3 × Pt 3 × Pt 3) (e : Fin 3) (x : Pt 3) : ℝ := pdot (x - corner S e) (pcross (nrm S) (sideVec S e))

section alg
variable (s0 s1 s2 x : Pt 3)

theorem crossx (a b : Pt 3) : pcross a b 0 = a 1 * b 2 - a 2 * b 1 := rfl
theorem crossy (a b : Pt 3) : pcross a b 1 = a 2 * b 0 - a 0 * b 2 := rfl
theorem crossz (a b : Pt 3) : pcross a b 2 = a 0 * b 1 - a 1 * b 0 := rfl
theorem side0 : sideVec (s0, s1, s2) 0 = s1 - s0 := rfl
theorem side1 : sideVec (s0, s1, s2) 1 = s2 - s1 := rfl
theorem side2 : sideVec (s0, s1, s2) 2 = s0 - s2 := rfl
theorem corner0 : corner (s0, s1, s2) 0 = s0 := rfl
theorem corner1 : corner (s0, s1, s2) 1 = s1 := rfl
theorem corner2 : corner (s0, s1, s2) 2 = s2 := rfl

end alg

variable {S T : Pt 3 × Pt 3 × Pt 3}

theorem Lf_sum (x : Pt 3) : Lf S 0 x + Lf S 1 x + Lf S 2 x = pdot (nrm S) (nrm S) := by
  obtain ⟨s0, s1, s2⟩ := S
  simp only [Lf, nrm, pdot3, Pi.sub_apply, crossx, crossy, crossz, side0, side1, side2, corner0, corner1, corner2]
  ring

theorem Lf_bary (x : Pt 3) (j : Fin 3) : pdot (nrm S) (nrm S) * x j =
    Lf S 1 x * corner S 0 j + Lf S 2 x * corner S 1 j + Lf S 0 x * corner S 2 j + pdot (nrm S) (x - corner S 0) * nrm S j := by
  obtain ⟨s0, s1, s2⟩ := S
  fin_cases j <;>
  simp only [Lf, nrm, pdot3, Pi.sub_apply, crossx, crossy, crossz, side0, side1, side2, corner0, corner1, corner2, Fin.isValue, Fin.zero_eta, Fin.mk_one, Fin.reduceFinMk] <;>
  ring

theorem Lf_weights {w : Fin 3 → ℝ} (h : w 0 + w 1 + w 2 = 1) (e : Fin 3) :
    Lf S e (fun i => w 0 * corner S 0 i + w 1 * corner S 1 i + w 2 * corner S 2 i) = pdot (nrm S) (nrm S) * w (e + 2) := by
  obtain ⟨s0, s1, s2⟩ := S
  have h2 : w 2 = 1 - w 0 - w 1 := by linarith
  fin_cases e <;>
  simp only [Lf, nrm, pdot3, Pi.sub_apply, crossx, crossy, crossz, side0, side1, side2, corner0, corner1, corner2, Fin.isValue, Fin.zero_eta, Fin.mk_one, Fin.reduceFinMk, Fin.reduceAdd, zero_add, h2] <;>
  ring

theorem Lf_shift (x : Pt 3) (c : ℝ) (e : Fin 3) : Lf S e (fun i => x i + c * nrm S i) = Lf S e x := by
  simp only [Lf, pdot3, Pi.sub_apply, crossx, crossy, crossz]
  ring

theorem Lf_affine (x y : Pt 3) (τ : ℝ) (e : Fin 3) : Lf S e (fun i => x i + τ * (y i - x i)) = Lf S e x + τ * (Lf S e y - Lf S e x) := by
  simp only [Lf, pdot3, Pi.sub_apply]
  ring

theorem nrm_side (S : Pt 3 × Pt 3 × Pt 3) (k : Fin 3) : pdot (nrm S) (corner S k - corner S 0) = 0 := by
  obtain ⟨s0, s1, s2⟩ := S
  fin_cases k <;>
  simp only [nrm, pdot3, Pi.sub_apply, crossx, crossy, crossz, side0, side1, side2, corner0, corner1, corner2, Fin.isValue, Fin.zero_eta, Fin.mk_one, Fin.reduceFinMk] <;>
  ring

theorem inTri_iff (hS : 0 < pdot (nrm S) (nrm S)) (x : Pt 3) : InTri S x ↔ pdot (nrm S) (x - corner S 0) = 0 ∧ ∀ e, 0 ≤ Lf S e x := by
  constructor
  · rintro ⟨w, h0, h1, rfl⟩
    constructor
    · have e := nrm_side S
      have e1 := e 1
      have e2 := e 2
      simp only [pdot3, Pi.sub_apply] at e1 e2 ⊢
      linear_combination w 1 * e1 + w 2 * e2 + (nrm S 0 * corner S 0 0 + nrm S 1 * corner S 0 1 + nrm S 2 * corner S 0 2) * h1
    · intro e
      rw [Lf_weights h1]
      exact mul_nonneg hS.le (h0 _)
  · rintro ⟨h1, h2⟩
    refine ⟨fun k => Lf S (k + 1) x / pdot (nrm S) (nrm S), fun k => div_nonneg (h2 _) hS.le, ?_, ?_⟩
    · have := Lf_sum (S := S) x
      show Lf S 1 x / _ + Lf S 2 x / _ + Lf S 0 x / _ = 1
      field_simp
      linarith
    · funext j
      have := Lf_bary (S := S) x j
      rw [h1] at this
      show x j = Lf S 1 x / _ * _ + Lf S 2 x / _ * _ + Lf S 0 x / _ * _
      field_simp
      linarith

theorem onEdge_of_zero (hS : 0 < pdot (nrm S) (nrm S)) {x : Pt 3} (hx : InTri S x) {e : Fin 3} (h : Lf S e x = 0) : OnEdge S e x := by
  obtain ⟨w, h0, h1, rfl⟩ := hx
  rw [Lf_weights h1, mul_eq_zero] at h
  have hw : w (e + 2) = 0 := by
    rcases h with h | h
    · exact absurd h hS.ne'
    · exact h
  refine ⟨w (e + 1), h0 _, ?_, ?_⟩
  · have a0 := h0 0
    have a1 := h0 1
    have a2 := h0 2
    revert hw
    fin_cases e <;> simp <;> intros <;> linarith
  · funext i
    obtain ⟨s0, s1, s2⟩ := S
    revert hw
    fin_cases e
    · simp only [side0, corner0, corner1, corner2, Fin.isValue, Fin.zero_eta, Pi.sub_apply, zero_add]
      intro hw
      rw [hw] at h1 ⊢
      linear_combination (s0 i) * h1
    · simp only [side1, corner0, corner1, corner2, Fin.isValue, Fin.mk_one, Pi.sub_apply, Fin.reduceAdd]
      intro hw
      rw [hw] at h1 ⊢
      linear_combination (s1 i) * h1
    · simp only [side2, corner0, corner1, corner2, Fin.isValue, Fin.reduceFinMk, Pi.sub_apply, Fin.reduceAdd]
      intro hw
      rw [hw] at h1 ⊢
      linear_combination (s2 i) * h1

/-- a vector orthogonal to the triangle is a multiple of the normal -/
theorem parallel_nrm (hS : 0 < pdot (nrm S) (nrm S)) {V : Pt 3} (h : ∀ k, pdot (corner S k - corner S 0) V = 0) :
    ∃ c : ℝ, V = fun i => c * nrm S i := by
  refine ⟨pdot V (nrm S) / pdot (nrm S) (nrm S), ?_⟩
  funext j
  rw [div_mul_eq_mul_div, eq_div_iff hS.ne']
  have h1 := h 1
  have h2 := h 2
  obtain ⟨s0, s1, s2⟩ := S
  simp only [corner0, corner1, corner2, pdot3, Pi.sub_apply] at h1 h2
  fin_cases j <;>
  simp only [nrm, pdot3, Pi.sub_apply, crossx, crossy, crossz, side0, side1, Fin.isValue, Fin.zero_eta, Fin.mk_one, Fin.reduceFinMk]
  · linear_combination
      (-(((s1 2 - s0 2) * (s2 0 - s1 0) - (s1 0 - s0 0) * (s2 2 - s1 2)) * (s2 2 - s1 2) - ((s1 0 - s0 0) * (s2 1 - s1 1) - (s1 1 - s0 1) * (s2 0 - s1 0)) * (s2 1 - s1 1))) * h1
      + ((((s1 2 - s0 2) * (s2 0 - s1 0) - (s1 0 - s0 0) * (s2 2 - s1 2)) * (s1 2 - s0 2) - ((s1 0 - s0 0) * (s2 1 - s1 1) - (s1 1 - s0 1) * (s2 0 - s1 0)) * (s1 1 - s0 1))) * (h2 - h1)
  · linear_combination
      (-(((s1 0 - s0 0) * (s2 1 - s1 1) - (s1 1 - s0 1) * (s2 0 - s1 0)) * (s2 0 - s1 0) - ((s1 1 - s0 1) * (s2 2 - s1 2) - (s1 2 - s0 2) * (s2 1 - s1 1)) * (s2 2 - s1 2))) * h1
      + ((((s1 0 - s0 0) * (s2 1 - s1 1) - (s1 1 - s0 1) * (s2 0 - s1 0)) * (s1 0 - s0 0) - ((s1 1 - s0 1) * (s2 2 - s1 2) - (s1 2 - s0 2) * (s2 1 - s1 1)) * (s1 2 - s0 2))) * (h2 - h1)
  · linear_combination
      (-(((s1 1 - s0 1) * (s2 2 - s1 2) - (s1 2 - s0 2) * (s2 1 - s1 1)) * (s2 1 - s1 1) - ((s1 2 - s0 2) * (s2 0 - s1 0) - (s1 0 - s0 0) * (s2 2 - s1 2)) * (s2 0 - s1 0))) * h1
      + ((((s1 1 - s0 1) * (s2 2 - s1 2) - (s1 2 - s0 2) * (s2 1 - s1 1)) * (s1 1 - s0 1) - ((s1 2 - s0 2) * (s2 0 - s1 0) - (s1 0 - s0 0) * (s2 2 - s1 2)) * (s1 0 - s0 0))) * (h2 - h1)

/-! ## `ttPoint` and `ttFace` -/

theorem forall3 {p : Fin 3 → Prop} : (∀ k, p k) ↔ p 0 ∧ p 1 ∧ p 2 := by
  constructor
  · intro h; exact ⟨h 0, h 1, h 2⟩
  · rintro ⟨h0, h1, h2⟩ k; fin_cases k <;> assumption

theorem ttPoint_spec {Tp : Fin 3 → ℝ} {k : Fin 3} (h : ttPoint Tp = some k) :
    (0 < Tp k ∧ ∀ m, Tp k ≤ Tp m) ∨ (Tp k < 0 ∧ ∀ m, Tp m ≤ Tp k) := by
  unfold ttPoint at h
  by_cases h1 : Tp 0 > 0 ∧ Tp 1 > 0 ∧ Tp 2 > 0
  · rw [if_pos h1] at h
    obtain ⟨h1, h2, h3⟩ := h1
    left
    dsimp only at h
    rw [Option.some.injEq] at h
    subst h
    rw [forall3]
    split_ifs with a b c <;> refine ⟨?_, ?_, ?_, ?_⟩ <;> linarith
  · rw [if_neg h1] at h
    by_cases h2 : Tp 0 < 0 ∧ Tp 1 < 0 ∧ Tp 2 < 0
    · rw [if_pos h2] at h
      obtain ⟨h1, h2, h3⟩ := h2
      right
      dsimp only at h
      rw [Option.some.injEq] at h
      subst h
      rw [forall3]
      split_ifs with a b c <;> refine ⟨?_, ?_, ?_, ?_⟩ <;> linarith
    · rw [if_neg h2] at h
      exact absurd h (by simp)

theorem ttPoint_exists {Tp : Fin 3 → ℝ} (h : (∀ m, 0 < Tp m) ∨ ∀ m, Tp m < 0) : ∃ k, ttPoint Tp = some k := by
  unfold ttPoint
  rcases h with h | h
  · rw [if_pos ⟨h 0, h 1, h 2⟩]; exact ⟨_, rfl⟩
  · rw [if_neg (by have := h 0; intro h'; linarith [h'.1]), if_pos ⟨h 0, h 1, h 2⟩]; exact ⟨_, rfl⟩

theorem face_exact {r : ℝ} (h : ttFace S T = .inl r) : TtExact S T r := by
  unfold ttFace at h
  dsimp only at h
  split_ifs at h with hS
  split at h
  · exact absurd h (by simp)
  rename_i k hk
  split_ifs at h with hin
  rw [Sum.inl.injEq] at h
  subst h
  have hS' : 0 < pdot (nrm S) (nrm S) := lt_trans (by norm_num) hS
  have hspec := ttPoint_spec hk
  change 0 < Lf S 0 (corner T k) ∧ 0 < Lf S 1 (corner T k) ∧ 0 < Lf S 2 (corner T k) at hin
  obtain ⟨c, hc⟩ : ∃ c, c = pdot (nrm S) (corner S 0 - corner T k) / pdot (nrm S) (nrm S) := ⟨_, rfl⟩
  have hc' : c * pdot (nrm S) (nrm S) = pdot (nrm S) (corner S 0 - corner T k) := by rw [hc]; field_simp
  have eP : (fun i => corner T k i + pcross (sideVec S 0) (sideVec S 1) i *
      pdot (pcross (sideVec S 0) (sideVec S 1)) (corner S 0 - corner T k) /
        pdot (pcross (sideVec S 0) (sideVec S 1)) (pcross (sideVec S 0) (sideVec S 1))) = fun i => corner T k i + c * nrm S i := by
    funext i
    rw [hc]
    change corner T k i + nrm S i * pdot (nrm S) (corner S 0 - corner T k) / pdot (nrm S) (nrm S) = _
    ring
  rw [eP, pdot_self, psq_neg_sub]
  have hP : InTri S (fun i => corner T k i + c * nrm S i) := by
    rw [inTri_iff hS']
    constructor
    · have e : pdot (nrm S) ((fun i => corner T k i + c * nrm S i) - corner S 0) =
          c * pdot (nrm S) (nrm S) - pdot (nrm S) (corner S 0 - corner T k) := by
        simp only [pdot3, Pi.sub_apply]; ring
      rw [e, hc', sub_self]
    · intro e
      rw [Lf_shift]
      revert e
      rw [forall3]
      exact ⟨hin.1.le, hin.2.1.le, hin.2.2.le⟩
  refine exact_of_slab hP (inTri_corner T k) (fun m => ?_) (fun m => ?_)
  · have e1 := nrm_side S m
    have e2 : pdot (corner S m - fun i => corner T k i + c * nrm S i) (corner T k - fun i => corner T k i + c * nrm S i) =
        -c * (pdot (nrm S) (corner S m - corner S 0) + (pdot (nrm S) (corner S 0 - corner T k) - c * pdot (nrm S) (nrm S))) := by
      simp only [pdot3, Pi.sub_apply]; ring
    rw [e2, e1, hc']
    simp
  · have e2 : pdot (corner T m - corner T k) (corner T k - fun i => corner T k i + c * nrm S i) =
        c * (pdot (nrm S) (corner S 0 - corner T m) - pdot (nrm S) (corner S 0 - corner T k)) := by
      simp only [pdot3, Pi.sub_apply]; ring
    rw [e2]
    have hsp : (0 < pdot (nrm S) (corner S 0 - corner T k) ∧ ∀ m, pdot (nrm S) (corner S 0 - corner T k) ≤ pdot (nrm S) (corner S 0 - corner T m)) ∨
      (pdot (nrm S) (corner S 0 - corner T k) < 0 ∧ ∀ m, pdot (nrm S) (corner S 0 - corner T m) ≤ pdot (nrm S) (corner S 0 - corner T k)) := hspec
    rcases hsp with ⟨h1, h2⟩ | ⟨h1, h2⟩
    · have : 0 < c := by rw [hc]; exact div_pos h1 hS'
      exact mul_nonneg this.le (by linarith [h2 m])
    · have : c < 0 := by rw [hc]; exact div_neg_of_neg_of_pos h1 hS'
      exact mul_nonneg_of_nonpos_of_nonpos this.le (by linarith [h2 m])

theorem face_true (h : ttFace S T = .inr true) : ∀ x y, InTri S x → InTri T y → x ≠ y := by
  unfold ttFace at h
  dsimp only at h
  split_ifs at h with hS
  rotate_left
  · exact absurd h (by simp)
  split at h
  · exact absurd h (by simp)
  rename_i k hk
  have hsp : (0 < pdot (nrm S) (corner S 0 - corner T k) ∧ ∀ m, pdot (nrm S) (corner S 0 - corner T k) ≤ pdot (nrm S) (corner S 0 - corner T m)) ∨
      (pdot (nrm S) (corner S 0 - corner T k) < 0 ∧ ∀ m, pdot (nrm S) (corner S 0 - corner T m) ≤ pdot (nrm S) (corner S 0 - corner T k)) := ttPoint_spec hk
  intro x y hx hy hxy
  subst hxy
  have hz : pdot (nrm S) (x - corner S 0) = 0 := ((inTri_iff (lt_trans (by norm_num) hS) x).mp hx).1
  have hn : ∀ y : Pt 3, pdot (nrm S) (corner S 0 - y) = - pdot (y - corner S 0) (nrm S) := fun y => by
    simp only [pdot3, Pi.sub_apply]; ring
  rw [pdot_comm] at hz
  rcases hsp with ⟨h1, h2⟩ | ⟨h1, h2⟩
  · have := hy.dot_le (P := corner S 0) (V := nrm S) (m := -pdot (nrm S) (corner S 0 - corner T k)) (fun m => by
      have := h2 m
      rw [hn (corner T m)] at this
      linarith)
    linarith
  · have := hy.le_dot (P := corner S 0) (V := nrm S) (m := -pdot (nrm S) (corner S 0 - corner T k)) (fun m => by
      have := h2 m
      rw [hn (corner T m)] at this
      linarith)
    linarith

theorem face_fires (hS : 1e-15 < pdot (nrm S) (nrm S))
    (h1 : (∀ m, 0 < pdot (nrm S) (corner S 0 - corner T m)) ∨ ∀ m, pdot (nrm S) (corner S 0 - corner T m) < 0)
    (h2 : ∀ k, (∀ m, |pdot (nrm S) (corner S 0 - corner T k)| ≤ |pdot (nrm S) (corner S 0 - corner T m)|) → ∀ e, 0 < Lf S e (corner T k)) :
    ∃ r, ttFace S T = .inl r := by
  obtain ⟨k, hk⟩ := ttPoint_exists (Tp := fun m => pdot (nrm S) (corner S 0 - corner T m)) h1
  have hk' := ttPoint_spec hk
  have h3 := h2 k (fun m => by
    rcases hk' with ⟨a, b⟩ | ⟨a, b⟩
    · rw [abs_of_pos a, abs_of_pos (lt_of_lt_of_le a (b m))]; exact b m
    · rw [abs_of_neg a, abs_of_neg (lt_of_le_of_lt (b m) a)]; exact neg_le_neg (b m))
  unfold ttFace
  dsimp only
  have hS2 : pdot (pcross (sideVec S 0) (sideVec S 1)) (pcross (sideVec S 0) (sideVec S 1)) > 1e-15 := hS
  rw [if_pos hS2]
  have hk2 : (ttPoint fun k => pdot (pcross (sideVec S 0) (sideVec S 1)) (corner S 0 - corner T k)) = some k := hk
  rw [hk2]
  dsimp only
  rw [if_pos]
  · exact ⟨_, rfl⟩
  · exact ⟨h3 0, h3 1, h3 2⟩

/-- walking from a point where three affine functions are non-negative to a point where one of them is not positive -/
theorem walk {a b : Fin 3 → ℝ} (ha : ∀ e, 0 ≤ a e) (hb : ∃ e, b e ≤ 0) :
    ∃ τ : ℝ, 0 ≤ τ ∧ τ ≤ 1 ∧ (∀ e, 0 ≤ a e + τ * (b e - a e)) ∧ ∃ e, a e + τ * (b e - a e) = 0 := by
  let f : ℝ → ℝ := fun τ => min (min (a 0 + τ * (b 0 - a 0)) (a 1 + τ * (b 1 - a 1))) (a 2 + τ * (b 2 - a 2))
  have hf : Continuous f := by
    refine Continuous.min (Continuous.min ?_ ?_) ?_ <;> fun_prop
  have h0 : 0 ≤ f 0 := by
    simp only [f, zero_mul, add_zero]
    exact le_min (le_min (ha 0) (ha 1)) (ha 2)
  have h1 : f 1 ≤ 0 := by
    simp only [f, one_mul, add_sub_cancel]
    obtain ⟨e, he⟩ := hb
    fin_cases e
    · exact (min_le_left _ _).trans ((min_le_left _ _).trans he)
    · exact (min_le_left _ _).trans ((min_le_right _ _).trans he)
    · exact (min_le_right _ _).trans he
  obtain ⟨τ, ⟨t0, t1⟩, ht⟩ := intermediate_value_Icc' (zero_le_one (α := ℝ)) hf.continuousOn (⟨h1, h0⟩ : (0 : ℝ) ∈ Set.Icc (f 1) (f 0))
  have g0 : f τ ≤ a 0 + τ * (b 0 - a 0) := (min_le_left _ _).trans (min_le_left _ _)
  have g1 : f τ ≤ a 1 + τ * (b 1 - a 1) := (min_le_left _ _).trans (min_le_right _ _)
  have g2 : f τ ≤ a 2 + τ * (b 2 - a 2) := min_le_right _ _
  rw [ht] at g0 g1 g2
  refine ⟨τ, t0, t1, ?_, ?_⟩
  · rw [forall3]; exact ⟨g0, g1, g2⟩
  · by_contra hcon
    push Not at hcon
    have : 0 < f τ := lt_min (lt_min (lt_of_le_of_ne g0 (hcon 0).symm) (lt_of_le_of_ne g1 (hcon 1).symm)) (lt_of_le_of_ne g2 (hcon 2).symm)
    linarith

end Gpy
