import Verif.Model.Ray
import Verif.Spec.Aabb
import Verif.Proofs.TriTri

set_option autoImplicit false
namespace Gpy
open Np
variable {d : ℕ}

theorem foldl_best {α : Type} (f : α → ℝ) : ∀ (l : List α) (w0 : α),
    f w0 ≤ f (l.foldl (fun w i => if f w < f i then i else w) w0) ∧ ∀ i ∈ l, f i ≤ f (l.foldl (fun w i => if f w < f i then i else w) w0) := by
  intro l
  induction l with
  | nil => intro w0; simp
  | cons a t ih =>
    intro w0
    rw [List.foldl_cons]
    by_cases h : f w0 < f a
    · rw [if_pos h]
      obtain ⟨h1, h2⟩ := ih a
      refine ⟨h.le.trans h1, ?_⟩
      intro i hi
      rcases List.mem_cons.mp hi with rfl | hi
      · exact h1
      · exact h2 i hi
    · rw [if_neg h]
      obtain ⟨h1, h2⟩ := ih w0
      refine ⟨h1, ?_⟩
      intro i hi
      rcases List.mem_cons.mp hi with rfl | hi
      · exact (not_lt.mp h).trans h1
      · exact h2 i hi

/-- a coordinate outside its slab from which the slab is reached at time `t` -/
theorem rb_outside {o dir minB maxB : Pt d} {i : Fin d} {t : ℝ} (ht : 0 ≤ t) (hq : rbQuadrant o minB maxB i ≠ 2)
    (h1 : minB i ≤ o i + t * dir i) (h2 : o i + t * dir i ≤ maxB i) :
    dir i ≠ 0 ∧ 0 < rbMaxT o dir minB maxB i ∧ rbMaxT o dir minB maxB i ≤ t := by
  unfold rbQuadrant at hq
  have hd : dir i ≠ 0 := by
    intro h
    rw [h] at h1 h2
    apply hq
    rw [if_neg (by linarith), if_neg (by linarith)]
  have e : rbMaxT o dir minB maxB i = (rbPlane o minB maxB i - o i) / dir i := by
    unfold rbMaxT
    rw [if_pos ⟨hq, hd⟩]
  refine ⟨hd, ?_⟩
  rw [e]
  unfold rbPlane
  by_cases c1 : o i < minB i
  · rw [if_pos c1]
    have hp : 0 < dir i := by
      by_contra hn
      have := mul_nonpos_of_nonneg_of_nonpos ht (not_lt.mp hn)
      linarith
    refine ⟨div_pos (by linarith) hp, ?_⟩
    rw [div_le_iff₀ hp]; linarith
  · rw [if_neg c1] at hq ⊢
    by_cases c2 : o i > maxB i
    · rw [if_pos c2]
      have hp : dir i < 0 := by
        by_contra hn
        have := mul_nonneg ht (not_lt.mp hn)
        linarith
      refine ⟨div_pos_of_neg_of_neg (by linarith) hp, ?_⟩
      rw [div_le_iff_of_neg hp]; linarith
    · rw [if_neg c2] at hq; exact absurd rfl hq

theorem rb_reach {o dir minB maxB : Pt d} {i : Fin d} (h : 0 ≤ rbMaxT o dir minB maxB i) :
    rbQuadrant o minB maxB i ≠ 2 ∧ o i + rbMaxT o dir minB maxB i * dir i = rbPlane o minB maxB i := by
  unfold rbMaxT at h ⊢
  split at h
  · next hc =>
    rw [if_pos hc]
    refine ⟨hc.1, ?_⟩
    field_simp [hc.2]
    ring
  · norm_num at h

theorem rb_plane_in {o minB maxB : Pt d} {i : Fin d} (hq : rbQuadrant o minB maxB i ≠ 2) (hB : minB i ≤ maxB i) :
    minB i ≤ rbPlane o minB maxB i ∧ rbPlane o minB maxB i ≤ maxB i := by
  unfold rbQuadrant at hq
  unfold rbPlane
  split
  · exact ⟨le_rfl, hB⟩
  · next c1 =>
    split
    · exact ⟨hB, le_rfl⟩
    · next c2 => rw [if_neg c1, if_neg c2] at hq; exact absurd rfl hq

theorem rb_slab_in {o minB maxB : Pt d} {i : Fin d} (hq : rbQuadrant o minB maxB i = 2) : minB i ≤ o i ∧ o i ≤ maxB i := by
  unfold rbQuadrant at hq
  split at hq
  · omega
  · next c1 =>
    split at hq
    · omega
    · next c2 => exact ⟨not_lt.mp c1, not_lt.mp c2⟩

/-- the time at which the plane is reached is no later than any time at which the slab is met -/
theorem rayBox_spec [NeZero d] (o dir C W : Pt d) (hW : ∀ i, 0 ≤ W i) :
    (∀ x, rayBoxIntersect o dir C W = some x → ∃ t, 0 ≤ t ∧ x = (fun i => o i + t * dir i) ∧ InBox C W x ∧
      ∀ t', 0 ≤ t' → InBox C W (fun i => o i + t' * dir i) → t ≤ t') ∧
    (∀ t', 0 ≤ t' → InBox C W (fun i => o i + t' * dir i) → (rayBoxIntersect o dir C W).isSome) := by
  set minB : Pt d := fun i => C i - 0.5 * W i with hmin
  set maxB : Pt d := fun i => C i + 0.5 * W i with hmax
  have hB : ∀ i, minB i ≤ maxB i := by intro i; have := hW i; simp only [hmin, hmax]; linarith
  have box : ∀ x : Pt d, InBox C W x ↔ ∀ i, minB i ≤ x i ∧ x i ≤ maxB i := by
    intro x
    have e : ∀ i, C i - W i / 2 = minB i ∧ C i + W i / 2 = maxB i := by
      intro i; simp only [hmin, hmax]; constructor <;> ring
    unfold InBox
    exact forall_congr' (fun i => by rw [(e i).1, (e i).2])
  set w : Fin d := (List.finRange d).foldl
    (fun w i => if rbMaxT o dir minB maxB w < rbMaxT o dir minB maxB i then i else w) 0 with hw
  have hbest : ∀ i, rbMaxT o dir minB maxB i ≤ rbMaxT o dir minB maxB w :=
    fun i => (foldl_best (rbMaxT o dir minB maxB) (List.finRange d) 0).2 i (List.mem_finRange i)
  set x : Pt d := fun i => if w ≠ i then o i + rbMaxT o dir minB maxB w * dir i else rbPlane o minB maxB i with hx
  have e : rayBoxIntersect o dir C W = if ∀ i, rbQuadrant o minB maxB i = 2 then some o
      else if rbMaxT o dir minB maxB w < 0 then none
      else if ∃ i, w ≠ i ∧ (x i < minB i ∨ x i > maxB i) then none else some x := rfl
  rw [e]
  by_cases hin : ∀ i, rbQuadrant o minB maxB i = 2
  · rw [if_pos hin]
    refine ⟨?_, by simp⟩
    rintro y hy
    cases hy
    refine ⟨0, le_rfl, by simp, ?_, fun t' h _ => h⟩
    rw [box]
    exact fun i => rb_slab_in (hin i)
  rw [if_neg hin]
  push Not at hin
  obtain ⟨i0, hi0⟩ := hin
  constructor
  · intro y hy
    split at hy
    · cases hy
    · next h0 =>
      split at hy
      · cases hy
      · next h1 =>
        cases hy
        obtain ⟨hq, hr⟩ := rb_reach (not_lt.mp h0)
        have ex : x = fun i => o i + rbMaxT o dir minB maxB w * dir i := by
          funext i
          by_cases hi : w = i
          · simp only [hx, hi, ne_eq, not_true_eq_false, if_false]
            subst hi; exact hr.symm
          · simp only [hx, ne_eq, hi, not_false_eq_true, if_true]
        refine ⟨_, not_lt.mp h0, ex, ?_, ?_⟩
        · rw [box]
          intro i
          by_cases hi : w = i
          · subst hi
            have : x w = rbPlane o minB maxB w := by simp [hx]
            rw [this]
            exact rb_plane_in hq (hB w)
          · push Not at h1
            exact ⟨(h1 i hi).1, (h1 i hi).2⟩
        · intro t' ht' hb
          rw [box] at hb
          exact (rb_outside ht' hq (hb w).1 (hb w).2).2.2
  · intro t' ht' hb
    rw [box] at hb
    have h0 : 0 < rbMaxT o dir minB maxB w := (rb_outside ht' hi0 (hb i0).1 (hb i0).2).2.1.trans_le (hbest i0)
    rw [if_neg (not_lt.mpr h0.le)]
    obtain ⟨hq, hr⟩ := rb_reach h0.le
    have hwt := (rb_outside ht' hq (hb w).1 (hb w).2).2.2
    rw [if_neg]
    · rfl
    · push Not
      intro i hi
      have ex : x i = o i + rbMaxT o dir minB maxB w * dir i := by simp [hx, hi]
      rw [ex]
      have hbi := hb i
      by_cases hqi : rbQuadrant o minB maxB i = 2
      · obtain ⟨s1, s2⟩ := rb_slab_in hqi
        rcases le_total 0 (dir i) with hd | hd
        · have a := mul_le_mul_of_nonneg_right hwt hd
          have b := mul_nonneg h0.le hd
          exact ⟨by linarith, by linarith [hbi.2]⟩
        · have a := mul_le_mul_of_nonpos_right hwt hd
          have b := mul_nonpos_of_nonneg_of_nonpos h0.le hd
          exact ⟨by linarith [hbi.1], by linarith⟩
      · obtain ⟨-, p1, -⟩ := rb_outside ht' hqi hbi.1 hbi.2
        obtain ⟨-, p3⟩ := rb_reach p1.le
        have p4 := rb_plane_in hqi (hB i)
        have p5 := hbest i
        rcases le_total 0 (dir i) with hd | hd
        · have a := mul_le_mul_of_nonneg_right hwt hd
          have b := mul_le_mul_of_nonneg_right p5 hd
          exact ⟨by linarith, by linarith [hbi.2]⟩
        · have a := mul_le_mul_of_nonpos_right hwt hd
          have b := mul_le_mul_of_nonpos_right p5 hd
          exact ⟨by linarith [hbi.1], by linarith⟩

/-- Cramer's rule behind the ray-triangle test -/
theorem rt_cramer (o dir v0 v1 v2 : Pt 3) (hdet : pdot (v1 - v0) (pcross dir (v2 - v0)) ≠ 0) (t u v : ℝ) :
    ((fun i => o i + t * dir i) = fun i => (1 - u - v) * v0 i + u * v1 i + v * v2 i) ↔
      (u = pdot (o - v0) (pcross dir (v2 - v0)) * (1 / pdot (v1 - v0) (pcross dir (v2 - v0))) ∧
       v = pdot dir (pcross (o - v0) (v1 - v0)) * (1 / pdot (v1 - v0) (pcross dir (v2 - v0))) ∧
       t = pdot (v2 - v0) (pcross (o - v0) (v1 - v0)) * (1 / pdot (v1 - v0) (pcross dir (v2 - v0)))) := by
  constructor
  · intro h
    have h0 := congrFun h 0
    have h1 := congrFun h 1
    have h2 := congrFun h 2
    have eo0 : o 0 = (1 - u - v) * v0 0 + u * v1 0 + v * v2 0 - t * dir 0 := by linarith
    have eo1 : o 1 = (1 - u - v) * v0 1 + u * v1 1 + v * v2 1 - t * dir 1 := by linarith
    have eo2 : o 2 = (1 - u - v) * v0 2 + u * v1 2 + v * v2 2 - t * dir 2 := by linarith
    refine ⟨?_, ?_, ?_⟩ <;>
    · rw [mul_one_div, eq_div_iff hdet]
      simp only [pdot3, pcross, Pi.sub_apply, eo0, eo1, eo2]
      ring
  · rintro ⟨hu, hv, ht⟩
    rw [mul_one_div, eq_div_iff hdet] at hu hv ht
    funext i
    apply mul_right_cancel₀ hdet
    have : (o i + t * dir i) * pdot (v1 - v0) (pcross dir (v2 - v0)) - ((1 - u - v) * v0 i + u * v1 i + v * v2 i) * pdot (v1 - v0) (pcross dir (v2 - v0))
      = (o i - v0 i) * pdot (v1 - v0) (pcross dir (v2 - v0)) + (t * pdot (v1 - v0) (pcross dir (v2 - v0))) * dir i
        - (u * pdot (v1 - v0) (pcross dir (v2 - v0))) * (v1 i - v0 i) - (v * pdot (v1 - v0) (pcross dir (v2 - v0))) * (v2 i - v0 i) := by ring
    rw [← sub_eq_zero, this, hu, hv, ht]
    match i with
    | 0 => simp only [pdot3, pcross, Pi.sub_apply]; ring
    | 1 => simp only [pdot3, pcross, Pi.sub_apply]; ring
    | 2 => simp only [pdot3, pcross, Pi.sub_apply]; ring

theorem rayTriangle_some {o dir v0 v1 v2 : Pt 3} {neg : Bool} {t : ℝ} {x : Pt 3} :
    rayTriangleIntersect o dir v0 v1 v2 neg = some (t, x) ↔
      1e-6 ≤ |pdot (v1 - v0) (pcross dir (v2 - v0))| ∧ (neg = true ∨ 0 ≤ t) ∧ (x = fun i => o i + t * dir i) ∧
      ∃ u v, 0 ≤ u ∧ 0 ≤ v ∧ u + v ≤ 1 ∧ x = fun i => (1 - u - v) * v0 i + u * v1 i + v * v2 i := by
  unfold rayTriangleIntersect
  simp only
  by_cases hd : |pdot (v1 - v0) (pcross dir (v2 - v0))| < 1e-6
  · rw [if_pos hd]
    constructor
    · intro h; cases h
    · rintro ⟨h, -⟩; exact absurd hd (not_lt.mpr h)
  rw [if_neg hd]
  have hd' := not_lt.mp hd
  have hdet : pdot (v1 - v0) (pcross dir (v2 - v0)) ≠ 0 := by
    intro h; rw [h] at hd'; norm_num at hd'
  set U := pdot (o - v0) (pcross dir (v2 - v0)) * (1 / pdot (v1 - v0) (pcross dir (v2 - v0))) with hU
  set V := pdot dir (pcross (o - v0) (v1 - v0)) * (1 / pdot (v1 - v0) (pcross dir (v2 - v0))) with hV
  set T := pdot (v2 - v0) (pcross (o - v0) (v1 - v0)) * (1 / pdot (v1 - v0) (pcross dir (v2 - v0))) with hT
  have C := rt_cramer o dir v0 v1 v2 hdet
  rw [← hU, ← hV, ← hT] at C
  constructor
  · intro h
    split at h
    · cases h
    · next c1 =>
      split at h
      · cases h
      · next c2 =>
        split at h
        · cases h
        · next c3 =>
          simp only [Option.some.injEq, Prod.mk.injEq] at h
          obtain ⟨rfl, rfl⟩ := h
          push Not at c1 c2 c3
          refine ⟨hd', ?_, rfl, U, V, c1.1, c2.1, c2.2, (C T U V).mpr ⟨rfl, rfl, rfl⟩⟩
          cases neg with
          | true => exact Or.inl rfl
          | false => exact Or.inr (c3 rfl)
  · rintro ⟨-, hn, rfl, u, v, hu, hv, huv, e⟩
    obtain ⟨rfl, rfl, rfl⟩ := (C t u v).mp e
    rw [if_neg (by push Not; exact ⟨hu, by linarith⟩), if_neg (by push Not; exact ⟨hv, huv⟩), if_neg]
    rintro ⟨h1, h2⟩
    rcases hn with hn | hn
    · rw [hn] at h1; cases h1
    · linarith

end Gpy
