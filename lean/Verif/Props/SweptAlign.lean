import Verif.Model.SweptAlign
import Verif.Props.Rotation
import Verif.Props.Unsigned
import Mathlib.Tactic.IntervalCases

/-!
# C115: keyframes of `swept_volume`, aligned with the velocity
-/

set_option autoImplicit false
namespace Gpy.SweptAlign
open Matrix

theorem kmat_apply (v x : Pt 3) : (kmat v).mulVec x = cross3 v x := by
  funext i
  fin_cases i <;> simp [kmat, cross3, Matrix.mulVec, dotProduct, Fin.sum_univ_three] <;> ring

theorem psq3 (x : Pt 3) : psq x = x 0 ^ 2 + x 1 ^ 2 + x 2 ^ 2 := by simp [psq, Fin.sum_univ_three]

theorem pdot3 (x y : Pt 3) : pdot x y = x 0 * y 0 + x 1 * y 1 + x 2 * y 2 := by simp [pdot, Fin.sum_univ_three]

theorem dot_unit {a : Pt 3} (ha : ∑ i, a i * a i = 1) : a 0 * a 0 + a 1 * a 1 + a 2 * a 2 = 1 := by rw [← ha]; simp [Fin.sum_univ_three]

theorem lagrange {a b : Pt 3} (ha : ∑ i, a i * a i = 1) (hb : ∑ i, b i * b i = 1) : psq (cross3 a b) + pdot a b ^ 2 = 1 := by
  have ha' := dot_unit ha
  have hb' := dot_unit hb
  rw [psq3, pdot3]
  have hv0 : cross3 a b 0 = a 1 * b 2 - a 2 * b 1 := rfl
  have hv1 : cross3 a b 1 = a 2 * b 0 - a 0 * b 2 := rfl
  have hv2 : cross3 a b 2 = a 0 * b 1 - a 1 * b 0 := rfl
  rw [hv0, hv1, hv2]
  linear_combination (b 0 * b 0 + b 1 * b 1 + b 2 * b 2) * ha' + hb'

/-- half a turn about a unit axis -/
theorem half_turn {v : Pt 3} (hv : ∑ i, v i * v i = 1) : IsRotation (1 + (2 : ℝ) • (kmat v * kmat v)) ∧ ∀ x : Pt 3, pdot v x = 0 → (1 + (2 : ℝ) • (kmat v * kmat v)).mulVec x = -x := by
  have h := dot_unit hv
  constructor
  · unfold IsRotation kmat
    constructor
    · ext i j
      fin_cases i <;> fin_cases j <;> simp [Matrix.mul_apply, Fin.sum_univ_three]
      all_goals first
        | linear_combination (4 * (v 1 ^ 2 + v 2 ^ 2)) * h
        | linear_combination (4 * (v 0 ^ 2 + v 2 ^ 2)) * h
        | linear_combination (4 * (v 0 ^ 2 + v 1 ^ 2)) * h
        | linear_combination (-4 * (v 0 * v 1)) * h
        | linear_combination (-4 * (v 0 * v 2)) * h
        | linear_combination (-4 * (v 1 * v 2)) * h
    · rw [Matrix.det_fin_three]
      simp [Matrix.mul_apply, Fin.sum_univ_three]
      linear_combination (4 * (v 0 ^ 2 + v 1 ^ 2 + v 2 ^ 2)) * h
  · intro x hx
    rw [pdot3] at hx
    funext i
    fin_cases i <;> simp [kmat, Matrix.mulVec, dotProduct, Matrix.mul_apply, Fin.sum_univ_three]
    · linear_combination 2 * v 0 * hx - 2 * x 0 * h
    · linear_combination 2 * v 1 * hx - 2 * x 1 * h
    · linear_combination 2 * v 2 * hx - 2 * x 2 * h

/-- the direction of a vector -/
noncomputable def dir (x : Pt 3) : Pt 3 := fun i => x i / pnorm x

theorem unit_dot {a b : Pt 3} (ha : ∑ i, a i * a i = 1) (hb : ∑ i, b i * b i = 1) : psq (a - b) = 2 - 2 * pdot a b ∧ psq (-a - b) = 2 + 2 * pdot a b := by
  have ha' := dot_unit ha
  have hb' := dot_unit hb
  rw [psq3, psq3, pdot3]
  simp only [Pi.sub_apply, Pi.neg_apply]
  constructor <;> linear_combination ha' + hb'

theorem small_of {a b : Pt 3} {R : Mat3} {s c : ℝ} (hs0 : 0 ≤ s) (hs : s ≤ 1 / 10 ^ 8) (hsc : s ^ 2 + c ^ 2 = 1) (hc : 0 ≤ c) (h : psq (R.mulVec a - b) = 2 - 2 * c) :
    pnorm (R.mulVec a - b) ≤ 2 / 10 ^ 8 := by
  have hc1 : c ≤ 1 := by nlinarith
  have h1 : psq (R.mulVec a - b) ≤ (2 / 10 ^ 8) ^ 2 := by
    rw [h]
    have : 1 - c ≤ s ^ 2 := by nlinarith
    have : s ^ 2 ≤ (1 / 10 ^ 8) ^ 2 := by gcongr
    norm_num at this ⊢
    linarith
  unfold pnorm
  exact (Real.sqrt_le_sqrt h1).trans (by rw [Real.sqrt_sq (by norm_num)])

/-- The rotation between two directions, used to align the mesh with its velocity: for all vectors other than zero, also opposite ones, it is a rotation, and it takes the direction of the first to that of the second up to
`2e-8`; exactly, and turning about the axis perpendicular to both, when the sine of the angle is more than `1e-8`. -/
theorem C115_rotation (x y : Pt 3) (hx : x ≠ 0) (hy : y ≠ 0) :
    ∃ R, rotVec x y = some R ∧ IsRotation R ∧ pnorm (R.mulVec (dir x) - dir y) ≤ 2 / 10 ^ 8 ∧
      (1 / 10 ^ 8 < pnorm (cross3 (dir x) (dir y)) → R.mulVec (dir x) = dir y ∧ R.mulVec (cross3 (dir x) (dir y)) = cross3 (dir x) (dir y)) := by
  obtain ⟨hux, ha⟩ := unitize_spec hx
  obtain ⟨huy, hb⟩ := unitize_spec hy
  change unitize x = some (dir x) at hux
  change unitize y = some (dir y) at huy
  change ∑ i, dir x i * dir x i = 1 at ha
  change ∑ i, dir y i * dir y i = 1 at hb
  generalize dir x = a at *
  generalize dir y = b at *
  have hlag := lagrange ha hb
  have hps : pnorm (cross3 a b) ^ 2 = psq (cross3 a b) := Real.sq_sqrt (Finset.sum_nonneg (fun i _ => sq_nonneg _))
  rw [← hps] at hlag
  have hs0 : 0 ≤ pnorm (cross3 a b) := Real.sqrt_nonneg _
  obtain ⟨e1, e2⟩ := unit_dot ha hb
  unfold rotVec
  rw [hux, huy]
  simp only [Option.bind_eq_bind, Option.bind_some]
  by_cases hs : pnorm (cross3 a b) > 1 / 10 ^ 8
  · rw [if_pos hs]
    have hv : cross3 a b ≠ 0 := by
      intro h
      rw [h] at hs
      have : pnorm (0 : Pt 3) = 0 := by simp [pnorm, psq]
      rw [this] at hs
      norm_num at hs
    obtain ⟨h1, h2⟩ := rot3_general ha hb hv
    refine ⟨_, rfl, h1, ?_, fun _ => ⟨h2, ?_⟩⟩
    · rw [h2, sub_self]
      have : pnorm (0 : Pt 3) = 0 := by simp [pnorm, psq]
      rw [this]; norm_num
    · have hk : (kmat (cross3 a b)).mulVec (cross3 a b) = 0 := by
        rw [kmat_apply]
        funext i
        generalize cross3 a b = v
        fin_cases i <;> simp [cross3] <;> ring
      rw [Matrix.add_mulVec, Matrix.add_mulVec, Matrix.one_mulVec, Matrix.smul_mulVec, ← Matrix.mulVec_mulVec, hk, Matrix.mulVec_zero, smul_zero, add_zero, add_zero]
  · rw [if_neg hs]
    by_cases hc : pdot a b > 0
    · rw [if_pos hc]
      refine ⟨1, rfl, isRotation_one, ?_, fun h => absurd h hs⟩
      exact small_of hs0 (not_lt.mp hs) hlag hc.le (by rw [Matrix.one_mulVec, e1])
    · rw [if_neg hc]
      set ax : Pt 3 := if pnorm (cross3 a ![1, 0, 0]) < 1 / 10 ^ 8 then cross3 a ![0, 1, 0] else cross3 a ![1, 0, 0] with hax
      have ha' := dot_unit ha
      have hperp : pdot ax a = 0 := by
        rw [pdot3, hax]
        split <;> simp [cross3] <;> ring
      have hne : ax ≠ 0 := by
        intro h0
        rw [hax] at h0
        split at h0
        · rename_i hlt
          have g0 : -a 2 = 0 := by simpa [cross3] using congrFun h0 0
          have g2 : a 0 = 0 := by simpa [cross3] using congrFun h0 2
          have hq : psq (cross3 a ![1, 0, 0]) = 1 := by
            rw [psq3]; simp [cross3]
            nlinarith
          unfold pnorm at hlt
          rw [hq, Real.sqrt_one] at hlt
          norm_num at hlt
        · rename_i hlt
          rw [h0] at hlt
          have : pnorm (0 : Pt 3) = 0 := by simp [pnorm, psq]
          rw [this] at hlt
          norm_num at hlt
      obtain ⟨hu, hun⟩ := unitize_spec hne
      rw [hu, Option.bind_some]
      obtain ⟨h1, h2⟩ := half_turn hun
      have h3 := h2 a (by
        rw [pdot3] at hperp ⊢
        have : ax 0 / pnorm ax * a 0 + ax 1 / pnorm ax * a 1 + ax 2 / pnorm ax * a 2 = (ax 0 * a 0 + ax 1 * a 1 + ax 2 * a 2) / pnorm ax := by ring
        rw [this, hperp, zero_div])
      refine ⟨_, rfl, h1, ?_, fun h => absurd h hs⟩
      exact small_of (c := -pdot a b) hs0 (not_lt.mp hs) (by rw [← hlag]; ring) (by linarith) (by rw [h3, e2]; ring)

/-! ### The rotations along the path -/

theorem rot_psq {R : Mat3} (h : IsRotation R) (x : Pt 3) : psq (R.mulVec x) = psq x := by
  have e : ∀ y : Pt 3, psq y = dotProduct y y := fun y => by unfold psq dotProduct; exact Finset.sum_congr rfl (fun i _ => pow_two _)
  rw [e, e, Matrix.dotProduct_mulVec, Matrix.vecMul_mulVec, h.1, Matrix.vecMul_one]

theorem rot_mul {A B : Mat3} (hA : IsRotation A) (hB : IsRotation B) : IsRotation (A * B) := by
  constructor
  · rw [Matrix.transpose_mul, Matrix.mul_assoc, ← Matrix.mul_assoc A.transpose, hA.1, Matrix.one_mul, hB.1]
  · rw [Matrix.det_mul, hA.2, hB.2, one_mul]

/-- a turn from `v` to `w` with error at most `δ` -/
def Turn (δ : ℝ) (v w : Pt 3) : Prop := ∃ R, rotVec v w = some R ∧ IsRotation R ∧ pnorm (R.mulVec v - w) ≤ δ

def Turns (δ : ℝ) : Pt 3 → List (Pt 3) → Prop
  | _, [] => True
  | v, w :: ws => Turn δ v w ∧ Turns δ w ws

theorem turns_of (δ : ℝ) (v : Pt 3) (ws : List (Pt 3)) (h : ∀ (i : ℕ) (a b : Pt 3), (v :: ws)[i]? = some a → (v :: ws)[i + 1]? = some b → Turn δ a b) : Turns δ v ws := by
  induction ws generalizing v with
  | nil => trivial
  | cons w ws ih => exact ⟨h 0 v w rfl rfl, ih w (fun i a b ha hb => h (i + 1) a b ha hb)⟩

theorem chain_spec (δ : ℝ) (e : Pt 3) (ws : List (Pt 3)) : ∀ (v : Pt 3) (R : Mat3) (r : ℝ), IsRotation R → pnorm (R.mulVec e - v) ≤ r → Turns δ v ws →
    ∃ Rs, chain v R ws = some Rs ∧ Rs.length = ws.length ∧ ∀ (i : ℕ) (w : Pt 3), ws[i]? = some w → ∃ R', Rs[i]? = some R' ∧ IsRotation R' ∧ pnorm (R'.mulVec e - w) ≤ r + (i + 1) * δ := by
  induction ws with
  | nil => intro v R r _ _ _; exact ⟨[], rfl, rfl, by simp⟩
  | cons w ws ih =>
    intro v R r hR hr ⟨⟨D, hD1, hD2, hD3⟩, ht⟩
    have herr : pnorm ((D * R).mulVec e - w) ≤ r + δ := by
      have : (D * R).mulVec e - w = D.mulVec (R.mulVec e - v) + (D.mulVec v - w) := by
        rw [Matrix.mulVec_sub, Matrix.mulVec_mulVec]; abel
      rw [this]
      refine (pnorm_tri _ _).trans (add_le_add ?_ hD3)
      unfold pnorm
      rw [rot_psq hD2]
      exact hr
    obtain ⟨Rs, h1, h2, h3⟩ := ih w (D * R) (r + δ) (rot_mul hD2 hR) herr ht
    refine ⟨D * R :: Rs, ?_, by simp [h2], ?_⟩
    · unfold chain
      rw [hD1, Option.bind_eq_bind, Option.bind_some]
      simp only [Option.bind_eq_bind]
      rw [h1, Option.bind_some]
    · intro i u hu
      cases i with
      | zero =>
        obtain rfl := Option.some.inj hu
        exact ⟨_, rfl, rot_mul hD2 hR, by simpa using herr⟩
      | succ i =>
        obtain ⟨R', g1, g2, g3⟩ := h3 i u hu
        exact ⟨R', g1, g2, by push_cast; linarith⟩

/-- the difference of the positions around keyframe `i` (one-sided at the ends) -/
noncomputable def around (ts : List (Pt 3)) (i : ℕ) : Pt 3 := ts.getD (min (i + 1) (ts.length - 1)) 0 - ts.getD (i - 1) 0

theorem velOf_eq (ts : List (Pt 3)) (h2 : 2 ≤ ts.length) (i : ℕ) (hi : i < ts.length) : velOf ts i = some (around ts i) := by
  have g : ∀ k, k < ts.length → ts[k]? = some (ts.getD k 0) := fun k hk => by
    rw [List.getD_eq_getElem?_getD, List.getElem?_eq_getElem hk]; rfl
  unfold velOf around
  by_cases h0 : i = 0
  · subst h0
    rw [if_pos rfl, g 1 (by omega), g 0 (by omega), show min (0 + 1) (ts.length - 1) = 1 by omega]; rfl
  · rw [if_neg h0]
    by_cases h1 : i = ts.length - 1
    · rw [if_pos h1, g (ts.length - 1) (by omega), g (ts.length - 2) (by omega), show min (i + 1) (ts.length - 1) = ts.length - 1 by omega, show i - 1 = ts.length - 2 by omega]; rfl
    · rw [if_neg h1, g (i + 1) (by omega), g (i - 1) (by omega), show min (i + 1) (ts.length - 1) = i + 1 by omega]; rfl

theorem mapM_eq {α β : Type} (f : α → Option β) (g : α → β) (l : List α) (h : ∀ x ∈ l, f x = some (g x)) : l.mapM f = some (l.map g) := by
  induction l with
  | nil => rfl
  | cons x l ih =>
    rw [List.mapM_cons, h x (by simp), ih (fun y hy => h y (List.mem_cons_of_mem _ hy))]
    rfl

theorem dir_ne {x : Pt 3} (hx : x ≠ 0) : dir x ≠ 0 ∧ dir (dir x) = dir x := by
  obtain ⟨-, h⟩ := unitize_spec hx
  change ∑ i, dir x i * dir x i = 1 at h
  have hp : pnorm (dir x) = 1 := by
    unfold pnorm psq
    rw [Finset.sum_congr rfl (fun i _ => pow_two _), h, Real.sqrt_one]
  refine ⟨fun h0 => ?_, ?_⟩
  · rw [h0] at h; simp at h
  · funext i
    change dir x i / pnorm (dir x) = dir x i
    rw [hp, div_one]

theorem velocities_eq (ts : List (Pt 3)) (h2 : 2 ≤ ts.length) (hv : ∀ i < ts.length, around ts i ≠ 0) : velocities ts = some ((List.range ts.length).map (fun i => dir (around ts i))) := by
  unfold velocities
  refine mapM_eq _ _ _ (fun i hi => ?_)
  have hi' := List.mem_range.mp hi
  rw [velOf_eq ts h2 i hi', Option.bind_eq_bind, Option.bind_some, (unitize_spec (hv i hi')).1]
  rfl

theorem alignment_spec (δ : ℝ) (ts : List (Pt 3)) (h2 : 2 ≤ ts.length) (hv : ∀ i < ts.length, around ts i ≠ 0) (h0 : Turn δ ![1, 0, 0] (dir (around ts 0)))
    (ht : ∀ i, i + 1 < ts.length → Turn δ (dir (around ts i)) (dir (around ts (i + 1)))) :
    ∃ Rs, alignment ts = some Rs ∧ Rs.length = ts.length ∧ ∀ i < ts.length, ∃ R, Rs[i]? = some R ∧ IsRotation R ∧ pnorm (R.mulVec ![1, 0, 0] - dir (around ts i)) ≤ (i + 1) * δ := by
  have hvs := velocities_eq ts h2 hv
  unfold alignment
  rw [hvs, Option.bind_eq_bind, Option.bind_some]
  obtain ⟨n, hn⟩ : ∃ n, ts.length = n + 1 := ⟨ts.length - 1, by omega⟩
  have hsplit : (List.range ts.length).map (fun i => dir (around ts i)) = dir (around ts 0) :: (List.range n).map (fun i => dir (around ts (i + 1))) := by
    rw [hn, List.range_succ_eq_map, List.map_cons, List.map_map]; rfl
  have hturns : Turns δ (dir (around ts 0)) ((List.range n).map (fun i => dir (around ts (i + 1)))) := by
    apply turns_of
    rw [← hsplit]
    intro i a b ha hb
    rw [List.getElem?_map, Option.map_eq_some_iff] at ha hb
    obtain ⟨j, hj, rfl⟩ := ha
    obtain ⟨k, hk, rfl⟩ := hb
    obtain ⟨l1, g1⟩ := List.getElem?_eq_some_iff.mp hj
    obtain ⟨l2, g2⟩ := List.getElem?_eq_some_iff.mp hk
    rw [List.getElem_range] at g1 g2
    rw [List.length_range] at l2
    subst g1 g2
    exact ht i l2
  rw [hsplit]
  obtain ⟨R, r1, r2, r3⟩ := h0
  obtain ⟨Rs, c1, c2, c3⟩ := chain_spec δ ![1, 0, 0] _ _ R δ r2 r3 hturns
  simp only [Option.bind_eq_bind, r1, Option.bind_some, c1]
  refine ⟨_, rfl, by simp [c2, hn], fun i hi => ?_⟩
  cases i with
  | zero => exact ⟨R, rfl, r2, by simpa using r3⟩
  | succ i =>
    have : ((List.range n).map (fun i => dir (around ts (i + 1))))[i]? = some (dir (around ts (i + 1))) := by
      rw [List.getElem?_map, List.getElem?_range (by omega)]; rfl
    obtain ⟨R', g1, g2, g3⟩ := c3 i _ this
    exact ⟨R', g1, g2, by push_cast; linarith⟩

theorem e1_ne : (![1, 0, 0] : Pt 3) ≠ 0 ∧ dir ![1, 0, 0] = ![1, 0, 0] := by
  have hp : pnorm (![1, 0, 0] : Pt 3) = 1 := by unfold pnorm; rw [psq3]; simp
  refine ⟨fun h => by simpa using congrFun h 0, ?_⟩
  funext i
  change (![1, 0, 0] : Pt 3) i / pnorm (![1, 0, 0] : Pt 3) = _
  rw [hp, div_one]

theorem turn_of {v w : Pt 3} (hv : v ≠ 0) (hw : w ≠ 0) (hdv : dir v = v) (hdw : dir w = w) : Turn (2 / 10 ^ 8) v w ∧ (1 / 10 ^ 8 < pnorm (cross3 v w) → Turn 0 v w) := by
  obtain ⟨R, h1, h2, h3, h4⟩ := C115_rotation v w hv hw
  rw [hdv, hdw] at h3 h4
  refine ⟨⟨R, h1, h2, h3⟩, fun h => ⟨R, h1, h2, ?_⟩⟩
  rw [(h4 h).1, sub_self]
  have : pnorm (0 : Pt 3) = 0 := by simp [pnorm, psq]
  rw [this]

/-- Alignment with the velocity: for at least two keyframes, whose neighbours are at different places, every matrix is a rotation and takes the first axis to the direction of motion (the direction between the neighbouring
keyframes), up to `2e-8` per keyframe. -/
theorem C115_alignment (ts : List (Pt 3)) (h2 : 2 ≤ ts.length) (hv : ∀ i < ts.length, around ts i ≠ 0) :
    ∃ Rs, alignment ts = some Rs ∧ Rs.length = ts.length ∧ ∀ i < ts.length, ∃ R, Rs[i]? = some R ∧ IsRotation R ∧ pnorm (R.mulVec ![1, 0, 0] - dir (around ts i)) ≤ (i + 1) * (2 / 10 ^ 8) := by
  refine alignment_spec _ ts h2 hv ?_ ?_
  · obtain ⟨g1, g2⟩ := dir_ne (hv 0 (by omega))
    exact (turn_of e1_ne.1 g1 e1_ne.2 g2).1
  · intro i hi
    obtain ⟨g1, g2⟩ := dir_ne (hv i (by omega))
    obtain ⟨g3, g4⟩ := dir_ne (hv (i + 1) hi)
    exact (turn_of g1 g3 g2 g4).1

/-- Exactly, when no two successive directions (the first axis before the first one) have an angle with sine at most `1e-8`. -/
theorem C115_alignment_exact (ts : List (Pt 3)) (h2 : 2 ≤ ts.length) (hv : ∀ i < ts.length, around ts i ≠ 0) (h0 : 1 / 10 ^ 8 < pnorm (cross3 ![1, 0, 0] (dir (around ts 0))))
    (ht : ∀ i, i + 1 < ts.length → 1 / 10 ^ 8 < pnorm (cross3 (dir (around ts i)) (dir (around ts (i + 1))))) :
    ∃ Rs, alignment ts = some Rs ∧ Rs.length = ts.length ∧ ∀ i < ts.length, ∃ R, Rs[i]? = some R ∧ IsRotation R ∧ R.mulVec ![1, 0, 0] = dir (around ts i) := by
  obtain ⟨Rs, a1, a2, a3⟩ := alignment_spec 0 ts h2 hv (by
      obtain ⟨g1, g2⟩ := dir_ne (hv 0 (by omega))
      exact (turn_of e1_ne.1 g1 e1_ne.2 g2).2 h0) (by
      intro i hi
      obtain ⟨g1, g2⟩ := dir_ne (hv i (by omega))
      obtain ⟨g3, g4⟩ := dir_ne (hv (i + 1) hi)
      exact (turn_of g1 g3 g2 g4).2 (ht i hi))
  refine ⟨Rs, a1, a2, fun i hi => ?_⟩
  obtain ⟨R, b1, b2, b3⟩ := a3 i hi
  refine ⟨R, b1, b2, ?_⟩
  rw [mul_zero] at b3
  have hz : pnorm (R.mulVec ![1, 0, 0] - dir (around ts i)) = 0 := le_antisymm b3 (Real.sqrt_nonneg _)
  by_contra hne
  have := pnorm_pos (sub_ne_zero.mpr hne)
  rw [hz] at this
  exact lt_irrefl _ this

/-! ### The matrices that are passed to the compiled code -/

/-- the affine map with matrix `A` and translation `t`, as a `4 × 4` matrix -/
def affine (A : Mat3) (t : Pt 3) : Mat4 := !![A 0 0, A 0 1, A 0 2, t 0; A 1 0, A 1 1, A 1 2, t 1; A 2 0, A 2 1, A 2 2, t 2; 0, 0, 0, 1]

theorem keyframe_eq (t : Pt 3) (R : Option Mat3) (s : Option ℝ) : keyframe t R s = affine (s.getD 1 • R.getD 1) t := by
  ext i j
  unfold keyframe affine
  cases R <;> cases s <;> fin_cases i <;> fin_cases j <;> simp

theorem stack_unstack (Ts : List Mat4) : unstack (vstack Ts) = Ts := by
  have hlen : (vstack Ts).length = 4 * Ts.length := by
    unfold vstack
    induction Ts with
    | nil => rfl
    | cons T Ts ih => rw [List.flatMap_cons, List.length_append, ih]; simp; ring
  have hget : ∀ (Ts : List Mat4) (i : ℕ) (T : Mat4), Ts[i]? = some T → ∀ r : Fin 4, (vstack Ts).getD (4 * i + r.val) 0 = T r := by
    intro Ts
    induction Ts with
    | nil => intro i T h; simp at h
    | cons T0 Ts ih =>
      intro i T h r
      cases i with
      | zero =>
        obtain rfl := Option.some.inj h
        fin_cases r <;> simp [vstack]
      | succ i =>
        have := ih i T h r
        unfold vstack at this ⊢
        rw [List.flatMap_cons, List.getD_eq_getElem?_getD, List.getElem?_append_right (by simp; omega)]
        rw [← this, List.getD_eq_getElem?_getD]
        congr 2
        simp; omega
  unfold unstack
  rw [hlen, Nat.mul_div_cancel_left _ (by norm_num)]
  refine List.ext_getElem? (fun i => ?_)
  by_cases hi : i < Ts.length
  · rw [List.getElem?_map, List.getElem?_range hi, List.getElem?_eq_getElem hi]
    simp only [Option.map_some, Option.some.injEq]
    funext r
    exact hget Ts i _ (List.getElem?_eq_getElem hi) r
  · rw [List.getElem?_eq_none (by simpa using hi), List.getElem?_eq_none (by simpa using hi)]

/-- The compiled code gets one keyframe for each translation: the affine map with this translation and with the given rotation (or, if asked for, the rotation aligned with the velocity; otherwise none) times the given scale
(otherwise one).  Rotations that are given take precedence over alignment. -/
theorem C115_keyframes (ts : List (Pt 3)) (rotations : Option (List Mat3)) (scales : Option (List ℝ)) (align : Bool) (Rs : Option (List Mat3))
    (hRs : (rotations ≠ none ∧ Rs = rotations) ∨ (rotations = none ∧ align = true ∧ ∃ A, alignment ts = some A ∧ Rs = some A) ∨ (rotations = none ∧ align = false ∧ Rs = none))
    (hr : ∀ R, rotations = some R → ts.length ≤ R.length) (hs : ∀ S, scales = some S → ts.length ≤ S.length) (hA : ∀ A, Rs = some A → ts.length ≤ A.length) :
    ∃ Ts, keyframes ts rotations scales align = some Ts ∧ unstack (vstack Ts) = Ts ∧ Ts.length = ts.length ∧
      ∀ (i : ℕ) (t : Pt 3), ts[i]? = some t → ∃ R s, (∀ A, Rs = some A → A[i]? = some R) ∧ (Rs = none → R = 1) ∧ (∀ S, scales = some S → S[i]? = some s) ∧ (scales = none → s = 1) ∧ Ts[i]? = some (affine (s • R) t) := by
  have hent : ∀ {α : Type} (l : Option (List α)) (z : α) (i : ℕ), (∀ L, l = some L → i < L.length) → entry l i = some (l.map (fun L => L.getD i z)) := by
    intro α l z i h
    cases l with
    | none => rfl
    | some L =>
      have := h L rfl
      simp only [entry, Option.map_some, List.getD_eq_getElem?_getD]
      rw [List.getElem?_eq_getElem this]; rfl
  have hk : keyframes ts rotations scales align = (List.range ts.length).mapM (fun i => do
      let t ← ts[i]?
      let R ← entry Rs i
      let s ← entry scales i
      some (keyframe t R s)) := by
    unfold keyframes
    rcases hRs with ⟨h1, rfl⟩ | ⟨rfl, rfl, A, h2, rfl⟩ | ⟨rfl, rfl, rfl⟩
    · cases Rs with
      | none => exact absurd rfl h1
      | some R => rfl
    · simp only [Option.isNone_none, Bool.and_self, if_true, h2, Option.map_some]; rfl
    · rfl
  have hm := mapM_eq (fun i => do
      let t ← ts[i]?
      let R ← entry Rs i
      let s ← entry scales i
      some (keyframe t R s)) (fun i => affine (((scales.map (fun S => S.getD i 1)).getD 1) • ((Rs.map (fun A => A.getD i 1)).getD 1)) (ts.getD i 0)) (List.range ts.length) (by
    intro i hi
    have hi := List.mem_range.mp hi
    rw [hent Rs 1 i (fun A h => lt_of_lt_of_le hi (hA A h)), hent scales 1 i (fun S h => lt_of_lt_of_le hi (hs S h)), List.getElem?_eq_getElem hi]
    simp only [Option.bind_eq_bind, Option.bind_some, keyframe_eq, List.getD_eq_getElem?_getD, List.getElem?_eq_getElem hi, Option.getD_some])
  refine ⟨_, hk.trans hm, stack_unstack _, by simp, fun i t ht => ?_⟩
  obtain ⟨hi, rfl⟩ := List.getElem?_eq_some_iff.mp ht
  refine ⟨(Rs.map (fun A => A.getD i 1)).getD 1, (scales.map (fun S => S.getD i 1)).getD 1, ?_, ?_, ?_, ?_, ?_⟩
  · rintro A rfl
    have := lt_of_lt_of_le hi (hA A rfl)
    simp [List.getD_eq_getElem?_getD, List.getElem?_eq_getElem this]
  · rintro rfl; rfl
  · rintro S rfl
    have := lt_of_lt_of_le hi (hs S rfl)
    simp [List.getD_eq_getElem?_getD, List.getElem?_eq_getElem this]
  · rintro rfl; rfl
  · rw [List.getElem?_map, List.getElem?_range hi]
    simp [List.getD_eq_getElem?_getD, List.getElem?_eq_getElem hi]

/-- a path with two keyframes; and a keyframe whose neighbours coincide gives no rotation -/
example : ∃ Rs, alignment [(0 : Pt 3), ![0, 2, 0]] = some Rs ∧ Rs.length = 2 := by
  obtain ⟨Rs, h1, h2, -⟩ := C115_alignment [(0 : Pt 3), ![0, 2, 0]] (by simp) (by
    intro i hi h
    have h := congrFun h 1
    have hi : i < 2 := by simpa using hi
    interval_cases i <;> simp [around] at h)
  exact ⟨Rs, h1, h2⟩

/-- A keyframe whose neighbours are at the same place (the path turns back) has no direction: the code divides by zero. -/
theorem C115_turning_back (p q : Pt 3) : alignment [p, q, p] = none := by
  have hz : unitize (p - p) = none := by
    rw [sub_self]; unfold unitize; rw [if_pos (by simp [pnorm, psq])]
  unfold alignment
  have : velocities [p, q, p] = none := by
    unfold velocities
    have h1 : velOf [p, q, p] 1 = some (p - p) := rfl
    have hr : List.range [p, q, p].length = [0, 1, 2] := rfl
    rw [hr]
    simp only [List.mapM_cons, h1, Option.bind_eq_bind, Option.bind_some, hz, Option.bind_none, Option.bind_fun_none]
  rw [this]; rfl

end Gpy.SweptAlign
