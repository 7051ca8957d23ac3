import Verif.Model.Kernels

/-! `compactly_supported_normal.py`, one row of `x` at a time. -/

set_option autoImplicit false
namespace Gpy

noncomputable section

/-- `compactly_supported_normal.py:71-78`: the factor of one coordinate; `none`: `UnboundLocalError` (no such `n`) -/
def cnFactor (n : ℕ) (x : ℝ) : Option ℝ :=
  match n with
  | 2 => some (cond01 (|x| < 0.5) * (-(x ^ 2) + 0.75) + cond01 (|x| < 1.5) * cond01 (|x| > 0.5) * (0.5 * x ^ 2 - 1.5 * |x| + 1.125))                    -- line 72
  | 1 => some (cond01 (|x| < 1) * (1 - |x|))                                                                                                            -- line 74
  | 3 => some (cond01 (|x| < 1) * (3 * |x| ^ 3 - 6 * |x| ^ 2 + 4) * (1 / 6) + cond01 (|x| ≤ 2) * cond01 (|x| ≥ 1) * (-(|x| ^ 3) + 6 * |x| ^ 2 - 12 * |x| + 8) * (1 / 6))   -- line 76
  | 4 => some (cond01 (|x| ≤ 2.5) * cond01 (|x| ≥ 1.5) * (16 * |x| ^ 4 - 160 * |x| ^ 3 + 600 * |x| ^ 2 - 1000 * |x| + 625) * (1 / 384)
      + cond01 (|x| ≤ 1.5) * cond01 (|x| ≥ 0.5) * (-16 * |x| ^ 4 + 80 * |x| ^ 3 - 120 * |x| ^ 2 + 20 * |x| + 55) * (1 / 96)
      + cond01 (|x| ≤ 0.5) * (48 * |x| ^ 4 - 120 * |x| ^ 2 + 115) * (1 / 192))                                                                           -- line 78
  | _ => none

/-- `compactly_supported_normal.py:62-69`: the factor of the coordinate along which the second derivative is taken -/
def cnFactor2 (n : ℕ) (x : ℝ) : Option ℝ :=
  match n with
  | 2 => some (cond01 (|x| < 0.5) * (-2) + cond01 (|x| < 1.5) * cond01 (|x| > 0.5) * 1)                                                                  -- line 63
  | 1 => some (0 * |x|)                                                                                                                                 -- line 65
  | 3 => some (cond01 (|x| < 1) * (3 * 3 * 2 * |x| - 12) * (1 / 6) + cond01 (|x| ≤ 2) * cond01 (|x| ≥ 1) * (-3 * 2 * |x| + 12) * (1 / 6))                  -- line 67
  | 4 => some (cond01 (|x| ≤ 2.5) * cond01 (|x| ≥ 1.5) * (16 * 4 * 3 * |x| ^ 2 - 160 * 3 * 2 * |x| + 600 * 2) * (1 / 384)
      + cond01 (|x| ≤ 1.5) * cond01 (|x| ≥ 0.5) * (-16 * 4 * 3 * |x| ^ 2 + 80 * 3 * 2 * |x| - 120 * 2) * (1 / 96)
      + cond01 (|x| ≤ 0.5) * (48 * 4 * 3 * |x| ^ 2 - 120 * 2) * (1 / 192))                                                                               -- line 69
  | _ => none

/-- `compactly_supported_normal.py:57-80`: one pass of the loop over the coordinates; `second = none` is `second_derivative=-1` -/
def cnStep {d : ℕ} (n : ℕ) (second : Option (Fin d)) (x : Pt d) (vals : ℝ) (i : Fin d) : Option ℝ :=
  (if second = some i then cnFactor2 n (x i) else cnFactor n (x i)).map (fun v => vals * v)

/-- `compactly_supported_normal.py:53-81` -/
def cnCentered {d : ℕ} (n : ℕ) (second : Option (Fin d)) (x : Pt d) : Option ℝ :=
  (List.finRange d).foldlM (cnStep n second x) 1

/-- `compactly_supported_normal.py:48-88` -/
def compactNormal {d : ℕ} (n : ℕ) (sigma : ℝ) (center : Option (Pt d)) (second : Option (Fin d)) (x : Pt d) : Option ℝ := do
  let center := center.getD 0                                                     -- lines 48-49
  let x_new : Pt d := fun k => (x k - center k) / sigma                           -- line 50
  let v ← cnCentered n second x_new
  let val := v / sigma ^ d                                                        -- line 83
  match second with
  | none => some val
  | some _ => some (val / sigma ^ 2)                                              -- lines 84-85

end
end Gpy
