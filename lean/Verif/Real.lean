import Verif.Scalar
import Mathlib.Analysis.SpecialFunctions.Trigonometric.Basic
import Mathlib.Analysis.SpecialFunctions.Sqrt

/-!
# Exact real arithmetic

The scalars of the theorems that need algebra: `double` without rounding, NaN or infinity;
division by zero is an error.
-/

namespace Scs

open Classical in
/-- Exact real arithmetic in the place of `double`. `DBL_MAX` is `(2^53 - 1) * 2^971`. -/
noncomputable instance : Fp ℝ where
  div a b := if b = 0 then .error .divZero else .ok (a / b)
  sin := Real.sin
  cos := Real.cos
  sqrt := Real.sqrt
  abs x := |x|
  fmin a b := min a b
  fmax a b := max a b
  gt a b := decide (b < a)
  ge a b := decide (b ≤ a)
  isZero a := decide (a = 0)
  notFinite _ := false
  lit q := (q : ℝ)
  dblMax := (2 ^ 53 - 1) * 2 ^ 971

theorem fp_div {a b : ℝ} (h : b ≠ 0) : Fp.div a b = .ok (a / b) := if_neg h
theorem fp_div_zero (a : ℝ) : Fp.div a 0 = .error .divZero := if_pos rfl
theorem fp_gt {a b : ℝ} : Fp.gt a b = true ↔ b < a := by simp [Fp.gt]
theorem fp_ge {a b : ℝ} : Fp.ge a b = true ↔ b ≤ a := by simp [Fp.ge]
theorem fp_isZero {a : ℝ} : Fp.isZero a = true ↔ a = 0 := by simp [Fp.isZero]
theorem fp_abs (a : ℝ) : Fp.abs a = |a| := rfl
theorem fp_fmin (a b : ℝ) : Fp.fmin a b = min a b := rfl
theorem fp_fmax (a b : ℝ) : Fp.fmax a b = max a b := rfl
theorem fp_lit (q : Rat) : (Fp.lit q : ℝ) = (q : ℝ) := rfl

end Scs
