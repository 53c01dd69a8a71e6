import Verif.Round
import Mathlib.Data.Int.Log

/-!
# Number formats

Floating point numbers: finite numbers rounded by a function `rd`, or the value `bad` for an infinity
or NaN. No operation fails; a result out of range and a division by zero give `bad`. Nothing in this
file models a file of `/repo`: it shows that `Rounded` is met by arithmetics that really round, one of
them with the precision and range of `double`.
-/

namespace Scs

/-- A number format: how results are rounded, which results are in range, the constant `DBL_MAX`, and a
bound of the error. -/
structure Format where
  rd : ℝ → ℝ
  ok : ℝ → Prop
  big : ℝ
  prec : ℝ
  prec_nonneg : 0 ≤ prec
  near : ∀ x, |rd x - x| ≤ prec * (1 + |x|)
  range : ∀ x, prec * |x| ≤ 1 → ok (rd x)
  sign : ∀ x, 0 ≤ x → 0 ≤ rd x
  big_near : |big - (2 ^ 53 - 1) * 2 ^ 971| ≤ prec * (1 + |(2 ^ 53 - 1) * 2 ^ 971|)

/-- The numbers of a format; `bad` is an infinity or NaN. -/
inductive Fl (φ : Format) : Type
  | num (x : ℝ)
  | bad

namespace Fl
variable {φ : Format}

open Classical in
/-- Rounding a real number. -/
noncomputable def round (x : ℝ) : Fl φ := if φ.ok (φ.rd x) then num (φ.rd x) else bad

/-- The number that a finite value stands for. -/
def toReal : Fl φ → ℝ
  | num x => x
  | bad => 0

/-- A unary operation. -/
noncomputable def op1 (f : ℝ → Fl φ) : Fl φ → Fl φ
  | num x => f x
  | bad => bad

/-- A binary operation. -/
noncomputable def op2 (f : ℝ → ℝ → Fl φ) : Fl φ → Fl φ → Fl φ
  | num x, num y => f x y
  | _, _ => bad

open Classical in
/-- A comparison; false if an argument is not finite. -/
noncomputable def cmp (f : ℝ → ℝ → Prop) : Fl φ → Fl φ → Bool
  | num x, num y => decide (f x y)
  | _, _ => false

noncomputable instance : Zero (Fl φ) := ⟨(num 0)⟩
noncomputable instance : Add (Fl φ) := ⟨op2 fun x y => round (x + y)⟩
noncomputable instance : Mul (Fl φ) := ⟨op2 fun x y => round (x * y)⟩
noncomputable instance : Sub (Fl φ) := ⟨op2 fun x y => round (x - y)⟩
noncomputable instance : Neg (Fl φ) := ⟨op1 fun x => (num (-x))⟩

open Classical in
noncomputable instance : Fp (Fl φ) where
  div a b := .ok (op2 (fun x y => if y = 0 then bad else round (x / y)) a b)
  sin := op1 fun x => round (Real.sin x)
  cos := op1 fun x => round (Real.cos x)
  sqrt := op1 fun x => if 0 ≤ x then round (√x) else bad
  abs := op1 fun x => (num |x|)
  fmin := op2 fun x y => (num (min x y))
  fmax := op2 fun x y => (num (max x y))
  gt := cmp fun x y => y < x
  ge := cmp fun x y => y ≤ x
  isZero a := cmp (φ := φ) (fun x _ => x = 0) a (num 0)
  notFinite
    | num _ => false
    | bad => true
  lit q := round (q : ℝ)
  dblMax := (num φ.big)

theorem round_near {x : ℝ} (h : φ.prec * |x| ≤ 1) :
    ∃ y, (round x : Fl φ) = (num y) ∧ |y - x| ≤ φ.prec * (1 + |x|) :=
  ⟨φ.rd x, if_pos (φ.range x h), φ.near x⟩

theorem round_sign {x y : ℝ} (h : 0 ≤ x) (e : (round x : Fl φ) = (num y)) : 0 ≤ y := by
  unfold round at e
  split at e
  · cases e; exact φ.sign x h
  · cases e

/-- The numbers of a format are scalars with rounding. -/
noncomputable instance : Rounded (Fl φ) where
  val := toReal
  fin a := ∃ x, a = (num x)
  prec := φ.prec
  prec_nonneg := φ.prec_nonneg
  zero_fin := ⟨0, rfl⟩
  zero_val := rfl
  add_near := by
    rintro _ _ ⟨x, rfl⟩ ⟨y, rfl⟩ h
    obtain ⟨z, e, hz⟩ := round_near (φ := φ) (x := x + y) h
    have e : (num x : Fl φ) + (num y) = (num z) := e
    rw [e]; exact ⟨⟨z, rfl⟩, hz⟩
  sub_near := by
    rintro _ _ ⟨x, rfl⟩ ⟨y, rfl⟩ h
    obtain ⟨z, e, hz⟩ := round_near (φ := φ) (x := x - y) h
    have e : (num x : Fl φ) - (num y) = (num z) := e
    rw [e]; exact ⟨⟨z, rfl⟩, hz⟩
  mul_near := by
    rintro _ _ ⟨x, rfl⟩ ⟨y, rfl⟩ h
    obtain ⟨z, e, hz⟩ := round_near (φ := φ) (x := x * y) h
    have e : (num x : Fl φ) * (num y) = (num z) := e
    rw [e]; exact ⟨⟨z, rfl⟩, hz⟩
  div_near := by
    rintro _ _ ⟨x, rfl⟩ ⟨y, rfl⟩ hy h
    have hy : y ≠ 0 := hy
    obtain ⟨z, e, hz⟩ := round_near (φ := φ) (x := x / y) h
    refine ⟨(num z), ?_, ⟨z, rfl⟩, hz⟩
    show Except.ok (if y = 0 then bad else (round (x / y) : Fl φ)) = _
    rw [if_neg hy, e]
  sin_near := by
    rintro _ ⟨x, rfl⟩ h
    have h1 : φ.prec * |Real.sin x| ≤ 1 :=
      (mul_le_of_le_one_right φ.prec_nonneg (Real.abs_sin_le_one x)).trans h
    obtain ⟨z, e, hz⟩ := round_near (φ := φ) h1
    have e : Fp.sin (num x : Fl φ) = (num z) := e
    rw [e]; exact ⟨⟨z, rfl⟩, hz⟩
  cos_near := by
    rintro _ ⟨x, rfl⟩ h
    have h1 : φ.prec * |Real.cos x| ≤ 1 :=
      (mul_le_of_le_one_right φ.prec_nonneg (Real.abs_cos_le_one x)).trans h
    obtain ⟨z, e, hz⟩ := round_near (φ := φ) h1
    have e : Fp.cos (num x : Fl φ) = (num z) := e
    rw [e]; exact ⟨⟨z, rfl⟩, hz⟩
  sqrt_near := by
    rintro _ ⟨x, rfl⟩ h0 h
    have h0 : 0 ≤ x := h0
    obtain ⟨z, e, hz⟩ := round_near (φ := φ) (x := √x) h
    have e : Fp.sqrt (num x : Fl φ) = (num z) := by
      show (if 0 ≤ x then (round (√x) : Fl φ) else bad) = _
      rw [if_pos h0, e]
    rw [e]; exact ⟨⟨z, rfl⟩, hz⟩
  lit_near := by
    intro q h
    obtain ⟨z, e, hz⟩ := round_near (φ := φ) (x := (q : ℝ)) h
    have e : (Fp.lit q : Fl φ) = (num z) := e
    rw [e]; exact ⟨⟨z, rfl⟩, hz⟩
  dbl_near := ⟨⟨_, rfl⟩, φ.big_near⟩
  add_sign := by
    rintro _ _ ⟨x, rfl⟩ ⟨y, rfl⟩ hx hy ⟨z, e⟩
    rw [e]
    exact round_sign (add_nonneg (show 0 ≤ x from hx) (show 0 ≤ y from hy)) e
  sq_sign := by
    rintro _ ⟨x, rfl⟩ ⟨z, e⟩
    rw [e]
    exact round_sign (mul_self_nonneg x) e
  neg_exact := by rintro _ ⟨x, rfl⟩; exact ⟨⟨-x, rfl⟩, rfl⟩
  abs_exact := by rintro _ ⟨x, rfl⟩; exact ⟨⟨|x|, rfl⟩, rfl⟩
  fmin_exact := by rintro _ _ ⟨x, rfl⟩ ⟨y, rfl⟩; exact ⟨⟨min x y, rfl⟩, rfl⟩
  fmax_exact := by rintro _ _ ⟨x, rfl⟩ ⟨y, rfl⟩; exact ⟨⟨max x y, rfl⟩, rfl⟩
  gt_exact := by rintro _ _ ⟨x, rfl⟩ ⟨y, rfl⟩; exact decide_eq_true_iff
  ge_exact := by rintro _ _ ⟨x, rfl⟩ ⟨y, rfl⟩; exact decide_eq_true_iff
  zero_exact := by rintro _ ⟨x, rfl⟩; exact decide_eq_true_iff
  fin_exact := by rintro _ ⟨x, rfl⟩; rfl
  div_even := by intro a b d e h; cases h

end Fl

/-! ## `p` bits, rounding towards zero -/

/-- Rounding towards zero to `p + 1` significant bits; small numbers become 0. -/
noncomputable def chop (p : Nat) (tiny x : ℝ) : ℝ :=
  if |x| < tiny then 0
  else SignType.sign x * (⌊|x| / 2 ^ (Int.log 2 |x| - p)⌋ * 2 ^ (Int.log 2 |x| - p))

theorem chop_near {p : Nat} {tiny : ℝ} (h0 : 0 < tiny) (h1 : tiny ≤ (1 / 2) ^ p) (x : ℝ) :
    |chop p tiny x - x| ≤ (1 / 2) ^ p * (1 + |x|) ∧ |chop p tiny x| ≤ |x| ∧
      (0 ≤ x → 0 ≤ chop p tiny x) := by
  have hp : (0 : ℝ) < (1 / 2) ^ p := by positivity
  unfold chop
  split
  · rename_i h
    refine ⟨?_, by rw [abs_zero]; exact abs_nonneg x, fun _ => le_rfl⟩
    rw [zero_sub, abs_neg]
    nlinarith [abs_nonneg x]
  · rename_i h
    have hx : 0 < |x| := h0.trans_le (not_lt.1 h)
    set u : ℝ := 2 ^ (Int.log 2 |x| - p) with hu
    have u0 : 0 < u := by positivity
    have u1 : u ≤ (1 / 2) ^ p * |x| := by
      have := Int.zpow_log_le_self (b := 2) (r := |x|) (by norm_num) hx
      rw [hu, zpow_sub₀ (by norm_num), zpow_natCast, div_eq_inv_mul, one_div, inv_pow]
      exact mul_le_mul_of_nonneg_left (by exact_mod_cast this) (by positivity)
    have f1 : (⌊|x| / u⌋ : ℝ) * u ≤ |x| := by
      have := mul_le_mul_of_nonneg_right (Int.floor_le (|x| / u)) u0.le
      rwa [div_mul_cancel₀ _ u0.ne'] at this
    have f2 : |x| < (⌊|x| / u⌋ : ℝ) * u + u := by
      have := mul_lt_mul_of_pos_right (Int.lt_floor_add_one (|x| / u)) u0
      rw [div_mul_cancel₀ _ u0.ne'] at this
      linarith
    have f0 : 0 ≤ (⌊|x| / u⌋ : ℝ) * u :=
      mul_nonneg (by exact_mod_cast Int.floor_nonneg.2 (by positivity)) u0.le
    generalize (⌊|x| / u⌋ : ℝ) * u = m at f0 f1 f2 ⊢
    rcases lt_or_gt_of_ne (abs_pos.1 hx) with hn | hn
    · rw [sign_neg hn, SignType.coe_neg_one, neg_one_mul]
      rw [abs_of_neg hn] at f1 f2 u1 ⊢
      refine ⟨?_, ?_, fun h => absurd h (not_le.2 hn)⟩
      · rw [abs_le]; constructor <;> nlinarith
      · rw [abs_le]; constructor <;> nlinarith
    · rw [sign_pos hn, SignType.coe_one, one_mul]
      rw [abs_of_pos hn] at f1 f2 u1 ⊢
      refine ⟨?_, ?_, fun _ => ?_⟩
      · rw [abs_le]; constructor <;> nlinarith
      · rw [abs_le]; constructor <;> nlinarith
      · nlinarith

/-- Numbers of 53 significant bits, rounded towards zero, from `2 ^ (-1022)` to `2 ^ 1024`: the
precision and the range of `double`. -/
noncomputable def double : Format where
  rd := chop 52 ((1 / 2) ^ 1022)
  ok x := |x| < 2 ^ 1024
  big := (2 ^ 53 - 1) * 2 ^ 971
  prec := (1 / 2) ^ 52
  prec_nonneg := by positivity
  near x := (chop_near (by positivity) (pow_le_pow_of_le_one (by norm_num) (by norm_num)
    (by norm_num)) x).1
  range x h := by
    refine (chop_near (by positivity)
      (pow_le_pow_of_le_one (by norm_num) (by norm_num) (by norm_num)) x).2.1.trans_lt ?_
    rw [one_div, inv_pow, inv_mul_le_iff₀ (by positivity), mul_one] at h
    exact h.trans_lt (pow_lt_pow_right₀ (by norm_num) (by norm_num))
  sign x := (chop_near (by positivity) (pow_le_pow_of_le_one (by norm_num) (by norm_num)
    (by norm_num)) x).2.2
  big_near := by
    rw [sub_self, abs_zero]
    positivity

/-- Numbers of `p + 1` significant bits, rounded towards zero, without a largest number. -/
noncomputable def wide (p : Nat) : Format where
  rd := chop p ((1 / 2) ^ p)
  ok _ := True
  big := (2 ^ 53 - 1) * 2 ^ 971
  prec := (1 / 2) ^ p
  prec_nonneg := by positivity
  near x := (chop_near (by positivity) le_rfl x).1
  range _ _ := trivial
  sign x := (chop_near (by positivity) le_rfl x).2.2
  big_near := by
    rw [sub_self, abs_zero]
    positivity

end Scs
