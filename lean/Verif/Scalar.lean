import Verif.Basic

/-!
# Scalars

The C++ code computes with `double`. The model is written over an arbitrary type `α` with the
C++ operations; `Fp α` gives the operations that are not ring operations.
-/

namespace Scs

/-- The non-ring operations of `double` that the code uses. No law is assumed, so theorems proved
for every `Fp α` hold for IEEE arithmetic (where `div` never fails) as well as for the exact reals
(where division by zero is reported as an error). -/
class Fp (α : Type) where
  /-- `a / b` -/
  div : α → α → Exec α
  /-- `std::sin` -/
  sin : α → α
  /-- `std::cos` -/
  cos : α → α
  /-- `std::sqrt` -/
  sqrt : α → α
  /-- `std::abs` -/
  abs : α → α
  /-- `std::fmin` -/
  fmin : α → α → α
  /-- `std::fmax` -/
  fmax : α → α → α
  /-- `a > b` (false when either is NaN) -/
  gt : α → α → Bool
  /-- `a >= b` -/
  ge : α → α → Bool
  /-- `a == 0` -/
  isZero : α → Bool
  /-- `std::isnan(a) || std::isinf(a)` -/
  notFinite : α → Bool
  /-- numeric literals -/
  lit : Rat → α
  /-- `DBL_MAX` -/
  dblMax : α

end Scs
