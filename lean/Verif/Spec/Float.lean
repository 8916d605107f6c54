import Mathlib.Data.Rat.Floor
import Mathlib.Data.Int.Log
import Mathlib.Algebra.Order.Round
/-!
# Specification: floating-point numbers with `p` significant bits

Finite values as rational numbers.  The exponent range is not bounded here: the theorems that use it are about values whose
magnitude and quotients stay far away from the limits of binary32 (`p = 24`) and binary64 (`p = 53`).
Nothing here refers to the model.
-/
namespace StdSimd.Spec

/-- A number with a significand of at most `p` bits. -/
def Representable (p : Nat) (r : ℚ) : Prop := ∃ m e : ℤ, |m| < 2 ^ p ∧ r = m * 2 ^ e

/-- What every IEEE rounding direction does: larger results are not rounded to smaller numbers and representable results are
not changed. -/
structure IsRounding (p : Nat) (R : ℚ → ℚ) : Prop where
  mono : Monotone R
  fix : ∀ r, Representable p r → R r = r

/-- Round to the nearest integer, ties to even. -/
def roundEven (r : ℚ) : ℤ :=
  if Int.fract r < 1 / 2 then ⌊r⌋
  else if 1 / 2 < Int.fract r then ⌊r⌋ + 1
  else if Even ⌊r⌋ then ⌊r⌋ else ⌊r⌋ + 1

/-- The weight of the last of `p` significant bits of `r`. -/
def ulp (p : Nat) (r : ℚ) : ℚ := (2 : ℚ) ^ (Int.log 2 |r| - (p : ℤ) + 1)

/-- The default IEEE rounding: to the nearest number with `p` significant bits, ties to even. -/
def roundNearest (p : Nat) (r : ℚ) : ℚ := if r = 0 then 0 else roundEven (r / ulp p r) * ulp p r

/-- Round toward zero to an integer (`(int)f`, `std::trunc`). -/
def truncZ (r : ℚ) : ℤ := if 0 ≤ r then ⌊r⌋ else ⌈r⌉

end StdSimd.Spec
