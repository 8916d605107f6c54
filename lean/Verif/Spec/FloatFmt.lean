import Mathlib.Data.Rat.Floor
import Mathlib.Order.WithBot
/-!
# Specification: IEEE 754 binary interchange formats

A format has `ebits` exponent bits and `mbits` stored significand bits; binary32 is `⟨8, 23⟩`, binary64 `⟨11, 52⟩`.  A bit pattern
denotes a NaN, an infinity or a rational number.  Nothing here refers to the model.
-/
namespace StdSimd.Spec

structure Fmt where
  ebits : Nat
  mbits : Nat
  deriving DecidableEq

namespace Fmt
/-- At least two exponent bits and one significand bit. -/
def Ok (f : Fmt) : Prop := 2 ≤ f.ebits ∧ 1 ≤ f.mbits
instance (f : Fmt) : Decidable f.Ok := inferInstanceAs (Decidable (_ ∧ _))

/-- Number of bits of a bit pattern. -/
abbrev width (f : Fmt) : Nat := f.ebits + f.mbits + 1
/-- A bit pattern. -/
abbrev Bits (f : Fmt) := BitVec f.width

variable (f : Fmt) (x : f.Bits)

/-- The sign bit: the first bit. -/
def sign : Bool := x.getLsbD (f.ebits + f.mbits)
/-- The biased exponent. -/
def expo : Nat := x.toNat / 2 ^ f.mbits % 2 ^ f.ebits
/-- The trailing significand field. -/
def mant : Nat := x.toNat % 2 ^ f.mbits
/-- The exponent bias. -/
def bias : Nat := 2 ^ (f.ebits - 1) - 1

/-- Exponent all ones, significand not zero. -/
def isNaN : Prop := f.expo x = 2 ^ f.ebits - 1 ∧ f.mant x ≠ 0
/-- Exponent all ones, significand zero. -/
def isInf : Prop := f.expo x = 2 ^ f.ebits - 1 ∧ f.mant x = 0
def isFinite : Prop := f.expo x ≠ 2 ^ f.ebits - 1
/-- Finite with a nonzero exponent field. -/
def isNormal : Prop := f.expo x ≠ 2 ^ f.ebits - 1 ∧ f.expo x ≠ 0
def isSubnormal : Prop := f.expo x = 0 ∧ f.mant x ≠ 0
def isZero : Prop := f.expo x = 0 ∧ f.mant x = 0
/-- A NaN whose first significand bit is not set. -/
def isSignalling : Prop := f.isNaN x ∧ f.mant x < 2 ^ (f.mbits - 1)

instance : Decidable (f.isNaN x) := inferInstanceAs (Decidable (_ ∧ _))
instance : Decidable (f.isInf x) := inferInstanceAs (Decidable (_ ∧ _))
instance : Decidable (f.isFinite x) := inferInstanceAs (Decidable (_ ≠ _))
instance : Decidable (f.isNormal x) := inferInstanceAs (Decidable (_ ∧ _))
instance : Decidable (f.isSubnormal x) := inferInstanceAs (Decidable (_ ∧ _))
instance : Decidable (f.isZero x) := inferInstanceAs (Decidable (_ ∧ _))
instance : Decidable (f.isSignalling x) := inferInstanceAs (Decidable (_ ∧ _))

/-- The significand with its implicit bit, as an integer. -/
def significand : Nat := if f.expo x = 0 then f.mant x else 2 ^ f.mbits + f.mant x

/-- The rational number a finite pattern denotes. -/
def ratValue : ℚ :=
  (if f.sign x then -1 else 1) * (f.significand x : ℚ) * 2 ^ ((max (f.expo x) 1 : ℤ) - f.bias - f.mbits)

/-- The value of a pattern in the rationals with `-∞` (`⊥`) and `+∞` (`⊤`); `none` for NaN. -/
def value : Option (WithBot (WithTop ℚ)) :=
  if f.isNaN x then none
  else if f.isInf x then some (if f.sign x then ⊥ else ((⊤ : WithTop ℚ) : WithBot (WithTop ℚ)))
  else some ((f.ratValue x : WithTop ℚ) : WithBot (WithTop ℚ))

/-- A comparison that is false when an operand is a NaN. -/
def quiet (p : WithBot (WithTop ℚ) → WithBot (WithTop ℚ) → Bool) (x y : f.Bits) : Bool :=
  match f.value x, f.value y with
  | some a, some b => p a b
  | _, _ => false

/-- `x < y` of IEEE 754. -/
def lt (x y : f.Bits) : Bool := f.quiet (fun a b => decide (a < b)) x y
/-- `x <= y` of IEEE 754. -/
def le (x y : f.Bits) : Bool := f.quiet (fun a b => decide (a ≤ b)) x y
/-- `x == y` of IEEE 754. -/
def eq (x y : f.Bits) : Bool := f.quiet (fun a b => decide (a = b)) x y
/-- Less or greater. -/
def lessGreater (x y : f.Bits) : Bool := f.quiet (fun a b => decide (a < b ∨ b < a)) x y
/-- At least one operand is a NaN. -/
def unordered (x y : f.Bits) : Bool := decide (f.value x = none ∨ f.value y = none)

/-- `FP_NAN`, `FP_INFINITE`, `FP_ZERO`, `FP_SUBNORMAL`, `FP_NORMAL` with the values of the C library. -/
def fpclassify : Nat :=
  if f.isNaN x then 0 else if f.isInf x then 1 else if f.isZero x then 2 else if f.isSubnormal x then 3 else 4

end Fmt
end StdSimd.Spec
