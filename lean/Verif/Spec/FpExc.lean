import Verif.Spec.Trig
/-!
# Specification: the floating-point exceptions of IEEE 754 operations

An operation raises a set of the five exceptions of IEEE 754 (`FE_INVALID`, `FE_DIVBYZERO`, `FE_OVERFLOW`, `FE_UNDERFLOW`, `FE_INEXACT`), which
stay raised until the program clears them.  Nothing here refers to the model.
-/
namespace StdSimd.Spec

/-- A set of exceptions. -/
structure Exc where
  invalid : Bool := false
  divByZero : Bool := false
  overflow : Bool := false
  underflow : Bool := false
  inexact : Bool := false
  deriving DecidableEq

namespace Exc
/-- No exception. -/
def clear : Exc := {}
/-- The exceptions raised by one or the other operation. -/
def or (a b : Exc) : Exc :=
  ⟨a.invalid || b.invalid, a.divByZero || b.divByZero, a.overflow || b.overflow, a.underflow || b.underflow, a.inexact || b.inexact⟩
/-- The exceptions raised by at least one of several operations. -/
def any (l : List Exc) : Exc := l.foldr Exc.or clear
end Exc

namespace Fmt
variable (f : Fmt)

/-- A comparison that is quiet (`==`, `!=`, `isless`, ...; IEEE 754 5.11, table 5.3): invalid for signalling NaNs. -/
def quietExc (x y : f.Bits) : Exc := { invalid := decide (f.isSignalling x ∨ f.isSignalling y) }
/-- A comparison that signals (`<`, `<=`; IEEE 754 5.11, table 5.2): invalid for every NaN. -/
def signalExc (x y : f.Bits) : Exc := { invalid := decide (f.isNaN x ∨ f.isNaN y) }

/-- Rounding of the exact result `q` (IEEE 754 7.4-7.6): overflow if the result rounded to the precision of the format is too large for it, underflow if
an inexact result is below the normal numbers (before rounding; IEEE 754 permits to look after rounding). -/
def roundExc (m : RMode) (q : ℚ) : Exc :=
  { overflow := decide (2 ^ (f.bias + 1) ≤ |f.roundTo m q|)
    underflow := decide (|q| < 2 ^ (1 - (f.bias : ℤ)) ∧ f.roundTo m q ≠ q)
    inexact := decide (f.roundTo m q ≠ q ∨ 2 ^ (f.bias + 1) ≤ |f.roundTo m q|) }

/-- `x + y`. -/
def addExc (m : RMode) (x y : f.Bits) : Exc :=
  if f.isNaN x ∨ f.isNaN y then f.quietExc x y
  else if f.isInf x ∨ f.isInf y then { invalid := decide (f.isInf x ∧ f.isInf y ∧ f.sign x ≠ f.sign y) }
  else f.roundExc m (f.ratValue x + f.ratValue y)
/-- `x - y`. -/
def subExc (m : RMode) (x y : f.Bits) : Exc :=
  if f.isNaN x ∨ f.isNaN y then f.quietExc x y
  else if f.isInf x ∨ f.isInf y then { invalid := decide (f.isInf x ∧ f.isInf y ∧ f.sign x = f.sign y) }
  else f.roundExc m (f.ratValue x - f.ratValue y)
/-- `x * y`. -/
def mulExc (m : RMode) (x y : f.Bits) : Exc :=
  if f.isNaN x ∨ f.isNaN y then f.quietExc x y
  else if f.isInf x ∨ f.isInf y then { invalid := decide (f.isZero x ∨ f.isZero y) }
  else f.roundExc m (f.ratValue x * f.ratValue y)
/-- `x / y`. -/
def divExc (m : RMode) (x y : f.Bits) : Exc :=
  if f.isNaN x ∨ f.isNaN y then f.quietExc x y
  else if f.isInf x ∨ f.isInf y then { invalid := decide (f.isInf x ∧ f.isInf y) }
  else if f.isZero y then (if f.isZero x then { invalid := true } else { divByZero := true })
  else f.roundExc m (f.ratValue x / f.ratValue y)

/-- The number is an integer. -/
def isIntegral (x : f.Bits) : Prop := f.ratValue x = ⌊f.ratValue x⌋
instance (x : f.Bits) : Decidable (f.isIntegral x) := inferInstanceAs (Decidable (_ = _))

/-- `std::nearbyint` (roundToIntegralTiesToEven, ...; IEEE 754 5.9): invalid for signalling NaNs only. -/
def nearbyintExc (x : f.Bits) : Exc := { invalid := decide (f.isSignalling x) }
/-- `std::rint` (roundToIntegralExact): also inexact, if the number is not an integer. -/
def rintExc (x : f.Bits) : Exc := { invalid := decide (f.isSignalling x), inexact := decide (f.isFinite x ∧ ¬ f.isIntegral x) }

end Fmt

/-- The functions of the C library that compare without signalling. -/
inductive CmpFn where
  | isunordered | isgreater | isgreaterequal | isless | islessequal | islessgreater
  deriving DecidableEq
/-- Their results. -/
def CmpFn.eval (f : Fmt) (x y : f.Bits) : CmpFn → Bool
  | .isunordered => f.unordered x y
  | .isgreater => f.lt y x
  | .isgreaterequal => f.le y x
  | .isless => f.lt x y
  | .islessequal => f.le x y
  | .islessgreater => f.lessGreater x y

/-- The comparison operators (`>` and `>=` exchange the operands of `<` and `<=`). -/
inductive CmpOp where
  | eq | ne | lt | le
  deriving DecidableEq
/-- Their results. -/
def CmpOp.eval (f : Fmt) (x y : f.Bits) : CmpOp → Bool
  | .eq => f.eq x y
  | .ne => !(f.eq x y)
  | .lt => f.lt x y
  | .le => f.le x y
/-- Their exceptions (C Annex F.9.3): `==` and `!=` are quiet, `<` and `<=` signal. -/
def CmpOp.exc (f : Fmt) (x y : f.Bits) : CmpOp → Exc
  | .eq => f.quietExc x y
  | .ne => f.quietExc x y
  | .lt => f.signalExc x y
  | .le => f.signalExc x y

/-- The functions that classify; none raises an exception, whatever the operand (IEEE 754 5.7.2). -/
inductive ClassFn where
  | isnan | isinf | isfinite | isnormal | signbit
  deriving DecidableEq
/-- Their results. -/
def ClassFn.eval (f : Fmt) (x : f.Bits) : ClassFn → Bool
  | .isnan => decide (f.isNaN x)
  | .isinf => decide (f.isInf x)
  | .isfinite => decide (f.isFinite x)
  | .isnormal => decide (f.isNormal x)
  | .signbit => f.sign x

end StdSimd.Spec
