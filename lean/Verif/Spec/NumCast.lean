import Verif.Spec.FloatArith
import Verif.Spec.IntCast
/-!
# Specification: `static_cast` between arithmetic types

[conv.integral], [conv.double], [conv.fpint] and IEEE 754, on bit patterns.  Nothing here refers to the model.
-/
namespace StdSimd.Spec

/-- An arithmetic type: floating point (`float` if `size = 4`, `double` if `size = 8`) or a signed or unsigned integer of `size` bytes. -/
structure NumType where
  fp : Bool
  sgn : Bool
  size : Nat
  deriving DecidableEq

namespace NumType

/-- `float`, `double`, or an integer type of 1, 2, 4 or 8 bytes. -/
def Supported (T : NumType) : Prop :=
  (T.fp = true ∧ T.sgn = true ∧ (T.size = 4 ∨ T.size = 8)) ∨ (T.fp = false ∧ (T.size = 1 ∨ T.size = 2 ∨ T.size = 4 ∨ T.size = 8))

/-- binary32 or binary64. -/
def fmt (T : NumType) : Fmt := if T.size = 4 then ⟨8, 23⟩ else ⟨11, 52⟩

/-- An integer is a value of the integer type. -/
def InRange (U : NumType) (n : ℤ) : Prop :=
  if U.sgn then -2 ^ (8 * U.size - 1) ≤ n ∧ n < 2 ^ (8 * U.size - 1) else 0 ≤ n ∧ n < 2 ^ (8 * U.size)

instance (U : NumType) (n : ℤ) : Decidable (U.InRange n) := by unfold InRange; infer_instance

end NumType

/-- The bits `r` are an admissible result of `static_cast<U>(x)` for an operand of type `T` with the bits `x`, if the rounding direction is
`m`:
* integer to integer: the value congruent modulo `2 ^ N`,
* integer to floating point: the value, correctly rounded,
* floating point to integer: the value with its fractional part discarded; undefined unless the result is a value of the type,
* floating point to floating point: correctly rounded, infinities and the signs of zeros are kept, a NaN for a NaN. -/
def IsCast (m : RMode) (T U : NumType) (x r : Nat) : Prop :=
  match T.fp, U.fp with
  | false, false => r = castBits U.size (intValue T.sgn T.size x)
  | false, true => r = (U.fmt.round m false (intValue T.sgn T.size x)).toNat
  | true, false =>
    let b : T.fmt.Bits := BitVec.ofNat _ x
    T.fmt.isFinite b → U.InRange (truncZ (T.fmt.ratValue b)) → r = castBits U.size (truncZ (T.fmt.ratValue b))
  | true, true =>
    let b : T.fmt.Bits := BitVec.ofNat _ x
    (T.fmt.isFinite b → r = (U.fmt.round m (T.fmt.sign b) (T.fmt.ratValue b)).toNat)
      ∧ (T.fmt.isInf b → r = (U.fmt.ofMag (T.fmt.sign b) U.fmt.infMag).toNat)
      ∧ (T.fmt.isNaN b → U.fmt.isNaN (BitVec.ofNat _ r) ∧ r < 2 ^ U.fmt.width)

end StdSimd.Spec
