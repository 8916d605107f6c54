import Verif.Spec.CTypes
/-!
# Model: which implicit conversions are offered

`experimental/bits/numeric_traits.h` and the conversion traits of `experimental/bits/simd.h`, evaluated with the arithmetic of the
language: the comparisons of the traits are done in the common type of their operands (`Platform.lessIn`).
-/
namespace StdSimd.Narrowing
open Spec

variable (p : Platform)

/-- `__digits_v` (numeric_traits.h 36-57): width without sign bit for integers (`bool` has 8), the precision for floating point. -/
def digits (t : CType) : Nat :=
  match p.kind t with
  | .int s w => w - s.toNat
  | .float f => f.mbits + 1

/-- `__FLT_MAX__` and the like: the largest finite number of a format. -/
def fltMax (f : Fmt) : ℚ := (2 ^ (f.mbits + 1) - 1) * 2 ^ ((f.bias : ℤ) - f.mbits)

/-- The value of an integer converted to an integer type: `bool` maps everything but zero to `true`. -/
def toInt (t : CType) (n : ℤ) : ℤ :=
  match t, p.kind t with
  | .bool, _ => if n = 0 then 0 else 1
  | _, .int s w => Platform.wrap s w n
  | _, .float _ => n

/-- `__finite_min_impl` for integers (numeric_traits.h 233-242): `is_unsigned_v<_Tp> ? _Tp() : -2 * (_Tp(1) << digits - 1)`. -/
def intMin (t : CType) : ℤ := if p.isUnsigned t then 0 else toInt p t (-2 * 2 ^ (digits p t - 1))

/-- `__finite_min_v` (numeric_traits.h 233-254): for floating point `-__FLT_MAX__`. -/
def finiteMin (t : CType) : ℚ :=
  match p.kind t with
  | .int _ _ => intMin p t
  | .float f => -fltMax f

/-- `__finite_max_v` (numeric_traits.h 256-273): `~__finite_min_v` for integers (`~n` is `-n - 1`). -/
def finiteMax (t : CType) : ℚ :=
  match p.kind t with
  | .int _ _ => toInt p t (-intMin p t - 1)
  | .float f => fltMax f

/-- `__is_narrowing_conversion` for arithmetic types (simd.h 742-761). -/
def narrowing (a b : CType) : Bool :=
  if b = .bool then decide (a ≠ .bool)
  else if a = b then false
  else
    let c := p.common a b
    decide (digits p b < digits p a) || p.lessIn c (finiteMax p b) (finiteMax p a)
      || p.lessIn c (finiteMin p a) (finiteMin p b) || (p.isSigned a && p.isUnsigned b)

/-- `_ValuePreserving<From, To>` is well-formed (simd.h 930-933). -/
def valuePreserving (a b : CType) : Bool := !narrowing p a b

/-- `_ValuePreservingOrInt<From, To>` is well-formed (simd.h 935-943); arithmetic types are convertible to each other. -/
def valuePreservingOrInt (a b : CType) : Bool :=
  decide (a = b) || decide (a = .int) || (decide (a = .uint) && p.isUnsigned b) || !narrowing p a b

/-- The broadcast constructor accepts an argument of type `a` (simd.h 4921-4928): not `bool`. -/
def broadcastFrom (a b : CType) : Bool := decide (a ≠ .bool) && valuePreservingOrInt p a b

/-- `__converts_to_higher_integer_rank` (simd.h 769-776). -/
def higherRank (a b : CType) : Bool :=
  if p.sizeOf a < p.sizeOf b then true else decide (p.common a b = b)

/-- The constructor from another `fixed_size` object is implicit-convertible (simd.h 4931-4943): the source type is another one, the
conversion does not narrow and goes to a higher rank.  (For the same element type the copy constructor applies.) -/
def implicitConvert (a b : CType) : Bool := !narrowing p a b && higherRank p a b

end StdSimd.Narrowing
