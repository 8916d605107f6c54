import Verif.Spec.NumTraits
import Verif.Spec.Trig
import Verif.Spec.CTypes
import Verif.Model.FloatBits
/-!
# Model: numeric traits

`experimental/bits/numeric_traits.h`.  The traits that only name a macro of the compiler (`__FLT_MAX__`, `__FLT_EPSILON__`, ...) are the patterns `maxBits`,
`infBits`, ... of `Model/FloatBits.lean`.
-/
namespace StdSimd.NumTraits
open Spec FloatBits
open Spec.Platform (wrap)

/-- `__digits_impl` of an integer type of `w` bits, and of `bool` (`w = 8`) (numeric_traits.h:39-44). -/
def digits (signed : Bool) (w : Nat) : Nat := w - signed.toNat

/-- The width of the type the operands of an operator are promoted to, `int` or wider (`[conv.prom]`). -/
def promoted (w : Nat) : Nat := max w 32

/-- A signed operation of `w` bits with the exact result `n`: undefined if it overflows. -/
def signedResult (w : Nat) (n : Int) : Option Int := if -(2 : Int) ^ (w - 1) ≤ n ∧ n < (2 : Int) ^ (w - 1) then some n else none

/-- `__finite_min_impl` of integer types (numeric_traits.h:233-239): `is_unsigned_v<_Tp> ? _Tp() : -2 * (_Tp(1) << __digits_impl<_Tp>::value - 1)`.  The shift
and the product are operations of the promoted type. -/
def finiteMin (signed : Bool) (w : Nat) : Option Int :=
  if signed then do
    let one ← signedResult (promoted w) (1 * 2 ^ (digits signed w - 1))
    let r ← signedResult (promoted w) (-2 * one)
    pure (wrap signed w r)
  else some 0

/-- `__finite_max_impl` of integer types (numeric_traits.h:256-258): `~__finite_min_impl<_Tp>::value`, in the promoted type, then converted. -/
def finiteMax (signed : Bool) (w : Nat) : Option Int := do
  let m ← finiteMin signed w
  let promotedSigned := signed || w < 32
  pure (wrap signed w (wrap promotedSigned (promoted w) (-m - 1)))

/-- `__digits10_impl` of an integer type with `d` digits (numeric_traits.h:60-68). -/
def digits10 (d : Nat) : Nat := d * 643 / 2136

/-- `__max_digits10_impl` (numeric_traits.h:82-91): of a floating-point type of precision `d`, of an integer type with `d` digits. -/
def maxDigits10 (floating : Bool) (d : Nat) : Nat := if floating then 2 + d * 643 / 2136 else digits10 d + 1

/-- `__value_or` (numeric_traits.h:171-179); `none` is a trait without a value. -/
def valueOr {α : Type} (trait : Option α) (dflt : α) : α :=
  match trait with
  | some v => v
  | none => dflt

/-- `__builtin_nan("")`, the value of `__quiet_NaN` (numeric_traits.h:294-310). -/
def quietNaN (f : Fmt) : f.Bits := BitVec.ofNat _ ((2 ^ f.ebits - 1) * 2 ^ f.mbits + 2 ^ (f.mbits - 1))

variable {f : Fmt} (env : f.Env)

/-- The binary64 literal `q` converted to the type, `_Tp(1.01)`. -/
def fromDouble (q : ℚ) : f.Bits := f.round env.mode false (Fmt.roundTo ⟨11, 52⟩ .nearest q)

/-- `__reciprocal_overflow_threshold_impl::_S_search` (numeric_traits.h:324-338).  The recursion has no bound in the code: `none` after `fuel` calls. -/
def search : Nat → f.Bits → f.Bits → Option f.Bits
  | 0, _, _ => none
  | fuel + 1, ok, overflows =>
    let two := Fmt.ofInt env 2                                        -- __radix_impl<_Tp>::value, 2
    let mid := Fmt.div env (Fmt.add env ok overflows) two
    if f.eq mid ok || f.eq mid overflows then some ok
    else if f.le (Fmt.div env (Fmt.ofInt env 1) (Fmt.mul env two mid)) (Fmt.div env (maxBits f) two) then search fuel mid overflows
    else search fuel ok mid

/-- `__reciprocal_overflow_threshold_impl::value` (numeric_traits.h:340-342). -/
def reciprocalOverflowThreshold (fuel : Nat) : Option f.Bits :=
  search env fuel (Fmt.div env (fromDouble env (101 / 100)) (maxBits f)) (Fmt.div env (fromDouble env (99 / 100)) (maxBits f))

end StdSimd.NumTraits
