import Verif.Spec.Multi
import Verif.Spec.ElemFuns
/-!
# The arithmetic types together

For programs that mix integer and floating-point types: the operators and functions of every arithmetic type, and what `static_cast` does with a value.
-/
namespace StdSimd.Spec.Multi
open StdSimd Spec Spec.Program Spec.Control

/-- An arithmetic type: an integer type, or a floating-point type with an IEEE 754 format (`Fmt.Ok`: at least two bits of exponent and one of mantissa)
whose bias exceeds the number of mantissa bits. -/
inductive ArithTy
  | int (signed : Bool) (width : Nat)
  | float (f : Fmt) (ok : f.Ok) (bias : f.mbits < f.bias)

abbrev ArithTy.kind : ArithTy → Kind
  | .int s w => .int s w
  | .float f _ _ => .float f

/-- What the floating-point environment (rounding mode, results for NaNs) and the C library do, for every floating-point format; `nan` is the
conversion of NaNs from one format to another. -/
structure FloatSem where
  env : ∀ f : Fmt, f.Ok → f.Env
  lib : ∀ f : Fmt, Lib f
  nan : ∀ s d : Fmt, s.Bits → d.Bits

/-- Operators and functions of a type.  `ops` says which binary operators of integers programs may use. -/
def arithElem (W : FloatSem) (ops : BOp → Bool) : (y : ArithTy) → Elem y.kind
  | .int s w => ((intElem s w w).only ops).withFuns (intFuns s w)
  | .float f h _ => ieeeElem (W.env f h) (W.lib f)

/-- `static_cast` ([conv.integral], [conv.double], [conv.fpint]): between integers modulo `2 ^ N`; to floating-point types rounded as the environment
says; from floating-point types to integers truncated, undefined if the result is not representable. -/
def arithCast (W : FloatSem) : (a b : ArithTy) → a.kind.Bits → Option b.kind.Bits
  | .int s w, .int _ w', x => some (BitVec.ofInt w' (Spec.value s (x : BitVec w)))
  | .int s w, .float f h _, x => some (Fmt.ofInt (W.env f h) (Spec.value s (x : BitVec w)))
  | .float f _ _, .int s w, (x : f.Bits) =>
    let z := truncZ (f.ratValue (x : f.Bits))
    if f.isFinite (x : f.Bits) ∧ Spec.value s (BitVec.ofInt w z) = z then some (BitVec.ofInt w z) else none
  | .float f _ _, .float g h _, x => some (Fmt.convert f g (W.env g h).mode (W.nan f g) (x : f.Bits))

end StdSimd.Spec.Multi
