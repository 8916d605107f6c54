import Verif.Spec.Program
import Verif.Spec.Trig
/-!
# Specification: the functions of [simd.math] and [simd.alg] on elements

For integers `abs`, `min`, `max`, `signbit`; for floating-point numbers the functions with a defined result.  A value that the specification leaves open
is `none`: which of two equal zeros `min` returns, the sign of a zero that `trunc` etc. return (C44), what `min`, `max` and the
functions that round return for a NaN.  Nothing here refers to the model.
-/
namespace StdSimd.Spec.Program

/-- The smaller one. -/
def least (K : Kind) (a b : K.Bits) : Option K.Bits :=
  if K.value a = none ∨ K.value b = none then none
  else if K.holds .lt a b then some a else if K.holds .lt b a then some b else if a = b then some a else none

/-- The greater one. -/
def greatest (K : Kind) (a b : K.Bits) : Option K.Bits :=
  if K.value a = none ∨ K.value b = none then none
  else if K.holds .lt a b then some b else if K.holds .lt b a then some a else if a = b then some a else none

/-- Integers with `w` bits: the magnitude of signed values, if it can be represented. -/
def intFuns (signed : Bool) (w : Nat) : Funs (.int signed w) where
  f1
    | .abs, (a : BitVec w) => if signed = true ∧ a ≠ BitVec.intMin w then some (BitVec.ofInt w |Spec.value signed a|) else none
    | _, _ => none
  f2
    | .min, a, b => least (.int signed w) a b
    | .max, a, b => greatest (.int signed w) a b
    | _, _, _ => none
  t1
    | .signbit => some fun a => decide (Spec.value signed a < 0)
    | _ => none

/-- The number with the magnitude of `a` and the sign `s`. -/
def withSign {f : Fmt} (s : Bool) (a : f.Bits) : f.Bits := f.ofMag s (a.toNat % 2 ^ (f.ebits + f.mbits))

/-- The integer that `z` gives for a number, in the floating-point format; infinities are integers. -/
def integral {f : Fmt} (z : ℚ → ℤ) (a : f.Bits) : Option f.Bits :=
  if f.isInf a then some a
  else if f.isNaN a ∨ z (f.ratValue a) = 0 then none
  else some (f.ofMag (decide (z (f.ratValue a) < 0)) (f.encode |(z (f.ratValue a) : ℚ)|))

/-- The functions of the C library without a specification here. -/
structure Lib (f : Fmt) where
  l1 : Nat → f.Bits → f.Bits
  l2 : Nat → f.Bits → f.Bits → f.Bits
  l3 : Nat → f.Bits → f.Bits → f.Bits → f.Bits

/-- Floating-point numbers. -/
def floatFuns {f : Fmt} (env : f.Env) (lib : Lib f) : Funs (.float f) where
  f1
    | .abs, a => some (withSign (f := f) false a)
    | .fabs, a => some (withSign (f := f) false a)
    | .sqrt, a => some (Fmt.sqrt env a)
    | .trunc, a => integral (f := f) truncZ a
    | .floor, a => integral (f := f) Int.floor a
    | .ceil, a => integral (f := f) Int.ceil a
    | .rint, a => integral (f := f) env.mode.toInt a
    | .nearbyint, a => integral (f := f) env.mode.toInt a
    | .round, a => integral (f := f) roundAway a
    | .lib k, a => some (lib.l1 k a)
  f2
    | .min, a, b => least (.float f) a b
    | .max, a, b => greatest (.float f) a b
    | .copysign, a, b => some (withSign (f := f) (f.sign b) a)
    | .lib k, a, b => some (lib.l2 k a b)
  f3
    | .fma, a, b, c => some (Fmt.fma env a b c)
    | .lib k, a, b, c => some (lib.l3 k a b c)
  t1
    | .isfinite => some fun (a : f.Bits) => decide (f.isFinite a)
    | .isinf => some fun (a : f.Bits) => decide (f.isInf a)
    | .isnan => some fun (a : f.Bits) => decide (f.isNaN a)
    | .isnormal => some fun (a : f.Bits) => decide (f.isNormal a)
    | .signbit => some fun (a : f.Bits) => f.sign a
  t2
    | .isless => some fun (a b : f.Bits) => f.lt a b
    | .islessequal => some fun (a b : f.Bits) => f.le a b
    | .isgreater => some fun (a b : f.Bits) => f.lt b a
    | .isgreaterequal => some fun (a b : f.Bits) => f.le b a
    | .islessgreater => some fun (a b : f.Bits) => f.lessGreater a b
    | .isunordered => some fun (a b : f.Bits) => f.unordered a b

/-- An element type with its functions. -/
def Elem.withFuns {K : Kind} (E : Elem K) (F : Funs K) : Elem K := { E with fn := F }

/-- Floating-point numbers with the operators of IEEE 754 and the functions above; there are no `~`, `%`, `&`, `|`, `^`, `<<`, `>>`. -/
def ieeeElem {f : Fmt} (env : f.Env) (lib : Lib f) : Elem (.float f) where
  un
    | .neg, (a : f.Bits) => some (Fmt.neg a)
    | .inc, (a : f.Bits) => some (Fmt.add env a (Fmt.ofInt env 1))
    | .dec, (a : f.Bits) => some (Fmt.sub env a (Fmt.ofInt env 1))
    | .compl, _ => none
  bin
    | .add, (a : f.Bits), (b : f.Bits) => some (Fmt.add env a b)
    | .sub, (a : f.Bits), (b : f.Bits) => some (Fmt.sub env a b)
    | .mul, (a : f.Bits), (b : f.Bits) => some (Fmt.mul env a b)
    | .div, (a : f.Bits), (b : f.Bits) => some (Fmt.div env a b)
    | _, _, _ => none
  shift _ _ _ := none
  width := 0
  fn := floatFuns env lib

end StdSimd.Spec.Program
