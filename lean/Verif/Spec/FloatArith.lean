import Verif.Spec.FloatFmt
import Verif.Spec.Float
/-!
# Specification: IEEE 754 arithmetic on bit patterns

Addition and subtraction, correctly rounded in one of the four rounding directions of C, with the rules for signed zeros, overflow,
infinities and NaNs; conversion from integers; rounding to an integer.  Nothing here refers to the model.
-/
namespace StdSimd.Spec

/-- The rounding directions (`FE_TONEAREST`, `FE_DOWNWARD`, `FE_UPWARD`, `FE_TOWARDZERO`). -/
inductive RMode where
  | nearest | down | up | zero
  deriving DecidableEq

/-- Round to an integer. -/
def RMode.toInt : RMode → ℚ → ℤ
  | .nearest, q => roundEven q
  | .down, q => ⌊q⌋
  | .up, q => ⌈q⌉
  | .zero, q => truncZ q

/-- Round to the nearest integer, ties away from zero (`std::round`). -/
def roundAway (q : ℚ) : ℤ := if 0 ≤ q then ⌊q + 1 / 2⌋ else ⌈q - 1 / 2⌉

namespace Fmt
variable (f : Fmt)

/-- Exponent of the last significand bit of the smallest numbers. -/
def emin : ℤ := 1 - (f.bias : ℤ) - f.mbits
/-- Exponent of the last significand bit of numbers of the magnitude of `q`. -/
def qexp (q : ℚ) : ℤ := max (Int.log 2 |q| - f.mbits) f.emin
/-- Round to the precision of the format, without upper limit of the exponent. -/
def roundTo (m : RMode) (q : ℚ) : ℚ := m.toInt (q / 2 ^ f.qexp q) * 2 ^ f.qexp q

/-- The pattern with a sign and remaining bits `n`. -/
def ofMag (s : Bool) (n : Nat) : f.Bits := BitVec.ofNat _ ((if s then 2 ^ (f.ebits + f.mbits) else 0) + n)
/-- Exponent and significand fields of a nonnegative number of the format's precision. -/
def encode (v : ℚ) : Nat := if v = 0 then 0 else (f.qexp v - f.emin).toNat * 2 ^ f.mbits + ⌊v / 2 ^ f.qexp v⌋.toNat
/-- Exponent and significand fields of infinity. -/
def infMag : Nat := (2 ^ f.ebits - 1) * 2 ^ f.mbits

/-- Whether overflow gives infinity (otherwise the largest finite number). -/
def overflowInf : RMode → Bool → Bool
  | .nearest, _ => true
  | .zero, _ => false
  | .down, s => s
  | .up, s => !s

/-- The pattern for the exact result `q` of an operation; `zs` is the sign if `q` is zero. -/
def round (m : RMode) (zs : Bool) (q : ℚ) : f.Bits :=
  let v := f.roundTo m q
  let s := if q = 0 then zs else decide (q < 0)
  let n := f.encode |v|
  f.ofMag s (if n < f.infMag then n else if overflowInf m s then f.infMag else f.infMag - 1)

/-- The floating-point environment: the rounding direction, and which NaN an operation returns. -/
structure Env where
  mode : RMode
  nan : f.Bits → f.Bits → f.Bits
  isNaN : ∀ x y, f.isNaN (nan x y)

variable {f} (env : f.Env)

/-- `-x`. -/
def neg (x : f.Bits) : f.Bits := x ^^^ f.ofMag true 0

/-- `x + y`. -/
def add (x y : f.Bits) : f.Bits :=
  if f.isNaN x ∨ f.isNaN y then env.nan x y
  else if f.isInf x then (if f.isInf y ∧ f.sign x ≠ f.sign y then env.nan x y else x)
  else if f.isInf y then y
  else f.round env.mode (if f.sign x = f.sign y then f.sign x else decide (env.mode = .down)) (f.ratValue x + f.ratValue y)

/-- `x - y`. -/
def sub (x y : f.Bits) : f.Bits := if f.isNaN x ∨ f.isNaN y then env.nan x y else add env x (neg y)

/-- Conversion of an integer. -/
def ofInt (n : ℤ) : f.Bits := f.round env.mode false n

/-- Round to an integer in the given direction, keeping the sign (`roundToIntegral`; SSE4.1 `round`, AVX-512 `rndscale`). -/
def rint (m : RMode) (x : f.Bits) : f.Bits :=
  if f.isNaN x then env.nan x x else if f.isInf x then x else f.ofMag (f.sign x) (f.encode |(m.toInt (f.ratValue x) : ℚ)|)

/-- `g` computes the rounding function `r`: the right integer for finite operands, infinities unchanged, NaN for NaN. -/
structure RoundsTo (f : Fmt) (g : f.Bits → f.Bits) (r : ℚ → ℤ) : Prop where
  finite : ∀ x, f.isFinite x → f.isFinite (g x) ∧ f.ratValue (g x) = r (f.ratValue x)
  inf : ∀ x, f.isInf x → g x = x
  nan : ∀ x, f.isNaN x → f.isNaN (g x)

/-- The result has the sign of the operand, also if it is zero (IEEE 754 5.9). -/
def KeepsSign (f : Fmt) (g : f.Bits → f.Bits) : Prop := ∀ x, f.isFinite x → f.sign (g x) = f.sign x

end Fmt
end StdSimd.Spec
