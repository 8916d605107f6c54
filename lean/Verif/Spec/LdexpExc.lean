import Verif.Spec.FpExc
/-! # Specification: the floating-point exceptions of `ldexp` (C Annex F.10.3.9, IEEE 754 `scaleB`) -/
namespace StdSimd.Spec.Fmt
variable (f : Fmt)

/-- `ldexp(x, e)`: invalid for signalling NaNs, nothing for zeros, infinities and other NaNs, else the exceptions of rounding the exact `x * 2 ^ e`. -/
def ldexpExc (m : RMode) (x : f.Bits) (e : ℤ) : Exc :=
  if f.isNaN x then { invalid := decide (f.isSignalling x) }
  else if f.isInf x ∨ f.isZero x then Exc.clear
  else f.roundExc m (f.ratValue x * 2 ^ e)

end StdSimd.Spec.Fmt
