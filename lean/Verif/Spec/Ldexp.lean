import Verif.Spec.FloatArith
/-!
# Specification: `ldexp`

`ldexp(x, e)` is `x * 2 ^ e` (C 7.12.6.6), rounded once in the rounding direction in effect; zeros and infinities are returned unchanged.
Nothing here refers to the model.
-/
namespace StdSimd.Spec.Fmt
variable {f : Fmt} (env : f.Env)

/-- `r` is the result of `ldexp(x, e)`. -/
structure IsLdexp (x : f.Bits) (e : ℤ) (r : f.Bits) : Prop where
  number : f.isFinite x → ¬ f.isZero x → r = f.round env.mode (f.sign x) (f.ratValue x * 2 ^ e)
  special : f.isZero x ∨ f.isInf x → r = x
  nan : f.isNaN x → f.isNaN r

end StdSimd.Spec.Fmt
