import Verif.Model.MathExc
/-!
# Model of the floating-point exceptions of `frexp`

experimental/bits/simd_math.h:675-734, the code without AVX-512, with the instructions of `Model.FpExc`.  (The test of the code with AVX-512 is `isnonzerovalue`.)

Simplified: the operations of the second part act on every element, so they are written for one element; the exceptions of all elements are raised.
-/
namespace StdSimd.FpExc
open Spec FloatBits Math

variable {f : Fmt} (env : f.Env)

/-- One element of the second part of `frexp` (simd_math.h:701-733); `fin` is `__FINITE_MATH_ONLY__`. -/
def frexpElemE (p : ClassPath) (fin : Bool) (x : f.Bits) : FP (f.Bits × BitVec 32) := do
  let zeroInfNan ← if fin then cmpQ f f.eq x 0 else pure (FloatBits.abs f x == 0 || (infBits f).sle (FloatBits.abs f x))
  let scaled ← fmul env x (subnormScale f)
  let n1 ← classify f p .isnormal x
  let mant := if !n1 then mantissa scaled else mantissa x
  let mant := if zeroInfNan then x else mant
  let n2 ← classify f p .isnormal x
  let e := if n2 then exponentBits x else exponentBits scaled
  let ne ← cmpQ f (fun a b => !(f.eq a b)) x 0
  let offset := (maskInt n2 &&& BitVec.ofNat 32 (expAdjust f)) ||| (maskInt (exponentBits x == 0 && ne) &&& BitVec.ofNat 32 (expAdjust f + expOffset f))
  return (mant, e - offset)

/-- `frexp` without AVX-512 (simd_math.h:675-734). -/
def frexpE (p : ClassPath) (fin : Bool) (xs : List f.Bits) : FP (List (f.Bits × BitVec 32)) := do
  let normal ← lanes1 (classify f p .isnormal) xs
  if normal.all id then return xs.map (fun x => (mantissa x, exponentBits x - BitVec.ofNat 32 (expAdjust f)))
  else lanes1 (frexpElemE env p fin) xs

end StdSimd.FpExc
