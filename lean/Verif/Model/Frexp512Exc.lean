import Verif.Model.FrexpExc
/-!
# Model of the floating-point exceptions of `frexp` and `logb` with AVX-512

experimental/bits/simd_math.h:654-673 and 765-785, with the instructions of `Model.Math` and `Model.FpExc`.

Trusted, besides what `Model.FpExc` lists: `VGETEXP` and `VGETMANT` raise invalid for signalling NaNs only and never division by zero (Intel SDM; the
denormal-operand flag is not an exception of C); the conversion to `int` raises invalid if the result does not fit (NaNs and infinities included), else
inexact if the operand is not an integer.
Simplified: the operations act on every element of the register, so they are written for one element; the exceptions of all elements are raised.
-/
namespace StdSimd.FpExc
open Spec FloatBits Math

variable {f : Fmt} (env : f.Env)

/-- `__getexp` (simd_math.h:569-596). -/
def getexpE (x : f.Bits) : FP f.Bits := (getexp env x, { invalid := decide (f.isSignalling x) })

/-- `__getmant_avx512` (simd_math.h:598-633). -/
def getmantE (junk : f.Bits → f.Bits) (x : f.Bits) : FP f.Bits := (getmant junk x, { invalid := decide (f.isSignalling x) })

/-- `__convert<_SimdWrapper<int, _NI>>` (simd_math.h:664). -/
def toInt32E (x : f.Bits) : FP (BitVec 32) :=
  (toInt32 x, if f.isFinite x ∧ -(2 ^ 31) ≤ truncZ (f.ratValue x) ∧ truncZ (f.ratValue x) < 2 ^ 31 then
    { inexact := decide (¬ f.isIntegral x) } else { invalid := true })

/-- One element of `frexp` with AVX-512 (simd_math.h:654-673); `nz` is `_S_isnonzerovalue_mask`. -/
def frexp512Elem (junk : f.Bits → f.Bits) (nz : f.Bits → FP Bool) (x : f.Bits) : FP (f.Bits × BitVec 32) := do
  let isnonzero ← nz x
  let e ← getexpE env x
  let i ← toInt32E e
  let m ← getmantE junk x
  return (if isnonzero then m else x, if isnonzero then 1 + i else 0)

/-- `frexp` with AVX-512 (simd_math.h:654-673). -/
def frexp512E (junk : f.Bits → f.Bits) (nz : f.Bits → FP Bool) (xs : List f.Bits) : FP (List (f.Bits × BitVec 32)) :=
  lanes1 (frexp512Elem env junk nz) xs

/-- `logb` with AVX-512 (simd_math.h:765-785). -/
def logb512E (xs : List f.Bits) : FP (List f.Bits) := lanes1 (getexpE env) xs

end StdSimd.FpExc
