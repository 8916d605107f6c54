import Verif.Model.FloatBits
import Verif.Spec.FloatArith
/-!
# Model of `ldexp` in AVX-512 registers (experimental/bits/simd_x86.h)

`ldexp` of a native vector converts the exponents to floating point and uses the instruction `scalef`.

Trusted: `scalef` as described in the Intel SDM (VSCALEFPS/VSCALEFPD); the conversion of the exponents is `static_cast` of every element
(the register conversions behind it are the subject of C53); `__to_intrin` keeps the elements and leaves the padding of the register
unspecified.
-/
namespace StdSimd.Ldexp
open Spec FloatBits

variable {f : Fmt} (env : f.Env)

/-- One element of `_mm*_maskz_scalef_p[sd]`: `x * 2 ^ ⌊y⌋` (Intel SDM, Table 5-31: special cases of VSCALEF). -/
def scalef (x y : f.Bits) : f.Bits :=
  if f.isNaN x ∨ f.isNaN y then env.nan x y
  else if f.isInf y then
    (if f.sign y then (if f.isInf x then env.nan x y else f.ofMag (f.sign x) 0)
     else if f.isZero x then env.nan x y else f.ofMag (f.sign x) f.infMag)
  else if f.isInf x ∨ f.isZero x then x
  else f.round env.mode (f.sign x) (f.ratValue x * 2 ^ ⌊f.ratValue y⌋)

/-- `_mm*_maskz_scalef_p[sd](k, x, y)`: elements whose mask bit is not set become zero. -/
def maskzScalef (k : Nat → Bool) (x y : Nat → f.Bits) : Nat → f.Bits := fun i => if k i then scalef env (x i) (y i) else 0

/-- `__cvt(__exp)` and `__to_intrin` (simd_x86.h:2620-2622): `n` converted exponents, then the padding `pad` of the register. -/
def exponents (n : Nat) (pad : Nat → f.Bits) (e : Nat → BitVec 32) : Nat → f.Bits :=
  fun i => if i < n then Fmt.ofInt env (e i).toInt else pad i

/-- `_S_ldexp` of AVX-512 (simd_x86.h:2611-2646) for vectors of `n` elements: `__k1` is `_S_implicit_mask_intrin` (simd_builtin.h:1146-1152,
one bit for every element that is not padding). -/
def ldexp (n : Nat) (pad : Nat → f.Bits) (x : Nat → f.Bits) (e : Nat → BitVec 32) : Nat → f.Bits :=
  maskzScalef env (fun i => decide (i < n)) x (exponents env n pad e)

end StdSimd.Ldexp
