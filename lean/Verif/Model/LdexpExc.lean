import Verif.Model.Ldexp
import Verif.Model.FpExc
/-!
# Model of the floating-point exceptions of `ldexp` with AVX-512

experimental/bits/simd_x86.h:2611-2646, with the instructions of `Model.Ldexp`.

Trusted, besides what `Model.FpExc` lists: the conversion of `int` raises the exceptions of rounding the exact value; `VSCALEF` raises invalid for signalling NaNs and for
its two invalid combinations of zeros and infinities, else the exceptions of rounding the exact product (Intel SDM), and nothing for elements whose mask bit is not set.
Simplified: elements of the result that are padding are not modelled (`maskz` makes them zero, `Model.Ldexp`).
-/
namespace StdSimd.FpExc
open Spec Ldexp

variable {f : Fmt} (env : f.Env)

/-- One element of `__cvt(__exp)` (simd_x86.h:2620-2622): `int` to `float` or `double`. -/
def cvtExpE (e : BitVec 32) : FP f.Bits := (Fmt.ofInt env e.toInt, f.roundExc env.mode (e.toInt : ℚ))

/-- One element of `_mm*_maskz_scalef_p[sd]` (simd_x86.h:2624-2645). -/
def scalefE (x y : f.Bits) : FP f.Bits :=
  (scalef env x y,
    if f.isNaN x ∨ f.isNaN y then f.quietExc x y
    else if f.isInf y then { invalid := if f.sign y then decide (f.isInf x) else decide (f.isZero x) }
    else if f.isInf x ∨ f.isZero x then Exc.clear
    else f.roundExc env.mode (f.ratValue x * 2 ^ ⌊f.ratValue y⌋))

/-- `_S_ldexp` of AVX-512 (simd_x86.h:2611-2646): a register with as many elements as there are exponents and further padding; `pad` is the padding of the
converted exponents. -/
def ldexpE (xs pad : List f.Bits) (es : List (BitVec 32)) : FP (List f.Bits) := do
  let y ← (((es.map (cvtExpE env)).map FP.val, Exc.any ((es.map (cvtExpE env)).map FP.exc)) : FP (List f.Bits))
  lanes (active true es.length) (scalefE env) xs (y ++ pad)

end StdSimd.FpExc
