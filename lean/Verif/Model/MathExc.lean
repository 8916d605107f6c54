import Verif.Model.FpExc
import Verif.Model.Math
/-!
# Model of the floating-point exceptions of `modf` and `logb`

experimental/bits/simd_math.h:749-853, with the instructions of `Model.FpExc`.

Trusted, besides what `Model.FpExc` lists: conversions of the exponents (integers below `2 ^ 12`) to floating point are exact and raise nothing.
Simplified: `trunc` and the path of the classification functions are parameters.
-/
namespace StdSimd.FpExc
open Spec FloatBits Math

variable {f : Fmt} (env : f.Env)

/-- `modf` (simd_math.h:844-853), one element: the integral and the fractional part; `tr` is `trunc`, `fin` is `__FINITE_MATH_ONLY__`. -/
def modfE (tr : f.Bits → FP f.Bits) (p : ClassPath) (fin : Bool) (x : f.Bits) : FP (f.Bits × f.Bits) := do
  let integral ← tr x
  let r ← fsub env x integral
  let r ← if fin then pure r else do
    let c ← classify f p .isinf x
    pure (if c then 0 else r)
  return (integral, copysign r x)

/-- `logb` without AVX-512 (simd_math.h:786-827): the tests and the multiplication are done for every element. -/
def logbE (p : ClassPath) (xs : List f.Bits) : FP (List f.Bits) := do
  let normal ← lanes1 (classify f p .isnormal) xs
  let r := xs.map (fun x => ofBits env (unbiased (FloatBits.abs f x)))
  if normal.all id then return r
  let zero ← lanes1 (fun x => cmpQ f f.eq x 0) xs
  let nan ← lanes1 (classify f p .isnan) xs
  let inf ← lanes1 (classify f p .isinf) xs
  let r := List.zipWith (fun (k : Bool) r => if k then signMask f ||| infBits f else r) zero r
  let r := List.zipWith (fun (k : Bool) (q : f.Bits × f.Bits) => if k then q.1 else q.2) nan (xs.zip r)
  let r := List.zipWith (fun (k : Bool) r => if k then infBits f else r) inf r
  let handled := List.zipWith (· || ·) normal (List.zipWith (· || ·) (List.zipWith (· || ·) zero nan) inf)
  if handled.all id then return r
  let scaled ← lanes1 (fun x => fmul env (FloatBits.abs f x) (powBits f 112)) xs
  let e := scaled.map (fun s => ofBits env (unbiased s - BitVec.ofNat _ 112))
  return List.zipWith (fun (k : Bool) (q : f.Bits × f.Bits) => if k then q.1 else q.2) handled (r.zip e)

end StdSimd.FpExc
