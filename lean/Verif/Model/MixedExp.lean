import Verif.Model.MixedCall
/-!
# Model: overload resolution of `ldexp`, `scalbn` and `scalbln`

experimental/bits/simd_math.h: the functions whose second parameter is an integer exponent for each element.
-/
namespace StdSimd.MixedCall
open Spec Spec.MixedCall

variable (p : Platform)

/-- `_Extra_argument_type<e, _Tp, _Abi>::type` for an integral type `e` (simd_math.h:110-121): `fixed_size_simd<e, simd_size_v<_Tp, _Abi>>`.
`size` is `simd_size_v`. -/
def extraArgument (size : CType → AbiTag → Nat) (e t : CType) (a : AbiTag) : CType × AbiTag := (e, .fixed (size t a))

/-- First template of `_GLIBCXX_SIMD_MATH_CALL2_` with `arg2_ = e` (simd_math.h:126-137): `_Tp` and `_Abi` are deduced from the first
argument only (the second parameter is a nested type); the second argument is converted. -/
def callExpFirst (size : CType → AbiTag → Nat) (e : CType) (x y : Arg) : Option (CType × AbiTag) :=
  match x with
  | .simd t a =>
    if p.isFloat t && convertible p (extraArgument size e t a).1 (extraArgument size e t a).2 y then some (t, a) else none
  | .scalar _ => none

/-- Second template with `arg2_ = e` (simd_math.h:138-151): it needs `is_same<arg2_, _Tp>`. -/
def callExpSecond (e : CType) (x y : Arg) : Option (CType × AbiTag) :=
  match y with
  | .simd t a => if e == t && !(x == .simd t a) && convertible p t a x && p.isFloat t then some (t, a) else none
  | .scalar _ => none

/-- A call of `ldexp` or `scalbn` (`e = int`) or `scalbln` (`e = long`) (simd_math.h:738, 856-857). -/
def callExp (size : CType → AbiTag → Nat) (e : CType) (x y : Arg) : Option (CType × AbiTag) :=
  (callExpSecond p e x y).or (callExpFirst p size e x y)

end StdSimd.MixedCall
