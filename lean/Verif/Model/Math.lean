import Verif.Model.Rounding
import Verif.Spec.FloatMath
/-!
# Model of `frexp`, `logb`, `modf`, `copysign` (experimental/bits/simd_math.h)

Whole vectors are modelled (lists of elements), because the functions choose between code paths with `all_of`.

Trusted: `*`, `-` and comparisons of floating-point vectors are the IEEE operations (`Spec.Fmt.mul`, ...); conversions of small
integers to floating point are exact; `getexp` and `getmant` as described in the Intel SDM.  Not modelled: the functions of one element
(`std::frexp` etc. are called), `fixed_size` (applied per register: `Tuple.applyPerChunk`).
-/
namespace StdSimd.Math
open Spec FloatBits

variable {f : Fmt} (env : f.Env)

/-- Bits of the power of two `2 ^ k`. -/
def powBits (f : Fmt) (k : Nat) : f.Bits := BitVec.ofNat _ ((f.bias + k) * 2 ^ f.mbits)

/-- `copysign` (simd_math.h:1316-1322): `__signmask = _V(1) ^ _V(-1)`. -/
def copysign (x y : f.Bits) : f.Bits :=
  let signmask := powBits f 0 ^^^ (signMask f ||| powBits f 0)
  (x &&& (x ^^^ signmask)) ||| (y &&& signmask)

/-! ## frexp -/

/-- `sizeof(_Tp) == 4 ? 0x7e : 0x3fe` (simd_math.h:684). -/
def expAdjust (f : Fmt) : Nat := if f.width = 32 then 0x7e else 0x3fe
/-- `sizeof(_Tp) == 4 ? 0x70 : 0x200` (simd_math.h:685). -/
def expOffset (f : Fmt) : Nat := if f.width = 32 then 0x70 else 0x200
/-- `sizeof(_Tp) == 4 ? 0x1p112 : 0x1p512` (simd_math.h:686). -/
def subnormScale (f : Fmt) : f.Bits := powBits f (if f.width = 32 then 112 else 512)
/-- `-(2 - __epsilon_v<_Tp>) / 2`, the bits 0xbf7fffff or 0xbfefffffffffffff (simd_math.h:689-690). -/
def p51 (f : Fmt) : f.Bits := BitVec.ofNat _ (2 ^ (f.ebits + f.mbits) + (f.bias - 1) * 2 ^ f.mbits + (2 ^ f.mbits - 1))

/-- `__extract_exponent_as_int` (simd_math.h:403-416): `__digits_v<_Tp> - 1` is the number of stored significand bits. -/
def exponentBits (v : f.Bits) : BitVec 32 := ((v &&& infBits f) >>> f.mbits).setWidth 32
/-- `__p5_1_exponent & (__exponent_mask | __x)` (simd_math.h:692, 716-717). -/
def mantissa (v : f.Bits) : f.Bits := p51 f &&& (infBits f ||| v)
/-- `__bit_cast<_IV>` of an element of a mask (simd_math.h:726-731). -/
def maskInt (b : Bool) : BitVec 32 := if b then BitVec.allOnes 32 else 0

/-- One element of the second part of `frexp`, for vectors with elements that are not normal numbers (simd_math.h:701-733); `fin` is
`__FINITE_MATH_ONLY__`, `nrm` is `isnormal`. -/
def frexpElem (fin : Bool) (nrm : f.Bits → Bool) (x : f.Bits) : f.Bits × BitVec 32 :=
  let mant := mantissa x
  let isZeroInfNan := if fin then f.eq x 0 else FloatBits.abs f x == 0 || (infBits f).sle (FloatBits.abs f x)
  let scaled := Fmt.mul env x (subnormScale f)
  let mant := if !(nrm x) then mantissa scaled else mant
  let mant := if isZeroInfNan then x else mant
  let e := exponentBits scaled
  let e := if nrm x then exponentBits x else e
  let offset := (maskInt (nrm x) &&& BitVec.ofNat 32 (expAdjust f)) |||
    (maskInt (exponentBits x == 0 && !(f.eq x 0)) &&& BitVec.ofNat 32 (expAdjust f + expOffset f))
  (mant, e - offset)

/-- `frexp` without AVX-512 (simd_math.h:675-734); `nrm` is `isnormal` (all implementations of it are proved right in C34), `fin` is
`__FINITE_MATH_ONLY__`. -/
def frexp (fin : Bool) (nrm : f.Bits → Bool) (xs : List f.Bits) : List (f.Bits × BitVec 32) :=
  if xs.all nrm then xs.map (fun x => (mantissa x, exponentBits x - BitVec.ofNat 32 (expAdjust f)))
  else xs.map (frexpElem env fin nrm)

/-- `_mm*_getexp_p*`: the exponent of the operand as a floating-point number (Intel SDM, `VGETEXP`); subnormal numbers are normalized. -/
def getexp (x : f.Bits) : f.Bits :=
  if f.isNaN x then env.nan x x
  else if f.isInf x then infBits f
  else if f.isZero x then signMask f ||| infBits f
  else Fmt.ofInt env (Int.log 2 |f.ratValue x|)

/-- `_mm*_getmant_p*(x, _MM_MANT_NORM_p5_1, _MM_MANT_SIGN_src)`: the significand scaled to `[1/2, 1)`, with the sign of the operand (Intel
SDM, `VGETMANT`).  What it returns for zeros, infinities and NaNs is not used; it is `junk x` here. -/
def getmant (junk : f.Bits → f.Bits) (x : f.Bits) : f.Bits :=
  if f.isFinite x ∧ ¬ f.isZero x then
    f.ofMag (f.sign x) (f.encode (|f.ratValue x| / 2 ^ (Int.log 2 |f.ratValue x| + 1)))
  else junk x

/-- Conversion to `int` with truncation (`_mm*_cvttps_epi32`, `_mm*_cvttpd_epi32`): values out of range give the smallest integer. -/
def toInt32 (x : f.Bits) : BitVec 32 :=
  if f.isFinite x ∧ -(2 ^ 31) ≤ truncZ (f.ratValue x) ∧ truncZ (f.ratValue x) < 2 ^ 31 then BitVec.ofInt 32 (truncZ (f.ratValue x))
  else BitVec.intMin 32

/-- `frexp` with AVX-512 (simd_math.h:654-673); `nz` is `_S_isnonzerovalue_mask`. -/
def frexpAvx512 (junk : f.Bits → f.Bits) (nz : f.Bits → Bool) (xs : List f.Bits) : List (f.Bits × BitVec 32) :=
  xs.map (fun x => (if nz x then getmant junk x else x, if nz x then 1 + toInt32 (getexp env x) else 0))

/-! ## logb -/

/-- `__exponent` (simd_math.h:796-804): shift of the signed integer, minus `__max_exponent_v<_Tp> - 1`. -/
def unbiased (v : f.Bits) : f.Bits := v.sshiftRight f.mbits - BitVec.ofNat _ f.bias

/-- `static_simd_cast<_V>` of a vector of signed integers of the same size (simd_math.h:805, 824). -/
def ofBits (n : f.Bits) : f.Bits := Fmt.ofInt env n.toInt

/-- `logb` after the first return (simd_math.h:810-816), one element: `__r` and `__is_normal`; `nrm` is `isnormal`. -/
def logbSpecial (nrm : f.Bits → Bool) (x : f.Bits) : f.Bits × Bool :=
  let r := ofBits env (unbiased (FloatBits.abs f x))
  let isZero := f.eq x 0
  let isNan := isnanEq f x
  let isInf := FloatBits.isinf f x
  let r := if isZero then signMask f ||| infBits f else r
  let r := if isNan then x else r
  let r := if isInf then infBits f else r
  (r, nrm x || (isZero || isNan || isInf))

/-- `logb` without AVX-512 (simd_math.h:786-827). -/
def logb (nrm : f.Bits → Bool) (xs : List f.Bits) : List f.Bits :=
  if xs.all nrm then xs.map (fun x => ofBits env (unbiased (FloatBits.abs f x)))
  else if xs.all (fun x => (logbSpecial env nrm x).2) then xs.map (fun x => (logbSpecial env nrm x).1)
  else xs.map (fun x =>
    let scaled := Fmt.mul env (FloatBits.abs f x) (powBits f 112)
    let scaledExp := ofBits env (unbiased scaled - BitVec.ofNat _ 112)
    if (logbSpecial env nrm x).2 then (logbSpecial env nrm x).1 else scaledExp)

/-- `logb` with AVX-512 (simd_math.h:765-785). -/
def logbAvx512 (xs : List f.Bits) : List f.Bits := xs.map (getexp env)

/-! ## modf -/

/-- `modf` (simd_math.h:844-853), one element: the integral and the fractional part; `tr` is `trunc`, `fin` is `__FINITE_MATH_ONLY__`. -/
def modf (tr : f.Bits → f.Bits) (fin : Bool) (x : f.Bits) : f.Bits × f.Bits :=
  let integral := tr x
  let r := Fmt.sub env x integral
  let r := if !fin && FloatBits.isinf f x then 0 else r
  (integral, copysign r x)

end StdSimd.Math
