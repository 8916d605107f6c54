import Verif.Spec.FloatFmt
/-!
# Model of the floating-point comparisons and classifications that work on bit patterns

`isgreater` ... `islessgreater`, `isunordered`, `isnan`, `isinf`, `isfinite`, `isnormal`, `signbit`, `fpclassify`:
experimental/bits/simd_builtin.h:2020-2082, 2253-2435, simd_x86.h:2825-3457.  The functions are element-wise (the arrangement of the
results in masks is C32); one element is modelled, in any binary interchange format.

Trusted: comparisons of floating-point vectors (`==`, `cmpord`, `cmpunord`, `cmpneq`, `_mm*_cmp_p*`, `ucomi*`) are the IEEE
comparisons (`Spec.Fmt.eq`, ...), products are NaN exactly when IEEE says so, `fpclass` tests the classes of its immediate.
-/
namespace StdSimd.FloatBits
open Spec

variable (f : Fmt)

/-- `_S_signmask<_V>`: the bits of `-0.` (simd_builtin.h:45-48). -/
def signMask : f.Bits := 1#f.width <<< (f.ebits + f.mbits)
/-- `_S_absmask<_V>` (simd_builtin.h:49-51). -/
def absMask : f.Bits := ~~~(signMask f)
/-- Bits of `__infinity_v<_Tp>`. -/
def infBits : f.Bits := BitVec.ofNat _ ((2 ^ f.ebits - 1) * 2 ^ f.mbits)
/-- Bits of `__finite_max_v<_Tp>`. -/
def maxBits : f.Bits := BitVec.ofNat _ ((2 ^ f.ebits - 2) * 2 ^ f.mbits + (2 ^ f.mbits - 1))
/-- Bits of `__norm_min_v<_Tp>`. -/
def minBits : f.Bits := BitVec.ofNat _ (2 ^ f.mbits)

/-- `_S_abs` of floating-point elements (simd_builtin.h:2099-2101). -/
def abs (x : f.Bits) : f.Bits := absMask f &&& x

/-- `xn < 0 ? -(xn & __finite_max_v<_Ip>) : xn` (simd_builtin.h:2028-2029, simd_x86.h:3223-3224). -/
def key (x : f.Bits) : f.Bits := if x.msb then -(x &&& BitVec.intMax f.width) else x

/-- `_S_isnan` without `__SUPPORT_SNAN__` (simd_builtin.h:2260: `~(x == x)`). -/
def isnanEq (x : f.Bits) : Bool := !(f.eq x x)
/-- `_S_isnan` with `__SUPPORT_SNAN__` (simd_builtin.h:2262-2266). -/
def isnanInt (x : f.Bits) : Bool := (infBits f).slt (abs f x)
/-- `_S_isunordered` (simd_builtin.h:2292-2297); `nan` is `_S_isnan`. -/
def isunordered (nan : f.Bits → Bool) (x y : f.Bits) : Bool := nan x || nan y
/-- `_S_isunordered` on x86 (simd_x86.h:3141-3180: `cmpunord`). -/
def x86Isunordered (x y : f.Bits) : Bool := f.unordered x y
/-- `_S_isnan` on x86 (simd_x86.h:3133-3138). -/
def x86Isnan (x : f.Bits) : Bool := x86Isunordered f x x

/-- Generic `_S_isgreater` (simd_builtin.h:2020-2032). -/
def isgreater (un : f.Bits → f.Bits → Bool) (x y : f.Bits) : Bool := !(un x y) && (key f y).slt (key f x)
/-- Generic `_S_isgreaterequal` (simd_builtin.h:2034-2046). -/
def isgreaterequal (un : f.Bits → f.Bits → Bool) (x y : f.Bits) : Bool := !(un x y) && (key f y).sle (key f x)
/-- Generic `_S_isless` (simd_builtin.h:2048-2059). -/
def isless (un : f.Bits → f.Bits → Bool) (x y : f.Bits) : Bool := !(un x y) && (key f x).slt (key f y)
/-- Generic `_S_islessequal` (simd_builtin.h:2061-2073). -/
def islessequal (un : f.Bits → f.Bits → Bool) (x y : f.Bits) : Bool := !(un x y) && (key f x).sle (key f y)
/-- Generic `_S_islessgreater` (simd_builtin.h:2075-2082). -/
def islessgreater (un : f.Bits → f.Bits → Bool) (x y : f.Bits) : Bool := !(un x y) && !(f.eq x y)

/-- The code an x86 comparison uses (simd_x86.h:3184-3457): AVX and AVX-512 have quiet predicates (`cmp`), SSE2 uses integers for
`float` and `ucomisd` for `double`; other targets use the generic code. -/
inductive Path where
  | cmp | sse2Float | sse2Double | base
  deriving DecidableEq

/-- `_mm_cmpord_ps`. -/
def cmpord (x y : f.Bits) : Bool := !(f.unordered x y)

/-- `_S_isgreater` (simd_x86.h:3184-3241). -/
def x86Isgreater (p : Path) (x y : f.Bits) : Bool :=
  match p with
  | .cmp => f.lt y x                                                         -- _CMP_GT_OQ
  | .sse2Float => cmpord f x y && (key f y).slt (key f x)
  | .sse2Double => f.lt y x                                                  -- _mm_ucomigt_sd
  | .base => isgreater f (x86Isunordered f) x y
/-- `_S_isgreaterequal` (simd_x86.h:3243-3300). -/
def x86Isgreaterequal (p : Path) (x y : f.Bits) : Bool :=
  match p with
  | .cmp => f.le y x
  | .sse2Float => cmpord f x y && (key f y).sle (key f x)
  | .sse2Double => f.le y x
  | .base => isgreaterequal f (x86Isunordered f) x y
/-- `_S_isless` (simd_x86.h:3302-3350): `ucomigt` with swapped operands. -/
def x86Isless (p : Path) (x y : f.Bits) : Bool :=
  match p with
  | .cmp => f.lt x y
  | .sse2Float => cmpord f x y && (key f x).slt (key f y)
  | .sse2Double => f.lt x y
  | .base => isless f (x86Isunordered f) x y
/-- `_S_islessequal` (simd_x86.h:3352-3410). -/
def x86Islessequal (p : Path) (x y : f.Bits) : Bool :=
  match p with
  | .cmp => f.le x y
  | .sse2Float => cmpord f x y && (key f x).sle (key f y)
  | .sse2Double => f.le x y
  | .base => islessequal f (x86Isunordered f) x y
/-- `_S_islessgreater` (simd_x86.h:3412-3457): `_CMP_NEQ_OQ`, or `cmpord & cmpneq`. -/
def x86Islessgreater (p : Path) (x y : f.Bits) : Bool :=
  match p with
  | .cmp => f.lessGreater x y
  | _ => cmpord f x y && !(f.eq x y)

/-! ## classification -/

/-- `_S_isfinite` (simd_builtin.h:2273-2289). -/
def isfinite (x : f.Bits) : Bool := (abs f x).sle (maxBits f)
/-- `_S_signbit` (simd_builtin.h:2300-2309). -/
def signbit (x : f.Bits) : Bool := x.slt 0
/-- `_S_isinf` (simd_builtin.h:2312-2331). -/
def isinf (x : f.Bits) : Bool := f.eq (abs f x) (infBits f)
/-- `_S_isnormal` (simd_builtin.h:2334-2350). -/
def isnormal (x : f.Bits) : Bool := (minBits f).sle (abs f x) && (abs f x).sle (maxBits f)
/-- `_S_isnormal` with `-ffinite-math-only` (simd_builtin.h:2344). -/
def isnormalFinite (x : f.Bits) : Bool := (minBits f).sle (abs f x)

/-- `_S_fpclassify` (simd_builtin.h:2354-2402): the class of one element. -/
def fpclassify (x : f.Bits) : Nat :=
  let xn := abs f x
  if xn.slt (minBits f) then (if xn == 0 then 2 else 3)
  else if xn.slt (infBits f) then 4 else if xn == infBits f then 1 else 0

/-- `_mm*_fpclass_p*_mask(x, imm)`: the classes whose bits are set in `imm`. -/
def fpclass (imm : Nat) (x : f.Bits) : Bool :=
  (imm.testBit 0 && decide (f.isNaN x ∧ ¬ f.isSignalling x)) || (imm.testBit 1 && decide (f.isZero x) && !f.sign x) ||
  (imm.testBit 2 && decide (f.isZero x) && f.sign x) || (imm.testBit 3 && decide (f.isInf x) && !f.sign x) ||
  (imm.testBit 4 && decide (f.isInf x) && f.sign x) || (imm.testBit 5 && decide (f.isSubnormal x)) ||
  (imm.testBit 6 && decide (f.isFinite x ∧ ¬ f.isZero x) && f.sign x) || (imm.testBit 7 && decide (f.isSignalling x))

/-- `_S_isfinite` with AVX512DQ (simd_x86.h:2979-2995). -/
def x86IsfiniteDq (x : f.Bits) : Bool := !(fpclass f 0x99 x)
/-- `_S_isfinite` with AVX512F only (simd_x86.h:2997-3003): all exponent bits set? -/
def x86IsfiniteF (x : f.Bits) : Bool := (x &&& infBits f).slt (infBits f)
/-- `_S_isinf` with AVX512DQ (simd_x86.h:3019-3050). -/
def x86IsinfDq (x : f.Bits) : Bool := fpclass f 0x18 x
/-- `_S_isnormal` with AVX512DQ (simd_x86.h:3065-3108). -/
def x86IsnormalDq (x : f.Bits) : Bool := !(fpclass f 0xbf x)
/-- `_S_isnormal` with AVX512DQ and `-ffinite-math-only` (simd_x86.h:3061). -/
def x86IsnormalDqFinite (x : f.Bits) : Bool := !(fpclass f 0x26 x)
/-- `_S_isnormal` with AVX512F only (simd_x86.h:3110-3125). -/
def x86IsnormalF (x : f.Bits) : Bool := (minBits f).sle (abs f x) && (abs f x).slt (infBits f)
/-- `_S_signbit` with AVX-512 (simd_x86.h:2829-2870): the first bit (`movepi*_mask`, `movemask`, comparison with 0). -/
def x86Signbit (x : f.Bits) : Bool := x.msb

/-- `_S_isnonzerovalue_mask` with AVX512DQ and VL (simd_x86.h:2911-2927). -/
def x86IsnonzerovalueDq (x : f.Bits) : Bool := !(fpclass f 0x9f x)
/-- `_S_isnonzerovalue_mask` otherwise (simd_x86.h:2929-2968): `x * inf` and `x * 0` are ordered.  `x * inf` is a NaN if `x` is a
NaN or zero, `x * 0` if `x` is a NaN or infinite. -/
def x86Isnonzerovalue (x : f.Bits) : Bool :=
  let a := decide (f.isNaN x ∨ f.isZero x)
  let b := decide (f.isNaN x ∨ f.isInf x)
  !(a || b)

/-! ## the conversion of the results of `fpclassify` of doubles to `int` -/

/-- Saturation of a 32-bit integer to 16 bits (`_mm_packs_epi32`). -/
def sat16 (x : BitVec 32) : BitVec 16 :=
  if x.toInt > 32767 then 32767#16 else if x.toInt < -32768 then (-32768 : Int) |> BitVec.ofInt 16 else x.setWidth 16

/-- One `int` of `_mm_packs_epi32(lo128(tmp), hi128(tmp))` for 64-bit elements (simd_builtin.h:2426-2427): the two halves of the
element, each saturated to 16 bits. -/
def packs64 (c : BitVec 64) : BitVec 32 := sat16 (c.extractLsb' 32 32) ++ sat16 (c.setWidth 32)

end StdSimd.FloatBits
