import Verif.Model.Math
/-!
# Model of `hypot` (experimental/bits/simd_math.h:965-1276)

Whole vectors are modelled (lists of elements), because the functions choose between code paths with `all_of`.

The sums of squares are parameters: a compiler may contract products and sums to fused operations.  `sumForms` and `addForms` are the
possibilities.

Trusted: IEEE multiplication, addition, square root and comparison (`Spec.Fmt.mul`, ...).  `__STDC_IEC_559__` is defined.  Not modelled:
`__FAST_MATH__`, three operands with ARMv7 NEON, x87 `long double`, the functions of one element (two-operand `std::hypot` is called);
`fixed_size` is applied per register (`Tuple.applyPerChunk`).
-/
namespace StdSimd.Hypot
open Spec FloatBits Math

variable {f : Fmt} (env : f.Env)

/-- One element of `max(a, b)` (simd_builtin.h:1771-1775). -/
def max (a b : f.Bits) : f.Bits := if f.lt b a then a else b
/-- One element of `min(a, b)` (simd_builtin.h:1765-1769). -/
def min (a b : f.Bits) : f.Bits := if f.lt a b then a else b

/-- `(__hi_exp ^ __inf) * _Tp(.5)` (simd_math.h:1038, 1056, 1207, 1229). -/
def invert (hiExp : f.Bits) : f.Bits := Fmt.mul env (hiExp ^^^ infBits f) (Rounding.half env)
/-- `__norm_min_v<_Tp> - __denorm_min_v<_Tp>` (simd_math.h:1040-1041, 1209-1210). -/
def mantMask (f : Fmt) : f.Bits := BitVec.ofNat _ (2 ^ f.mbits - 1)
/-- `(__hi & __mant_mask) | _V(1)` (simd_math.h:1042, 1211). -/
def setExponent (hi : f.Bits) : f.Bits := (hi &&& mantMask f) ||| powBits f 0

/-- `__scale` and `__hi_exp` of the slower path (simd_math.h:1051-1060, 1224-1233). -/
def slowScale (hi : f.Bits) : f.Bits × f.Bits :=
  (if f.le (minBits f) hi then invert env (hi &&& infBits f) else powBits f (f.bias - 1),
   if f.le (minBits f) hi then hi &&& infBits f else minBits f)

/-! ## two operands -/

/-- `__h1 * __h1 + __l1 * __l1` (simd_math.h:1044, 1066): evaluated as written, or contracted to a fused multiply-add. -/
def sumForms : List (f.Bits → f.Bits → f.Bits) :=
  [fun h l => Fmt.add env (Fmt.mul env h h) (Fmt.mul env l l),
   fun h l => Fmt.fma env h h (Fmt.mul env l l),
   fun h l => Fmt.fma env l l (Fmt.mul env h h)]

/-- The path for normal numbers, one element (simd_math.h:1024-1045); `ss` is the sum of squares. -/
def fast (ss : f.Bits → f.Bits → f.Bits) (x y : f.Bits) : f.Bits :=
  let absx := FloatBits.abs f x
  let absy := FloatBits.abs f y
  let hi := max absx absy
  let lo := min absy absx
  let hiExp := hi &&& infBits f
  let scale := invert env hiExp
  let h1 := setExponent hi
  let l1 := Fmt.mul env lo scale
  Fmt.mul env hiExp (Fmt.sqrt env (ss h1 l1))

/-- The slower path, one element (simd_math.h:1046-1088); `qnan` is the bits of `__quiet_NaN_v<_Tp>`. -/
def slow (ss : f.Bits → f.Bits → f.Bits) (qnan x y : f.Bits) : f.Bits :=
  let absx := FloatBits.abs f x
  let absy := FloatBits.abs f y
  let hi := max absx absy
  let lo := min absy absx
  let scale := (slowScale env hi).1
  let hiExp := (slowScale env hi).2
  let h1 := Fmt.mul env hi scale
  let l1 := Fmt.mul env lo scale
  let r := Fmt.mul env hiExp (Fmt.sqrt env (ss h1 l1))
  let un := isunordered f (isnanEq f) x y
  let isInf := isinf f absx || isinf f absy
  let fixup := hi
  let fixup := if un then qnan else fixup
  let fixup := if isInf then infBits f else fixup
  if !(f.eq lo 0 || un || isInf) then r else fixup

/-- `__hypot` of two vectors (simd_math.h:965-1090); `nrm` is `isnormal`. -/
def hypot (ss : f.Bits → f.Bits → f.Bits) (qnan : f.Bits) (nrm : f.Bits → Bool) (xs ys : List f.Bits) : List f.Bits :=
  if xs.all nrm && ys.all nrm then List.zipWith (fast env ss) xs ys else List.zipWith (slow env ss qnan) xs ys

/-- `_Tp(0.125)`. -/
def eighth (f : Fmt) : f.Bits := BitVec.ofNat _ ((f.bias - 3) * 2 ^ f.mbits)

/-- `__hypot` with ARMv7 NEON, one element (simd_math.h:996-1013).  Simplified: that these instructions flush subnormal numbers to zero and
do not raise exceptions is not modelled, they are IEEE operations here. -/
def neon (ss : f.Bits → f.Bits → f.Bits) (x y : f.Bits) : f.Bits :=
  let absx := FloatBits.abs f x
  let absy := FloatBits.abs f y
  let hi := max absx absy
  let lo := min absy absx
  let hiExp := hi &&& infBits f
  let scaleBack := if f.lt (powBits f 0) hiExp then Fmt.mul env hiExp (eighth f) else hiExp
  let scale := Fmt.mul env (scaleBack ^^^ infBits f) (Rounding.half env)
  let h1 := Fmt.mul env hi scale
  let l1 := Fmt.mul env lo scale
  let r := Fmt.mul env scaleBack (Fmt.sqrt env (ss h1 l1))
  if f.eq hi 0 then 0 else r

/-! ## three operands -/

/-- `__lo + __h1 * __h1` (simd_math.h:1217, 1239): evaluated as written, or contracted.  (`__l0 * __l0 + __l1 * __l1`, 1214-1216 and
1237-1238, is one of `sumForms`.) -/
def addForms : List (f.Bits → f.Bits → f.Bits) :=
  [fun lo h => Fmt.add env lo (Fmt.mul env h h), fun lo h => Fmt.fma env h h lo]

/-- The path for normal numbers, one element (simd_math.h:1193-1218). -/
def fast3 (ss : f.Bits → f.Bits → f.Bits) (as : f.Bits → f.Bits → f.Bits) (x y z : f.Bits) : f.Bits :=
  let absx := FloatBits.abs f x
  let absy := FloatBits.abs f y
  let absz := FloatBits.abs f z
  let hi := max (max absx absy) absz
  let l0 := min absz (max absx absy)
  let l1 := min absy absx
  let hiExp := hi &&& infBits f
  let scale := invert env hiExp
  let h1 := setExponent hi
  let lo := ss (Fmt.mul env l0 scale) (Fmt.mul env l1 scale)
  Fmt.mul env hiExp (Fmt.sqrt env (as lo h1))

/-- The slower path, one element (simd_math.h:1219-1262). -/
def slow3 (ss : f.Bits → f.Bits → f.Bits) (as : f.Bits → f.Bits → f.Bits) (qnan x y z : f.Bits) : f.Bits :=
  let absx := FloatBits.abs f x
  let absy := FloatBits.abs f y
  let absz := FloatBits.abs f z
  let hi := max (max absx absy) absz
  let l0 := min absz (max absx absy)
  let l1 := min absy absx
  let scale := (slowScale env hi).1
  let hiExp := (slowScale env hi).2
  let h1 := Fmt.mul env hi scale
  let lo := ss (Fmt.mul env l0 scale) (Fmt.mul env l1 scale)
  let r := Fmt.mul env hiExp (Fmt.sqrt env (as lo h1))
  let un := isunordered f (isnanEq f) x (Fmt.add env y z)
  let isInf := isinf f absx || isinf f absy || isinf f absz
  let fixup := hi
  let fixup := if un then qnan else fixup
  let fixup := if isInf then infBits f else fixup
  if !(f.eq lo 0 || un || isInf) then r else fixup

/-- `__hypot` of three vectors (simd_math.h:1103-1265). -/
def hypot3 (ss : f.Bits → f.Bits → f.Bits) (as : f.Bits → f.Bits → f.Bits) (qnan : f.Bits) (nrm : f.Bits → Bool)
    (xs : List (f.Bits × f.Bits × f.Bits)) : List f.Bits :=
  if xs.all (fun p => nrm p.1) && xs.all (fun p => nrm p.2.1) && xs.all (fun p => nrm p.2.2) then
    xs.map (fun p => fast3 env ss as p.1 p.2.1 p.2.2)
  else xs.map (fun p => slow3 env ss as qnan p.1 p.2.1 p.2.2)

end StdSimd.Hypot
