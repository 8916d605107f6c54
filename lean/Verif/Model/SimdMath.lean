import Verif.Spec.ElemFuns
import Verif.Model.SimdClass
import Verif.Model.FloatBits
import Verif.Model.NeonMath
import Verif.Model.Math
import Verif.Model.MathCall
import Verif.Model.IntAbs
/-!
# Model of the functions on registers that programs call

The parts `f1` ... `t2` of `RegFuns` for integers and for floating-point numbers, put together from the models of the functions.  The scalar ABI
calls the functions of namespace `std`.
-/
namespace StdSimd.SimdClass
open Spec Spec.Program Native

/-- The functions of the scalar implementation (`std`) or of the vector implementation. -/
def pick (g : Geo) {α : Type} (std vec : α) : α :=
  match g with
  | .scalar => std
  | _ => vec

/-! ## integers -/

/-- Integers: `abs` (simd_math.h:865-874) for signed types, `min`, `max` (simd.h:3547-3555), `signbit` (simd_math.h:1352-1365; for `fixed_size`
objects the comparison and the empty mask are taken register by register). -/
def intRegFuns (signed : Bool) (w : Nat) (a : Geo → IntAbs.Ctx w) (c : Geo → Compare.Ctx (.int signed w)) : RegFuns (.int signed w) where
  f1
    | .abs, g, x => if signed then IntAbs.abs (a g) g x else none
    | _, _, _ => none
  f2
    | .min, g, x, y => Compare.min (.int signed w) g x y
    | .max, g, x, y => Compare.max (.int signed w) g x y
    | _, _, _, _ => none
  t1
    | .signbit, g, x => IntAbs.signbit signed (c g) g x
    | _, _, _ => none

/-! ## floating-point numbers -/

/-- How `_S_isfinite`, `_S_isnormal`, `_S_isinf` are computed: generic code, AVX512DQ, AVX512F (simd_x86.h:2974-3126). -/
inductive ClsPath where
  | base | dq | avx512f

/-- What decides the code: the floating-point environment, the C library, the code path for rounding (`Rounding.Path`), whether the
implementation is the one for x86, whether the generic `_S_isnan` uses integers (`__SUPPORT_SNAN__`, simd_builtin.h:2257-2266; code for `__FINITE_MATH_ONLY__` is left out), whether `_S_sqrt`
is an instruction (simd_x86.h:2589-2609) and how numbers are classified. -/
structure FloatCtx (f : Fmt) where
  env : f.Env
  lib : Lib f
  rnd : Rounding.Path
  x86 : Bool
  nanInt : Bool
  sqrtInstr : Bool
  cls : ClsPath
  cmp : FloatBits.Path

namespace FloatCtx
variable {f : Fmt} (c : FloatCtx f)

/-- The SSE2 code exists for `float` only (`__is_sse_ps`, simd_x86.h:2670, 2713). -/
def path : Rounding.Path := if c.rnd = .sse2 ∧ f ≠ Rounding.b32 then .base else c.rnd

/-- The conversion sequence of `_S_trunc` (simd_x86.h:2670-2681), for `float`. -/
def sse2Trunc : f.Bits → f.Bits :=
  if h : f = Rounding.b32 then fun x => (h ▸ Rounding.truncSse2 (h ▸ c.env) (h ▸ x : Rounding.b32.Bits) : f.Bits) else id
/-- The code of `_S_round` with SSE2 (simd_x86.h:2713-2731), for `float`. -/
def sse2Round : f.Bits → f.Bits :=
  if h : f = Rounding.b32 then fun x => (h ▸ Rounding.roundSse2 (h ▸ c.env) (h ▸ x : Rounding.b32.Bits) : f.Bits) else id

/-- `_S_trunc`, `_S_floor`, `_S_ceil`, `_S_rint`, `_S_nearbyint`, `_S_round` of vectors (simd_x86.h:2652-2822, simd_builtin.h:2174-2250). -/
def trunc : f.Bits → f.Bits := Rounding.x86Trunc c.env c.sse2Trunc c.path
def floor : f.Bits → f.Bits := Rounding.x86Floor c.env c.sse2Trunc c.path
def ceil : f.Bits → f.Bits := Rounding.x86Ceil c.env c.sse2Trunc c.path
def nearbyint : f.Bits → f.Bits := Rounding.x86Nearbyint c.env c.path
def round : f.Bits → f.Bits :=
  match c.path with
  | .instr => Rounding.roundInstr c.env
  | .sse2 => c.sse2Round
  | .base => Rounding.round c.env (Rounding.trunc c.env)

/-- `_S_isnan` of vectors (simd_builtin.h:2252-2270, simd_x86.h:3128-3133). -/
def isnan : f.Bits → Bool := if c.x86 then FloatBits.x86Isnan f else if c.nanInt then FloatBits.isnanInt f else FloatBits.isnanEq f
/-- `_S_isunordered` of vectors (simd_builtin.h:2291-2297, simd_x86.h:3135-3172). -/
def isunordered : f.Bits → f.Bits → Bool := if c.x86 then FloatBits.x86Isunordered f else FloatBits.isunordered f c.isnan
/-- `_S_isfinite` of vectors (simd_builtin.h:2272-2289, simd_x86.h:2975-3011). -/
def isfinite : f.Bits → Bool :=
  match c.cls with
  | .base => FloatBits.isfinite f
  | .dq => FloatBits.x86IsfiniteDq f
  | .avx512f => FloatBits.x86IsfiniteF f
/-- `_S_isnormal` of vectors (simd_builtin.h:2335-2352, simd_x86.h:3057-3126). -/
def isnormal : f.Bits → Bool :=
  match c.cls with
  | .base => FloatBits.isnormal f
  | .dq => FloatBits.x86IsnormalDq f
  | .avx512f => FloatBits.x86IsnormalF f

/-- `_S_isless`, ... of vectors (simd_builtin.h:2019-2085, simd_x86.h:3174-3420). -/
def rel : Test2 → f.Bits → f.Bits → Bool
  | .isless => if c.x86 then FloatBits.x86Isless f c.cmp else FloatBits.isless f c.isunordered
  | .islessequal => if c.x86 then FloatBits.x86Islessequal f c.cmp else FloatBits.islessequal f c.isunordered
  | .isgreater => if c.x86 then FloatBits.x86Isgreater f c.cmp else FloatBits.isgreater f c.isunordered
  | .isgreaterequal => if c.x86 then FloatBits.x86Isgreaterequal f c.cmp else FloatBits.isgreaterequal f c.isunordered
  | .islessgreater => if c.x86 then FloatBits.x86Islessgreater f c.cmp else FloatBits.islessgreater f c.isunordered
  | .isunordered => c.isunordered

end FloatCtx

/-- `std::isless`, ... of the scalar ABI (simd_scalar.h:530-556). -/
def stdRel (f : Fmt) : Test2 → f.Bits → f.Bits → Bool
  | .isless => f.lt
  | .islessequal => f.le
  | .isgreater => fun a b => f.lt b a
  | .isgreaterequal => fun a b => f.le b a
  | .islessgreater => f.lessGreater
  | .isunordered => f.unordered

/-- A call of the C library for every element (`_GLIBCXX_SIMD_MATH_FALLBACK`); side effects are left out. -/
def libCall {V : Type} (call : List V → V) (zero : V) (g : Geo) (xs : List (List V)) : Option (List V) :=
  (MathCall.fallback (m := Id) call zero g (xs.map .reg)).run

/-- Floating-point numbers.  `abs`, `fabs` (simd_math.h:865-874), the functions that round (simd_math.h:1286-1298), `sqrt` (1282), functions of the C
library (59-180), `min`, `max` (simd.h:3547-3555), `copysign` (simd_math.h:1304-1323), `fma` (1332), classification (1333-1365) and comparison
(1367-1372). -/
def floatRegFuns {f : Fmt} (C : Geo → FloatCtx f) : RegFuns (.float f) where
  f1
    | .abs, g, (x : List f.Bits) => map1 (fun a => some (pick g (withSign (f := f) false) (FloatBits.abs f) a)) x
    | .fabs, g, (x : List f.Bits) => map1 (fun a => some (pick g (withSign (f := f) false) (FloatBits.abs f) a)) x
    | .sqrt, g, (x : List f.Bits) =>
      if (C g).sqrtInstr then map1 (fun a => some (Fmt.sqrt (C g).env a)) x
      else libCall (fun l => Fmt.sqrt (C g).env (l.headD 0)) (0 : f.Bits) g [x]
    | .trunc, g, (x : List f.Bits) => map1 (fun a => some (pick g (Fmt.rint (C g).env .zero) (C g).trunc a)) x
    | .floor, g, (x : List f.Bits) => map1 (fun a => some (pick g (Fmt.rint (C g).env .down) (C g).floor a)) x
    | .ceil, g, (x : List f.Bits) => map1 (fun a => some (pick g (Fmt.rint (C g).env .up) (C g).ceil a)) x
    | .rint, g, (x : List f.Bits) => map1 (fun a => some (pick g (Fmt.rint (C g).env (C g).env.mode) (C g).nearbyint a)) x
    | .nearbyint, g, (x : List f.Bits) => map1 (fun a => some (pick g (Fmt.rint (C g).env (C g).env.mode) (C g).nearbyint a)) x
    | .round, g, (x : List f.Bits) => map1 (fun a => some (pick g (NeonMath.rintAway (C g).env) (C g).round a)) x
    | .lib k, g, (x : List f.Bits) => libCall (fun l => (C g).lib.l1 k (l.headD 0)) (0 : f.Bits) g [x]
  f2
    | .min, g, x, y => Compare.min (.float f) g x y
    | .max, g, x, y => Compare.max (.float f) g x y
    | .copysign, g, (x : List f.Bits), (y : List f.Bits) =>
      map2 (fun a b => some (pick g (fun a b => withSign (f := f) (f.sign b) a) Math.copysign a b)) x y
    | .lib k, g, (x : List f.Bits), (y : List f.Bits) => libCall (fun l => (C g).lib.l2 k (l.headD 0) (l.tail.headD 0)) (0 : f.Bits) g [x, y]
  f3
    | .fma, g, (x : List f.Bits), (y : List f.Bits), (z : List f.Bits) =>
      libCall (fun l => Fmt.fma (C g).env (l.headD 0) (l.tail.headD 0) (l.tail.tail.headD 0)) (0 : f.Bits) g [x, y, z]
    | .lib k, g, (x : List f.Bits), (y : List f.Bits), (z : List f.Bits) =>
      libCall (fun l => (C g).lib.l3 k (l.headD 0) (l.tail.headD 0) (l.tail.tail.headD 0)) (0 : f.Bits) g [x, y, z]
  t1
    | .isfinite, g, (x : List f.Bits) => classify (pick g (fun a => decide (f.isFinite a)) (C g).isfinite) g x
    | .isinf, g, (x : List f.Bits) =>
      match (C g).cls with
      | .dq => classifyRaw (pick g (fun a => decide (f.isInf a)) (FloatBits.x86IsinfDq f)) g x
      | _ => classify (pick g (fun a => decide (f.isInf a)) (FloatBits.isinf f)) g x
    | .isnan, g, (x : List f.Bits) => classify (pick g (fun a => decide (f.isNaN a)) (C g).isnan) g x
    | .isnormal, g, (x : List f.Bits) => classify (pick g (fun a => decide (f.isNormal a)) (C g).isnormal) g x
    | .signbit, g, (x : List f.Bits) =>
      if (C g).x86 then classifyRaw (pick g f.sign (FloatBits.x86Signbit f)) g x else classify (pick g f.sign (FloatBits.signbit f)) g x
  t2 o g (x : List f.Bits) (y : List f.Bits) := Native.cmp (pick g (stdRel f o) ((C g).rel o)) g x y

/-- An implementation with functions. -/
def RegImpl.withFuns {K : Kind} (R : RegImpl K) (F : RegFuns K) : RegImpl K := { R with fn := F }

/-- The unary operators of floating-point vectors (simd_builtin.h:1634-1645, 2437-2449): `-x`, `x + 1`, `x - 1`; `operator~` does not exist. -/
def floatUn {f : Fmt} (env : f.Env) : UOp → f.Bits → f.Bits
  | .neg, a => Fmt.neg a
  | .inc, a => Fmt.add env a (Fmt.ofInt env 1)
  | .dec, a => Fmt.sub env a (Fmt.ofInt env 1)
  | .compl, a => a
/-- The binary operators of floating-point vectors (simd_builtin.h:1647-1676); the others do not exist. -/
def floatBin {f : Fmt} (env : f.Env) : BOp → f.Bits → f.Bits → f.Bits
  | .add, a, b => Fmt.add env a b
  | .sub, a, b => Fmt.sub env a b
  | .mul, a, b => Fmt.mul env a b
  | .div, a, b => Fmt.div env a b
  | _, a, _ => a

/-- `_SimdImplBuiltin` or `_SimdImplX86` for a floating-point type, with the functions. -/
def floatReg {f : Fmt} (env : f.Env) (C : Geo → FloatCtx f) : RegImpl (.float f) :=
  (builtinFloat (K := .float f) (Fmt.ofInt env 1 : f.Bits) (floatUn env) (floatBin env)).withFuns (floatRegFuns C)

end StdSimd.SimdClass
