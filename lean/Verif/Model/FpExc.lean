import Verif.Model.Rounding
import Verif.Model.Division
import Verif.Spec.FpExc
/-!
# Model of the floating-point exceptions that functions raise

The instructions that the comparisons, classifications, rounding functions and the division use, together with the exceptions they raise:
experimental/bits/simd_builtin.h:1665-1676, 1733-1757, 2020-2082, 2119-2435, 2495-2510, simd_x86.h:2211-2571, 2652-3457.  The values are those of
`Model.FloatBits`, `Model.Rounding` and `Model.Division`, to which the theorems relate this model.

Trusted: the compiler keeps the exceptions of the operations written in the code (`-ftrapping-math`, the default of GCC); vector `==` and `!=` are
quiet and `<`, `<=`, `>`, `>=` signal; `_CMP_*_*Q`, `cmpord`, `cmpunord`, `cmpeq`, `cmpneq` and `ucomisd` are quiet, `_CMP_*_OS` signal; bit
operations, integer comparisons, blends and `fpclass` raise nothing; the immediate of `round`/`roundscale` suppresses inexact if bit 3 is set;
`cvttps2dq` raises invalid if the result is out of range and inexact if it is not exact.  An instruction raises the exceptions of all elements of its
register; AVX-512 comparisons with a mask those of the selected elements.
-/
namespace StdSimd.FpExc
open Spec FloatBits Rounding

/-- A result and the exceptions raised on the way. -/
def FP (α : Type) := α × Exc
/-- The value. -/
def FP.val {α : Type} (r : FP α) : α := r.1
/-- The exceptions. -/
def FP.exc {α : Type} (r : FP α) : Exc := r.2

/-- Statements in sequence raise the exceptions of each. -/
instance : Monad FP where
  pure a := (a, Exc.clear)
  bind r k := ((k r.1).1, r.2.or (k r.1).2)

variable (f : Fmt)

/-! ## instructions -/

/-- A quiet comparison. -/
def cmpQ (p : f.Bits → f.Bits → Bool) (x y : f.Bits) : FP Bool := (p x y, f.quietExc x y)
/-- A comparison that signals. -/
def cmpS (p : f.Bits → f.Bits → Bool) (x y : f.Bits) : FP Bool := (p x y, f.signalExc x y)

/-- The predicates of `_mm*_cmp_p*` and `_mm*_mask_cmp_p*_mask` used (simd_x86.h:2231-2537, 2939-2966, 3149-3164, 3186-3445). -/
inductive Pred where
  | eqOQ | neqUQ | neqOQ | ltOS | leOS | ltOQ | leOQ | gtOQ | geOQ | unordQ | ordQ
  deriving DecidableEq

/-- The instruction with a predicate. -/
def cmpP : Pred → f.Bits → f.Bits → FP Bool
  | .eqOQ => cmpQ f f.eq
  | .neqUQ => cmpQ f (fun x y => !(f.eq x y))
  | .neqOQ => cmpQ f f.lessGreater
  | .ltOS => cmpS f f.lt
  | .leOS => cmpS f f.le
  | .ltOQ => cmpQ f f.lt
  | .leOQ => cmpQ f f.le
  | .gtOQ => cmpQ f (fun x y => f.lt y x)
  | .geOQ => cmpQ f (fun x y => f.le y x)
  | .unordQ => cmpQ f f.unordered
  | .ordQ => cmpQ f (fun x y => !(f.unordered x y))

variable {f} (env : f.Env)

/-- `x + y`. -/
def fadd (x y : f.Bits) : FP f.Bits := (Fmt.add env x y, f.addExc env.mode x y)
/-- `x - y`. -/
def fsub (x y : f.Bits) : FP f.Bits := (Fmt.sub env x y, f.subExc env.mode x y)
/-- `x * y`. -/
def fmul (x y : f.Bits) : FP f.Bits := (Fmt.mul env x y, f.mulExc env.mode x y)
/-- `x / y`. -/
def fdiv (x y : f.Bits) : FP f.Bits := (Fmt.div env x y, f.divExc env.mode x y)

/-- The rounding direction of an immediate: bit 2 selects the current direction, else bits 1:0. -/
def immMode (imm : Nat) : RMode :=
  if imm.testBit 2 then env.mode else match imm % 4 with | 0 => .nearest | 1 => .down | 2 => .up | _ => .zero
/-- `_mm*_round_p*`, `_mm512_roundscale_p*` with an immediate below 16. -/
def roundImm (imm : Nat) (x : f.Bits) : FP f.Bits :=
  (Fmt.rint env (immMode env imm) x,
   { invalid := decide (f.isSignalling x), inexact := decide (f.isFinite x ∧ ¬ f.isIntegral x) && !imm.testBit 3 })

/-! ## comparisons -/

variable (f)

/-- Generic `_S_isnan` (simd_builtin.h:2253-2269): `~(x == x)`, or integers with `__SUPPORT_SNAN__`. -/
def isnanG (snan : Bool) (x : f.Bits) : FP Bool :=
  if snan then pure (isnanInt f x) else do return !(← cmpQ f f.eq x x)
/-- Generic `_S_isunordered` (simd_builtin.h:2292-2297). -/
def isunorderedG (snan : Bool) (x y : f.Bits) : FP Bool := do
  let a ← isnanG f snan x
  let b ← isnanG f snan y
  return a || b

/-- The generic functions (simd_builtin.h:2020-2082, 2292-2297); `un` is `_SuperImpl::_S_isunordered`, the order is an order of integers. -/
def cmpG (un : f.Bits → f.Bits → FP Bool) : CmpFn → f.Bits → f.Bits → FP Bool
  | .isunordered, x, y => un x y
  | .isgreater, x, y => do let u ← un x y; return !u && (key f y).slt (key f x)
  | .isgreaterequal, x, y => do let u ← un x y; return !u && (key f y).sle (key f x)
  | .isless, x, y => do let u ← un x y; return !u && (key f x).slt (key f y)
  | .islessequal, x, y => do let u ← un x y; return !u && (key f x).sle (key f y)
  | .islessgreater, x, y => do
      let u ← un x y
      let n ← cmpQ f (fun x y => !(f.eq x y)) x y
      return !u && n

/-- The predicate of a function with AVX and AVX-512 (simd_x86.h:3149-3164, 3184-3457). -/
def cmpPred : CmpFn → Pred
  | .isunordered => .unordQ
  | .isgreater => .gtOQ
  | .isgreaterequal => .geOQ
  | .isless => .ltOQ
  | .islessequal => .leOQ
  | .islessgreater => .neqOQ

/-- The functions on x86 (simd_x86.h:3141-3457): with a predicate; with SSE2 integers and `cmpord` for `float`, `ucomisd` for `double`; generic. -/
def cmpX86 (p : FloatBits.Path) (c : CmpFn) (x y : f.Bits) : FP Bool :=
  match p, c with
  | .cmp, c => cmpP f (cmpPred c) x y
  | _, .isunordered => cmpP f .unordQ x y                                               -- _mm_cmpunord_p*
  | _, .islessgreater => do                                                             -- _mm_cmpord_p* & _mm_cmpneq_p*
      let o ← cmpP f .ordQ x y
      let n ← cmpP f .neqUQ x y
      return o && n
  | .sse2Float, .isgreater => do let o ← cmpP f .ordQ x y; return o && (key f y).slt (key f x)
  | .sse2Float, .isgreaterequal => do let o ← cmpP f .ordQ x y; return o && (key f y).sle (key f x)
  | .sse2Float, .isless => do let o ← cmpP f .ordQ x y; return o && (key f x).slt (key f y)
  | .sse2Float, .islessequal => do let o ← cmpP f .ordQ x y; return o && (key f x).sle (key f y)
  | .sse2Double, .isgreater => cmpQ f (fun x y => f.lt y x) x y                         -- _mm_ucomigt_sd(x, y)
  | .sse2Double, .isgreaterequal => cmpQ f (fun x y => f.le y x) x y
  | .sse2Double, .isless => cmpQ f (fun x y => f.lt y x) y x                            -- _mm_ucomigt_sd(y, x)
  | .sse2Double, .islessequal => cmpQ f (fun x y => f.le y x) y x
  | .base, c => cmpG f (cmpP f .unordQ) c x y

/-- `_S_equal_to`, `_S_not_equal_to`, `_S_less`, `_S_less_equal` of vectors (simd_builtin.h:1733-1757). -/
def opG : CmpOp → f.Bits → f.Bits → FP Bool
  | .eq => cmpQ f f.eq
  | .ne => cmpQ f (fun x y => !(f.eq x y))
  | .lt => cmpS f f.lt
  | .le => cmpS f f.le
/-- The same with AVX-512 (simd_x86.h:2211-2571). -/
def opPred : CmpOp → Pred
  | .eq => .eqOQ
  | .ne => .neqUQ
  | .lt => .ltOS
  | .le => .leOS

/-! ## registers -/

variable {f}

/-- An element-wise operation on registers; `act i` says whether element `i` is selected by the mask of the instruction. -/
def lanes {α : Type} (act : Nat → Bool) (g : f.Bits → f.Bits → FP α) (x y : List f.Bits) : FP (List α) :=
  ((List.zipWith g x y).map FP.val, Exc.any (((List.zipWith g x y).mapIdx (fun i r => if act i then FP.exc r else Exc.clear))))
/-- The same with one operand. -/
def lanes1 {α : Type} (g : f.Bits → FP α) (x : List f.Bits) : FP (List α) := ((x.map g).map FP.val, Exc.any ((x.map g).map FP.exc))

/-- The elements an instruction compares: with AVX-512 `n` elements are selected by `_S_implicit_mask_intrin`, otherwise all elements of the register
are compared. -/
def active (avx512 : Bool) (n : Nat) (i : Nat) : Bool := !avx512 || decide (i < n)

/-- One register of a `fixed_size` object: a scalar, or a native register with `n` elements. -/
structure Chunk (f : Fmt) where
  code : Option (FloatBits.Path × Bool)
  n : Nat
  x : List f.Bits
  y : List f.Bits

/-- A comparison function on one register: `std::isless` ... for scalars (simd_scalar.h:531-556, trusted), else x86 code. -/
def cmpChunk (c : CmpFn) (k : Chunk f) : FP (List Bool) :=
  match k.code with
  | none => lanes (fun _ => true) (cmpQ f (fun a b => c.eval f a b)) k.x k.y
  | some (p, avx512) => lanes (active avx512 k.n) (cmpX86 f p c) k.x k.y
/-- A comparison function on `fixed_size` (`_GLIBCXX_SIMD_CMP_OPERATIONS`, simd_fixed_size.h:1735-1766): register by register; the bits of the
elements are put together. -/
def cmpFixed (c : CmpFn) : List (Chunk f) → FP (List Bool)
  | [] => pure []
  | k :: ks => do
    let a ← cmpChunk c k
    let b ← cmpFixed c ks
    return a.take k.n ++ b

/-! ## classification -/

variable (f)

/-- Where the code comes from: generic, AVX512DQ, AVX-512 without DQ; other x86. -/
inductive ClassPath where
  | base (snan : Bool) | dq | f512 | x86
  deriving DecidableEq

/-- `isnan` ... `signbit` (simd_builtin.h:2253-2350, simd_x86.h:2825-2870, 2974-3138). -/
def classify (p : ClassPath) (c : ClassFn) (x : f.Bits) : FP Bool :=
  match c, p with
  | .isnan, .base s => isnanG f s x
  | .isnan, _ => cmpP f .unordQ x x
  | .isinf, .dq => pure (x86IsinfDq f x)
  | .isinf, .f512 => cmpP f .eqOQ (FloatBits.abs f x) (infBits f)
  | .isinf, _ => cmpQ f f.eq (FloatBits.abs f x) (infBits f)
  | .isfinite, .dq => pure (x86IsfiniteDq f x)
  | .isfinite, .f512 => pure (x86IsfiniteF f x)
  | .isfinite, _ => pure (FloatBits.isfinite f x)
  | .isnormal, .dq => pure (x86IsnormalDq f x)
  | .isnormal, .f512 => pure (x86IsnormalF f x)
  | .isnormal, _ => pure (FloatBits.isnormal f x)
  | .signbit, .base _ => pure (FloatBits.signbit f x)
  | .signbit, _ => pure (x86Signbit f x)

variable {f}

/-- `_S_isnonzerovalue_mask` without AVX512DQ and AVX512VL (simd_x86.h:2929-2968), used by `frexp` (simd_math.h:656-672). -/
def isnonzerovalue (x : f.Bits) : FP Bool := do
  let a ← fmul env x (infBits f)
  let b ← fmul env x 0
  cmpP f .ordQ a b

/-! ## rounding -/

/-- `_S_plus_minus` (simd_builtin.h:2119-2170). -/
def plusMinus (x y : f.Bits) : FP f.Bits := do
  let s ← fadd env x y
  fsub env s y

/-- Generic `_S_nearbyint`, `_S_rint` (simd_builtin.h:2174-2195). -/
def nearbyintG (x : f.Bits) : FP f.Bits := do
  let absx := x &&& absMask f
  let sh := (signMask f &&& x) ||| shifter env
  let shifted ← plusMinus env x sh
  let c ← cmpS f f.lt absx (shifter env)
  return if c then shifted else x

/-- Generic `_S_trunc` (simd_builtin.h:2197-2210). -/
def truncG (x : f.Bits) : FP f.Bits := do
  let absx := x &&& absMask f
  let t ← plusMinus env absx (shifter env)
  let g ← cmpS f (fun x y => f.lt y x) t absx
  let t ← fsub env t (if g then Fmt.ofInt env 1 else Fmt.ofInt env 0)
  let c ← cmpS f f.lt absx (shifter env)
  return if c then (absx ^^^ x) ||| t else x

/-- Generic `_S_round` (simd_builtin.h:2212-2222). -/
def roundG (tr : f.Bits → FP f.Bits) (x : f.Bits) : FP f.Bits := do
  let absx := FloatBits.abs f x
  let t ← tr absx
  let d ← fsub env absx t
  let g ← cmpS f (fun x y => f.le y x) d (half env)
  let r ← fadd env t (if g then Fmt.ofInt env 1 else Fmt.ofInt env 0)
  return (absx ^^^ x) ||| r

/-- Generic `_S_floor` (simd_builtin.h:2224-2236): the difference is computed for every element. -/
def floorG (tr : f.Bits → FP f.Bits) (x : f.Bits) : FP f.Bits := do
  let y ← tr x
  let neg ← cmpS f f.lt x (Fmt.ofInt env 0)
  let e ← cmpQ f f.eq y x
  let m := andnot (mask f e) (mask f neg)
  let d ← fsub env y (Fmt.ofInt env 1)
  return andnot m y ||| (m &&& d)

/-- Generic `_S_ceil` (simd_builtin.h:2238-2250). -/
def ceilG (tr : f.Bits → FP f.Bits) (x : f.Bits) : FP f.Bits := do
  let y ← tr x
  let neg ← cmpS f f.lt x (Fmt.ofInt env 0)
  let e ← cmpQ f f.eq y x
  let m := mask f e ||| mask f neg
  let s ← fadd env y (Fmt.ofInt env 1)
  return (m &&& y) ||| andnot m s

/-- x86 `_S_nearbyint` (simd_x86.h:2735-2757): immediate 0x0c (`_MM_FROUND_CUR_DIRECTION | _MM_FROUND_NO_EXC`). -/
def nearbyintX86 (p : Rounding.Path) (x : f.Bits) : FP f.Bits :=
  match p with
  | .instr => roundImm env 0x0c x
  | _ => nearbyintG env x
/-- x86 `_S_rint` (simd_x86.h:2760-2778): immediate 0x04; the generic function calls `_S_nearbyint`. -/
def rintX86 (p : Rounding.Path) (x : f.Bits) : FP f.Bits :=
  match p with
  | .instr => roundImm env 0x04 x
  | p => nearbyintX86 env p x

/-- x86 `_S_trunc` with an instruction (simd_x86.h:2657-2668): immediate 0x0b for 64 bytes, else 0x03. -/
def truncI (zmm : Bool) (x : f.Bits) : FP f.Bits := roundImm env (if zmm then 0x0b else 0x03) x
/-- x86 `_S_floor` with an instruction (simd_x86.h:2786-2797): immediate 0x09 for 64 bytes, else 0x01 (also `_mm_floor_p*`). -/
def floorI (zmm : Bool) (x : f.Bits) : FP f.Bits := roundImm env (if zmm then 0x09 else 0x01) x
/-- x86 `_S_ceil` with an instruction (simd_x86.h:2808-2819): immediate 0x0a for 64 bytes, else 0x02 (also `_mm_ceil_p*`). -/
def ceilI (zmm : Bool) (x : f.Bits) : FP f.Bits := roundImm env (if zmm then 0x0a else 0x02) x

/-- The end of x86 `_S_round` (simd_x86.h:2719-2731). -/
def roundTailE (t x : f.Bits) : FP f.Bits := do
  let d ← fsub env x t
  let g ← cmpS f (fun x y => f.le y x) (absMask f &&& d) (half env)
  fadd env t (if g then (signMask f &&& x) ||| Fmt.ofInt env 1 else Fmt.ofInt env 0)
/-- x86 `_S_round` with an instruction that truncates (simd_x86.h:2696-2713, 2719-2731): immediate 0x0b. -/
def roundI (x : f.Bits) : FP f.Bits := do
  let t ← roundImm env 0x0b x
  roundTailE env t x

/-- `_mm_cvttps_epi32`. -/
def cvttpsE (x : b32.Bits) : FP (BitVec 32) :=
  (cvttps x,
   if b32.isFinite x ∧ -(2 ^ 31) ≤ truncZ (b32.ratValue x) ∧ truncZ (b32.ratValue x) < 2 ^ 31 then { inexact := decide (¬ b32.isIntegral x) }
   else { invalid := true })
/-- `_mm_cvtepi32_ps`. -/
def cvtepi32E (env : b32.Env) (x : BitVec 32) : FP b32.Bits := (cvtepi32 env x, b32.roundExc env.mode x.toInt)
/-- `_S_trunc` for SSE2 `float` vectors (simd_x86.h:2670-2681): the conversions are done for every element. -/
def truncS (env : b32.Env) (x : b32.Bits) : FP b32.Bits := do
  let i ← cvttpsE x
  let t ← cvtepi32E env i
  return if (x &&& 0x7f800000#32).slt 0x4b000000#32 then t else x

/-! ## division -/

/-- `_S_divides` of floating-point vectors (simd_builtin.h:1665-1676). -/
def dividesE (g : Geo) (one : f.Bits) (x y : List f.Bits) : FP (List f.Bits) :=
  lanes (fun _ => true) (fdiv env) x (Division.makePaddingOne one g y)

/-- `_S_masked_cassign` (simd_builtin.h:2495-2510), mask not known at compile time: the operation on all elements, then a blend. -/
def maskedCassignE {α : Type} (op : List α → List α → FP (List α)) (k : List Bool) (lhs rhs : List α) : FP (List α) := do
  let r ← op lhs rhs
  return List.zipWith (fun (c : Bool) (p : α × α) => if c then p.2 else p.1) k (lhs.zip r)

/-- A register of `size` elements out of `full`, declared without initialiser: `_SimdWrapperBase<_MustZeroInitPadding, _BuiltinType>` (simd.h:2417-2441); `snan` is
`__has_iec559_behavior<__signaling_NaN, _Tp>`, and the condition is that of simd.h:2448-2451.  `junk` is what the memory held. -/
def defaultInit {f : Spec.Fmt} (snan : Bool) (size full : Nat) (junk : List f.Bits) : List f.Bits :=
  if snan && size == full then List.replicate full (0 : f.Bits) else junk

/-- `v[i] = x_i` for all elements, one after the other (`_M_set`, simd.h:2519-2520). -/
def assignAll {f : Spec.Fmt} (r xs : List f.Bits) : List f.Bits :=
  (List.range xs.length).foldl (fun (r : List f.Bits) (i : Nat) => r.set i (xs.getD i 0)) r

end StdSimd.FpExc
