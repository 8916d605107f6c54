import Verif.Model.FloatBits
import Verif.Spec.FloatArith
/-!
# Model of the rounding functions

`nearbyint`, `rint`, `trunc`, `round`, `floor`, `ceil`: experimental/bits/simd_builtin.h:2119-2250 and simd_x86.h:2652-2822.  The
functions are element-wise; one element is modelled, in any binary interchange format.

Trusted: `+`, `-` and comparisons of floating-point vectors are the IEEE operations (`Spec.Fmt.add`, ...) in the precision of
the element type, without contraction or reassociation (the purpose of the `asm` statements in `_S_plus_minus`); SSE4.1 `round` and
AVX-512 `rndscale` round to an integer in the direction of their immediate.
-/
namespace StdSimd.Rounding
open Spec FloatBits

variable {f : Fmt} (env : f.Env)

/-- An element of the result of a vector comparison. -/
def mask (f : Fmt) (b : Bool) : f.Bits := if b then BitVec.allOnes _ else 0
/-- `__andnot` (simd.h: `~a & b`). -/
def andnot (a b : f.Bits) : f.Bits := ~~~a &&& b

/-- `_S_plus_minus` (simd_builtin.h:2119-2170). -/
def plusMinus (x y : f.Bits) : f.Bits := Fmt.sub env (Fmt.add env x y) y

/-- `1ull << (__digits_v<_Tp> - 1)` converted to the element type (simd_builtin.h:2183-2184, 2205). -/
def shifter : f.Bits := Fmt.ofInt env (2 ^ f.mbits)

/-- `_S_nearbyint` and `_S_rint` (simd_builtin.h:2174-2195). -/
def nearbyint (x : f.Bits) : f.Bits :=
  let absx := x &&& absMask f
  let sh := (signMask f &&& x) ||| shifter env
  let shifted := plusMinus env x sh
  if f.lt absx (shifter env) then shifted else x

/-- `_S_trunc` (simd_builtin.h:2197-2210). -/
def trunc (x : f.Bits) : f.Bits :=
  let absx := x &&& absMask f
  let t := plusMinus env absx (shifter env)
  let t := Fmt.sub env t (if f.lt absx t then Fmt.ofInt env 1 else Fmt.ofInt env 0)
  if f.lt absx (shifter env) then (absx ^^^ x) ||| t else x

/-- `_Tp(.5)`. -/
def half : f.Bits := f.round env.mode false (1 / 2)

/-- `_S_round` (simd_builtin.h:2212-2222); `tr` is `_S_trunc` of the implementation. -/
def round (tr : f.Bits → f.Bits) (x : f.Bits) : f.Bits :=
  let absx := FloatBits.abs f x
  let t := tr absx
  let r := Fmt.add env t (if f.le (half env) (Fmt.sub env absx t) then Fmt.ofInt env 1 else Fmt.ofInt env 0)
  (absx ^^^ x) ||| r

/-- `_S_floor` (simd_builtin.h:2224-2236). -/
def floor (tr : f.Bits → f.Bits) (x : f.Bits) : f.Bits :=
  let y := tr x
  let neg := mask f (f.lt x (Fmt.ofInt env 0))
  let m := andnot (mask f (f.eq y x)) neg
  andnot m y ||| (m &&& Fmt.sub env y (Fmt.ofInt env 1))

/-- `_S_ceil` (simd_builtin.h:2238-2250). -/
def ceil (tr : f.Bits → f.Bits) (x : f.Bits) : f.Bits :=
  let y := tr x
  let neg := mask f (f.lt x (Fmt.ofInt env 0))
  let m := mask f (f.eq y x) ||| neg
  (m &&& y) ||| andnot m (Fmt.add env y (Fmt.ofInt env 1))

/-! ## x86 -/

/-- The code paths of simd_x86.h:2652-2822: an instruction that rounds (SSE4.1, AVX, AVX-512), SSE2 (`float` only), or the generic code. -/
inductive Path where
  | instr | sse2 | base
  deriving DecidableEq

abbrev b32 : Fmt := ⟨8, 23⟩

/-- `_mm_cvttps_epi32`: out-of-range operands give the smallest integer. -/
def cvttps (x : b32.Bits) : BitVec 32 :=
  if b32.isFinite x ∧ -(2 ^ 31) ≤ truncZ (b32.ratValue x) ∧ truncZ (b32.ratValue x) < 2 ^ 31 then BitVec.ofInt 32 (truncZ (b32.ratValue x))
  else BitVec.intMin 32
/-- `_mm_cvtepi32_ps`. -/
def cvtepi32 (env : b32.Env) (x : BitVec 32) : b32.Bits := Fmt.ofInt env x.toInt

/-- `_S_trunc` for SSE2 `float` vectors (simd_x86.h:2670-2681). -/
def truncSse2 (env : b32.Env) (x : b32.Bits) : b32.Bits :=
  let t := cvtepi32 env (cvttps x)
  if (x &&& 0x7f800000#32).slt 0x4b000000#32 then t else x

/-- `_S_trunc` (simd_x86.h:2652-2683); `sse2` is the conversion sequence. -/
def x86Trunc (sse2 : f.Bits → f.Bits) (p : Path) (x : f.Bits) : f.Bits :=
  match p with
  | .instr => Fmt.rint env .zero x
  | .sse2 => sse2 x
  | .base => trunc env x

/-- The end of `_S_round` (simd_x86.h:2719-2731): `t` is the truncated value. -/
def roundTail (t x : f.Bits) : f.Bits :=
  Fmt.add env t (if f.le (half env) (absMask f &&& Fmt.sub env x t) then (signMask f &&& x) ||| Fmt.ofInt env 1 else Fmt.ofInt env 0)

/-- `_S_round` with an instruction that truncates. -/
def roundInstr (x : f.Bits) : f.Bits := roundTail env (Fmt.rint env .zero x) x
/-- `_S_round` for SSE2 `float` vectors. -/
def roundSse2 (env : b32.Env) (x : b32.Bits) : b32.Bits :=
  if b32.lt (absMask b32 &&& x) (Fmt.ofInt env (2 ^ 23)) then roundTail env (cvtepi32 env (cvttps x)) x else x

/-- `_S_nearbyint`, `_S_rint` (simd_x86.h:2735-2778). -/
def x86Nearbyint (p : Path) (x : f.Bits) : f.Bits :=
  match p with
  | .instr => Fmt.rint env env.mode x
  | _ => nearbyint env x
/-- `_S_floor` (simd_x86.h:2781-2800): the generic code calls the x86 `_S_trunc`. -/
def x86Floor (sse2 : f.Bits → f.Bits) (p : Path) (x : f.Bits) : f.Bits :=
  match p with
  | .instr => Fmt.rint env .down x
  | p => floor env (x86Trunc env sse2 p) x
/-- `_S_ceil` (simd_x86.h:2803-2822). -/
def x86Ceil (sse2 : f.Bits → f.Bits) (p : Path) (x : f.Bits) : f.Bits :=
  match p with
  | .instr => Fmt.rint env .up x
  | p => ceil env (x86Trunc env sse2 p) x

end StdSimd.Rounding
