import Verif.Model.Rounding
/-!
# Model of the rounding functions for ARM NEON

experimental/bits/simd_neon.h:157-262.  ARMv8 (`__have_neon_a32`, which `__have_neon_a64` implies) rounds with one instruction; ARMv7
truncates `float` by a conversion to 32-bit integers and back; everything else is the generic code.  `nearbyint` and `rint` are not
overridden: the generic code (`Rounding.nearbyint`) in all cases.

Trusted: `vrnd`, `vrnda`, `vrndm`, `vrndp` round to an integer towards zero, to nearest with ties away from zero, downward, upward, and keep
the sign; `vcvt_s32_f32` truncates and saturates, NaN gives zero.  Simplified: the flush-to-zero mode of ARMv7 vector arithmetic is not
modelled (`truncV7` of a subnormal number is zero with and without it).
-/
namespace StdSimd.NeonMath
open Spec FloatBits Rounding

variable {f : Fmt} (env : f.Env)

/-- The code paths of simd_neon.h:157-262: ARMv8, ARMv7 with `float` elements, ARMv7 with other elements. -/
inductive Path where
  | a32 | v7 | base
  deriving DecidableEq

/-- The instruction `vrnda` (simd_neon.h:200-215): nearest integer, ties away from zero. -/
def rintAway (x : f.Bits) : f.Bits :=
  if f.isNaN x then env.nan x x else if f.isInf x then x else f.ofMag (f.sign x) (f.encode |(roundAway (f.ratValue x) : ℚ)|)

/-- The instruction `vcvt_s32_f32` (simd_neon.h:180-182). -/
def vcvt (x : b32.Bits) : BitVec 32 :=
  if b32.isNaN x then 0
  else if b32.isInf x then (if b32.sign x then BitVec.intMin 32 else BitVec.intMax 32)
  else BitVec.ofInt 32 (max (-(2 ^ 31)) (min (2 ^ 31 - 1) (truncZ (b32.ratValue x))))

/-- `_S_trunc` of `float` on ARMv7 (simd_neon.h:176-186): `abs(x) < 0x1p23f ? float(int(x)) : x`. -/
def truncV7 (env : b32.Env) (x : b32.Bits) : b32.Bits :=
  let t := cvtepi32 env (vcvt x)
  if b32.lt (FloatBits.abs b32 x) (Fmt.ofInt env (2 ^ 23)) then t else x

/-- `_S_trunc` (simd_neon.h:157-190); `v7` is the conversion sequence. -/
def neonTrunc (v7 : f.Bits → f.Bits) (p : Path) (x : f.Bits) : f.Bits :=
  match p with
  | .a32 => Fmt.rint env .zero x
  | .v7 => v7 x
  | .base => trunc env x

/-- `_S_round` (simd_neon.h:194-215): the generic code calls the NEON `_S_trunc`. -/
def neonRound (v7 : f.Bits → f.Bits) (p : Path) (x : f.Bits) : f.Bits :=
  match p with
  | .a32 => rintAway env x
  | p => round env (neonTrunc env v7 p) x

/-- `_S_floor` (simd_neon.h:218-238). -/
def neonFloor (v7 : f.Bits → f.Bits) (p : Path) (x : f.Bits) : f.Bits :=
  match p with
  | .a32 => Fmt.rint env .down x
  | p => floor env (neonTrunc env v7 p) x

/-- `_S_ceil` (simd_neon.h:241-261). -/
def neonCeil (v7 : f.Bits → f.Bits) (p : Path) (x : f.Bits) : f.Bits :=
  match p with
  | .a32 => Fmt.rint env .up x
  | p => ceil env (neonTrunc env v7 p) x

end StdSimd.NeonMath
