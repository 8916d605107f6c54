import Verif.Model.RegBits
import Verif.Model.Rounding
/-!
# Model of the masks for the sign bit

`_S_allbits`, `_S_signmask`, `_S_absmask` (experimental/bits/simd_builtin.h:38-53), computed with floating-point arithmetic, in the
rounding mode of the program where they are not compile-time constants (`_GLIBCXX_SIMD_USE_CONSTEXPR` is `const` with clang and
`_GLIBCXX_SIMD_USE_CONSTEXPR_API` with `__STRICT_ANSI__`, simd_detail.h:231-243), and the functions on registers that use them.
-/
namespace StdSimd.SignMask
open Spec RegBits

variable {N : Nat} {f : Fmt} (env : f.Env)

/-- The element type. -/
def ty (f : Fmt) : Ty := ⟨true, f.width⟩

/-- `_S_allbits` (simd_builtin.h:39-41): `~` of a vector of `char`. -/
def allBits (N : Nat) : BitVec N := map1 8 (fun x => ~~~x) 0#N
/-- `_V() + 1` (simd_builtin.h:47): the scalar operand is converted and broadcast. -/
def plusOne (N : Nat) : BitVec N := map1 f.width (fun z => Fmt.add env z (Fmt.ofInt env 1)) 0#N
/-- `_V() - 1` (simd_builtin.h:47). -/
def minusOne (N : Nat) : BitVec N := map1 f.width (fun z => Fmt.sub env z (Fmt.ofInt env 1)) 0#N
/-- `_S_signmask` (simd_builtin.h:45-47). -/
def signMask (N : Nat) : BitVec N := RegBits.xor (ty f) (plusOne env N) (minusOne env N)
/-- `_S_absmask` (simd_builtin.h:49-51). -/
def absMask (t : Feat) (known : Bool) (N : Nat) : BitVec N := andnot t known (ty f) (signMask env N) (allBits N)

/-- `_S_abs` of floating-point elements (simd_builtin.h:2099-2101). -/
def abs (t : Feat) (known : Bool) (x : BitVec N) : BitVec N := RegBits.and (ty f) (absMask env t known N) x

/-- `_V(n)` for an integer `n` (simd_builtin.h: `_S_broadcast`). -/
def broadcast (N : Nat) (n : ℤ) : BitVec N := map1 f.width (fun _ => Fmt.ofInt env n) 0#N
/-- `copysign` (simd_math.h:1316-1322); the operators are those of `__float_bitwise_operators` (simd.h:5174-5198). -/
def copysign (x y : BitVec N) : BitVec N :=
  let m := RegBits.xor (ty f) (broadcast env N 1) (broadcast env N (-1))
  RegBits.or (ty f) (RegBits.and (ty f) x (RegBits.xor (ty f) x m)) (RegBits.and (ty f) y m)

end StdSimd.SignMask
