import Verif.Model.BitMask
import Verif.Spec.Intrin
/-!
# Model: conversions between simd objects and vector types

The explicit constructors `simd(_CastType)` (simd.h:5048-5050) and `simd_mask(_MaskCastType)` (simd.h:4311-4313) and the explicit conversion operators of
`_SimdBase` and `_MaskBase` (simd_builtin.h:823-867), for x86 and the ABI tags with one register.  Simplifications: GCC without `-flax-vector-conversions`
(vector types with different elements do not convert to each other); `none` means that the call does not compile.
-/
namespace StdSimd.Intrin
open StdSimd Spec Spec.Intrin

abbrev Bytes := List (BitVec 8)

/-- `__vector_type_t<_Tp, _Np>` (simd.h:1354-1371); `i386` is the macro `__i386__`. -/
def vectorType (i386 : Bool) (t : CType) (s n : Nat) : VecTy :=
  let np2 := bitCeil (n * s)
  ⟨t, if i386 && np2 == 8 then 16 else if np2 < 2 * s then 2 * s else np2⟩

/-- `__intrinsic_type_t<_Tp, _Np>` (simd.h:946-951, 2226-2241). -/
def intrinsicType (p : Platform) (t : CType) (s n : Nat) : VecTy :=
  ⟨if p.isFloat t then t else .llong, if n * s ≤ 16 then 16 else if n * s ≤ 32 then 32 else 64⟩

/-- `__int_for_sizeof<_Bytes>()` of GCC for up to 8 bytes (simd.h:381-404). -/
def intFor (p : Platform) (s : Nat) : CType :=
  if 8 * s = p.intW then .int else if s = 1 then .schar else if 8 * s = p.shortW then .short else if 8 * s = p.longW then .long else .llong

/-- `__intrin_bitcast<_To>` and `__vector_bitcast` where `_To` is not larger than the argument (simd.h:1508-1523, 1550-1571). -/
def bitcast (bytes : Nat) (x : Bytes) : Bytes := x.take bytes

/-- `__to_intrin` (simd.h:1633-1650): the register is filled up with zeros. -/
def toIntrin (bytes : Nat) (x : Bytes) : Bytes := if x.length = bytes then x else x ++ List.replicate (bytes - x.length) 0#8

section
variable (p : Platform) (i386 : Bool) (t : CType) (s n : Nat)

/-- The constructor template of `_SimdWrapper<_Tp, _Width>` (simd.h:2485-2491) for an argument of type `V`. -/
def wrap (V : VecTy) (x : Bytes) : Option Bytes :=
  if V = vectorType i386 t s n ∨ V = intrinsicType p t s n then some (bitcast (vectorType i386 t s n).bytes x) else none

/-- `simd(x)` for `x` of type `X` (simd.h:5048-5050): `_SimdCastType1` takes the intrinsic type, `_SimdCastType2` also the vector type
(simd_builtin.h:885-911).  `__vector_bitcast<_Tp>` reads the register as a vector of `_Tp` of the same size. -/
def construct (X : VecTy) (x : Bytes) : Option Bytes :=
  let a := intrinsicType p t s n
  if X = a then wrap p i386 t s n (vectorType i386 t s (a.bytes / s)) (bitcast (vectorType i386 t s (a.bytes / s)).bytes x)
  else if X = vectorType i386 t s n then wrap p i386 t s n X x
  else none

/-- `static_cast<X>(v)` (simd_builtin.h:823-846).  `_SimdBase1`: the conversion of `_SimdWrapper` to its vector type (simd.h:2506-2510); `_SimdBase2`: with
`__to_intrin` to the intrinsic type; the conversion to the vector type calls a member function `__builtin` that does not exist. -/
def convert (X : VecTy) (v : Bytes) : Option Bytes :=
  let a := intrinsicType p t s n
  if a = vectorType i386 t s n then (if X = a then some v else none)
  else if X = a then some (toIntrin a.bytes v)
  else none

/-- `simd_mask(x)` for `x` of type `X` (simd.h:4311-4313, simd_builtin.h:874-883): `_MaskMember` is constructed from the register; `_SimdWrapper<bool>` of the
AVX-512 masks (`bits`) has no constructor for registers (simd.h:2344-2361). -/
def constructMask (bits : Bool) (X : VecTy) (x : Bytes) : Option Bytes :=
  if X = intrinsicType p t s n ∧ bits = false then wrap p i386 (intFor p s) s n X x else none

/-- `static_cast<X>(k)` for a mask `k` (simd_builtin.h:848-867).  `_MaskBase1` converts the `_SimdWrapper` to the intrinsic type, `_MaskBase2` calls
`__intrin`, which vector masks do not have and which gives an integer for AVX-512 masks (simd.h:2366), resp. returns the vector of the mask. -/
def convertMask (bits : Bool) (X : VecTy) (k : Bytes) : Option Bytes :=
  let m := vectorType i386 (intFor p s) s n
  let b := vectorType i386 t s n
  if bits then none
  else if intrinsicType p t s n = b then (if X = b ∧ m = b then some k else none)
  else if X = b ∧ m = b then some k
  else none
end

end StdSimd.Intrin
