import Verif.Model.Abi
import Verif.Model.Narrowing
import Verif.Model.Tuple
import Verif.Spec.CastType
/-!
# Model: the return types and constraints of the casts

`__static_simd_cast_return_type` (simd.h:2826-2880), the constraints of `static_simd_cast` and `simd_cast` (simd.h:2881-2928) and of `to_native` and
`to_compatible` (simd.h:3027-3062).
-/
namespace StdSimd.CastType
open Spec Abi
open Spec.CastType (Target)

variable (p : Platform)

/-- The element type as the ABI machinery sees it: its size in bytes and whether it is a floating-point type. -/
def elemOf (t : CType) : Elem := ⟨p.sizeOf t / 8, p.isFloat t⟩

/-- `simd_size_v<t, a>` (simd.h:2705-2729). -/
def sizeV (t : CType) (a : Tag) : Nat := Abi.size (elemOf p t) a

/-- `__is_vectorizable` (simd.h:335-342). -/
def vectorizable : CType → Bool
  | .bool => false
  | _ => true

/-- `is_integral_v`. -/
def isIntegral (t : CType) : Bool := !p.isFloat t

/-- `make_unsigned_t` of libstdc++ (not in /repo): the unsigned type of the same rank for the standard integer types (for `char`: `unsigned char`), for the others
the first unsigned type that is at least as large. -/
def makeUnsigned : CType → CType
  | .char => .uchar | .schar => .uchar | .uchar => .uchar
  | .short => .ushort | .ushort => .ushort
  | .int => .uint | .uint => .uint
  | .long => .ulong | .ulong => .ulong
  | .llong => .ullong | .ullong => .ullong
  | t => (([CType.uchar, .ushort, .uint, .ulong, .ullong] : List CType).find? (fun u => p.sizeOf t ≤ p.sizeOf u)).getD .ullong

/-- `make_signed_t` of an unsigned type. -/
def makeSigned : CType → CType
  | .uchar => .schar | .ushort => .short | .uint => .int | .ulong => .long | .ullong => .llong
  | t => t

/-- `safe_make_signed_t` (simd.h:2852-2863). -/
def safeMakeSigned (t : CType) : CType := if isIntegral p t then makeSigned (makeUnsigned p t) else t

/-- `__static_simd_cast_return_type<_Tp, _Up, _Ap>::type` (simd.h:2826-2880), with `_GLIBCXX_SIMD_FIX_P2TS_ISSUE65` and `66` defined (simd_detail.h:314-320);
`none`: no specialization matches, the primary template is incomplete.  A mask as `_Tp` delegates to the simd type. -/
def returnType (T : Target Tag) (u : CType) (a : Tag) : Option (CType × Tag) :=
  match T with
  | .mask t b => if sizeV p t b = sizeV p u a then some (t, b) else none
  | .simd t b => if sizeV p t b = sizeV p u a then some (t, b) else none
  | .elem t =>
    if !vectorizable t then none
    else if t = u then some (t, a)
    else if isIntegral p u && isIntegral p t && decide (safeMakeSigned p u = safeMakeSigned p t) then some (t, a)
    else some (t, .fixed (sizeV p u a))

/-- `__value_type_or_identity_t` (simd.h:320-331): `value_type` of `simd_mask` is `bool` (simd.h:4292). -/
def valueTypeOrIdentity : Target Tag → CType
  | .elem t => t
  | .simd t _ => t
  | .mask _ _ => .bool

/-- `static_simd_cast<T>(const simd<u, a>&)` (simd.h:2881-2897): the type it returns. -/
def staticCast (T : Target Tag) (u : CType) (a : Tag) : Option (CType × Tag) := returnType p T u a

/-- `__proposed::static_simd_cast<T>(const simd_mask<u, a>&)` (simd.h:2899-2909): the mask type of the same parameters. -/
def staticCastMask (T : Target Tag) (u : CType) (a : Tag) : Option (CType × Tag) := returnType p T u a

/-- `simd_cast<T>(const simd<u, a>&)` (simd.h:2911-2917). -/
def simdCast (T : Target Tag) (u : CType) (a : Tag) : Option (CType × Tag) :=
  if Narrowing.valuePreserving p u (valueTypeOrIdentity T) then staticCast p T u a else none

/-- `__proposed::simd_cast<T>(const simd_mask<u, a>&)` (simd.h:2919-2928). -/
def simdCastMask (T : Target Tag) (u : CType) (a : Tag) : Option (CType × Tag) :=
  if Narrowing.valuePreserving p u (valueTypeOrIdentity T) then staticCastMask p T u a else none

/-- The types of non-type template parameters that occur below. -/
inductive ParamTy where
  | int | sizeT
  deriving DecidableEq

/-- Deduction of a non-type template parameter declared with type `declared` from an argument of a template whose parameter has type `int` (`_Fixed<int>`,
simd.h:90-91, 137-138): it fails if the types differ ([temp.deduct.type]). -/
def deduce (declared : ParamTy) (n : Nat) : Option Nat := if declared = .int then some n else none

/-- `to_native(const fixed_size_simd<t, n>&)` (simd.h:3027-3036): `int _Np`; the type of the result. -/
def toNative (τ : Abi.Target) (t : CType) (n : Nat) : Option (CType × Tag) := do
  let m ← deduce .int n
  if m = sizeV p t (Abi.native τ (elemOf p t)) then pure (t, Abi.native τ (elemOf p t)) else none

/-- `to_native(const fixed_size_simd_mask<t, n>&)` (simd.h:3038-3044): `size_t _Np`. -/
def toNativeMask (τ : Abi.Target) (t : CType) (n : Nat) : Option (CType × Tag) := do
  let m ← deduce .sizeT n
  if m = sizeV p t (Abi.native τ (elemOf p t)) then pure (t, Abi.native τ (elemOf p t)) else none

/-- `to_compatible(const simd<t, fixed_size<n>>&)` (simd.h:3047-3055): `size_t _Np`. -/
def toCompatible (τ : Abi.Target) (t : CType) (n : Nat) : Option (CType × Tag) := do
  let m ← deduce .sizeT n
  if m = sizeV p t (Abi.compatible τ (elemOf p t)) then pure (t, Abi.compatible τ (elemOf p t)) else none

/-- The value of `to_fixed_size(const simd<t, a>&)` (simd.h:3007-3015): the generator constructor with `x[i]`. -/
def toFixedSizeV {α : Type} (τ : Abi.Target) (T : Elem) (n : Nat) (zero : α) (x : List α) : Option (Tuple.Tup α) :=
  Tuple.generator (Tuple.regs τ T n) zero (fun (i : Nat) => Native.get x i)

/-- The value of `to_native(const fixed_size_simd<t, n>&)` (simd.h:3029-3036), `to_compatible` (simd.h:3047-3055): `x` is stored to a local array of `n` elements (indeterminate before) and
loaded from it.  The alignment promised is the subject of `Align.toNative`. -/
def toNativeV {α : Type} (τ : Abi.Target) (T : Elem) (g : StdSimd.Geo) (zero : α) (junk : Nat → α) (x : Tuple.Tup α) : Option (List α) := do
  let mem ← Tuple.store (Native.Xfer.of τ T true) (id : α → α) (Tuple.regs τ T g.size) x (fun (i : Nat) => if i < g.size then some (junk i) else none) 0
  Native.load (Native.Xfer.of τ T true) (id : α → α) zero g mem 0

end StdSimd.CastType
