import Verif.Model.SimdClass
/-!
# The implementation classes of the native ABIs, as used by `simd` and `simd_mask`

`_SimdImplScalar`/`_MaskImplScalar`, `_SimdImplBuiltin`/`_MaskImplBuiltin`, `_SimdImplX86`/`_MaskImplX86`: `simd<T, Abi>` is one register
(`Native`), its mask is a `bool`, a vector mask (`VMask`) or a bit mask (`KMask`).  Unlike in `fixed_size` objects, masks keep whatever the operations
leave in their padding.
-/
namespace StdSimd.SimdClass
open Spec Spec.Program Native

/-- `_MaskImpl::_S_broadcast` (simd_scalar.h:624-627, simd_builtin.h:2661-2667, simd_x86.h:4268-4276). -/
def nmBroadcast : (g : Geo) → Bool → MaskM g
  | .scalar, b => (b : Bool)
  | .vec w n f, b => VMask.broadcast w n f b
  | .bitmask n _, b => KMask.broadcast n b

/-- `_MaskImpl::_S_bit_not` (simd_scalar.h:694-695, simd_builtin.h:2809-2818, simd_x86.h:4755-4774). -/
def nmNot : (g : Geo) → MaskM g → MaskM g
  | .scalar, (k : Bool) => (!k : Bool)
  | .vec _ n f, k => VMask.not n f k
  | .bitmask _ _, k => KMask.not k

/-- `_S_bit_and`/`_S_logical_and`, `_S_bit_or`/`_S_logical_or`, `_S_bit_xor` (simd_scalar.h:688-704, simd_builtin.h:2795-2836,
simd_x86.h:4715-4834). -/
def nmBin (o : MOp) : (g : Geo) → MaskM g → MaskM g → MaskM g
  | .scalar, (x : Bool), (y : Bool) => (match o with | .and => x && y | .or => x || y | .xor => x != y : Bool)
  | .vec _ _ _, x, y => match o with | .and => VMask.and x y | .or => VMask.or x y | .xor => VMask.xor x y
  | .bitmask _ _, x, y => match o with | .and => KMask.and x y | .or => KMask.or x y | .xor => KMask.xor x y

/-- `_MaskImpl::_S_set` (simd_scalar.h:706-712, simd_builtin.h:2838-2862). -/
def nmSet : (g : Geo) → MaskM g → Nat → Bool → MaskM g
  | .scalar, _, _, b => (b : Bool)
  | .vec _ _ _, k, i, b => VMask.set k i b
  | .bitmask _ _, k, i, b => KMask.set k i b

/-- `_MaskImpl::_S_masked_assign` (simd_scalar.h:715-720, simd_builtin.h:2864-2870, simd_x86.h:4838-4846). -/
def nmAssign : (g : Geo) → MaskM g → MaskM g → MaskM g → MaskM g
  | .scalar, (k : Bool), (x : Bool), (y : Bool) => (if k then y else x : Bool)
  | .vec _ _ _, k, x, y => VMask.maskedAssign k x y
  | .bitmask _ _, k, x, y => KMask.maskedAssign k x y

/-- No element of the register (no bit of the mask type) is padding. -/
def Exact : Geo → Prop
  | .scalar => True
  | .vec _ n f => n = f
  | .bitmask n _ => n = kBits n

variable {K : Kind} {β : Type}

/-- The implementation classes of a native ABI with register geometry `g`. -/
def nativeImpl (C : Cfg K β) (g : Geo) : Impl K β where
  V := List K.Bits
  M := MaskM g
  size := g.size
  broadcast a := Native.broadcast g a
  generator f := Id.run (Native.generator (m := Id) g 0#K.width (fun i => pure (f i)))
  un o x := C.R.un o g x
  bin o x y := C.R.bin o g x y
  shift l x s := C.R.shift l g x s
  f1 o x := C.R.fn.f1 o g x
  f2 o x y := C.R.fn.f2 o g x y
  f3 o x y z := C.R.fn.f3 o g x y z
  t1 o x := C.R.fn.t1 o g x
  t2 o x y := C.R.fn.t2 o g x y
  cmp o x y := Compare.compare K (C.ctx g) o g x y
  negate x := Native.classify isZero g x
  maskedAssign k v x := some (Native.maskedAssign g (hintOf (C.c 0) g k) k v x)
  maskedCassign o k v x := Native.maskedCassign g (hintOf (C.c 0) g k) k v x (regBin C.R o g)
  maskedUnary o k v := Native.maskedUnary g (hintOf (C.c 0) g k) k v (regUn C.R o g)
  set x i a := Native.set x i a
  load mem b := Native.load C.xfer C.ld 0#K.width g mem b
  store x mem b := Native.store C.xfer C.st g x mem b
  maskedLoad x k mem b := Native.maskedLoad (C.path g) C.ld g x k mem b
  maskedStore x mem b k := Native.maskedStore (C.path g) C.st C.junk g x mem b k
  mbroadcast := nmBroadcast g
  mnot := nmNot g
  mbin o := nmBin o g
  mset := nmSet g
  mmaskedAssign := nmAssign g

end StdSimd.SimdClass
