import Verif.Model.Multi
import Verif.Model.MaskSplit
/-!
# Model: programs on objects of several element types and ABIs

As `Model/Multi.lean`, with any ABI tag for each type: `simd_abi::scalar`, the native ABIs, `fixed_size`.
-/
namespace StdSimd.SimdClass
open Spec Spec.Program Spec.Control Spec.Multi Native MaskSplit

section impl
variable {K : Kind} {β : Type}

/-- The ABI of a tag, with its register geometry (simd_builtin.h:950-1010, simd_scalar.h:60-100, simd_fixed_size.h:1190-1210). -/
def shape (t : Abi.Target) (T : Abi.Elem) : Abi.Tag → MAbi
  | .fixed n => .fixed n
  | a => .native (Geo.ofTag t T a)

/-- The implementation classes of an ABI (`_Abi::_SimdImpl`, `_Abi::_MaskImpl`: simd_scalar.h:84-85, simd_builtin.h:952-970, 1092-1106,
simd_fixed_size.h:1197-1198). -/
def abiImpl (C : Cfg K β) (t : Abi.Target) (T : Abi.Elem) : MAbi → Impl K β
  | .native g => nativeImpl C g
  | .fixed n => fixedImpl C (Tuple.regs t T n) n

/-- The functions of `Model/Control.lean` for an ABI; `p`, `wide` choose the mask functions of native ABIs. -/
def abiRed (C : Cfg K β) (t : Abi.Target) (T : Abi.Elem) (A : Arith K) (p : VecPath) (wide c : Bool) :
    (s : MAbi) → ((abiImpl C t T s).M → Bool) → RedImpl (abiImpl C t T s)
  | .native g, isConst => nativeRed C t T.size A p wide g isConst
  | .fixed n, isConst => fixedRed C t T.size A c (Tuple.regs t T n) n isConst

/-- The registers of an object: one, or those of the `_SimdTuple`. -/
def abiRegs (t : Abi.Target) (T : Abi.Elem) : MAbi → List Geo
  | .native g => [g]
  | .fixed n => Tuple.regs t T n

/-- The data of an object as registers. -/
def toRegs (C : Cfg K β) (t : Abi.Target) (T : Abi.Elem) : (s : MAbi) → (abiImpl C t T s).V → Tuple.Tup K.Bits
  | .native _, (x : List K.Bits) => [x]
  | .fixed _, (x : Tuple.Tup K.Bits) => x

/-- An object from registers: native objects have one. -/
def ofRegs (C : Cfg K β) (t : Abi.Target) (T : Abi.Elem) : (s : MAbi) → Tuple.Tup K.Bits → Option (abiImpl C t T s).V
  | .native _, [x] => some (x : List K.Bits)
  | .native _, _ => none
  | .fixed _, x => some (x : Tuple.Tup K.Bits)

/-- The data of a mask. -/
def toData (C : Cfg K β) (t : Abi.Target) (T : Abi.Elem) : (s : MAbi) → (abiImpl C t T s).M → Data s
  | .native _, k => k
  | .fixed _, k => k

@[inherit_doc toData] def ofData (C : Cfg K β) (t : Abi.Target) (T : Abi.Elem) : (s : MAbi) → Data s → (abiImpl C t T s).M
  | .native _, k => k
  | .fixed _, k => k

end impl

/-- `_MaskImpl::_S_convert(simd_mask)`, used by `static_simd_cast` and `resizing_simd_cast` of masks (simd.h:2899-2909, 2988-2995): to `fixed_size`
through `_S_to_bits` (simd_fixed_size.h:1905-1912); to `scalar` element 0 (simd_scalar.h:648-651); to bit masks (simd_builtin.h:2727-2742); to vector
masks by `_S_to_maskvector` (2743-2746; 2546-2617; for the x86 sequences see `Model/MaskVec`).  Reading the bits of a bit mask below its size does not need
the sanitizing done here. -/
def maskCast : (a b : MAbi) → Data a → Option (Data b)
  | a, .fixed m, k => Resize.fixed m (MaskSplit.toBits a k)
  | .fixed n, .native .scalar, k => BitMask.get (n := n) (s := true) k 0
  | .native g, .native .scalar, k => nmGet g k 0
  | .fixed n, .native (.vec w _ f), k => VMask.ofBits w f (n := n) (s := true) k
  | .native .scalar, .native (.vec w _ f), (k : Bool) => some (VMask.ofBool w f k)
  | .native (.vec _ n _), .native (.vec w' _ f'), k => some (VMask.ofVector w' f' n k)
  | .native (.bitmask _ _), .native (.vec w _ f), k => VMask.ofBits w f (KMask.toBits k)
  | .fixed n, .native (.bitmask m _), k => (BitMask.toULL (n := n) (s := true) k).map (Resize.bits m)
  | .native .scalar, .native (.bitmask m _), (k : Bool) => some (Resize.bits m (BitVec.ofBool k))
  | .native (.vec _ n _), .native (.bitmask m _), k => (VMask.toBits n k).toULL.map (Resize.bits m)
  | .native (.bitmask n _), .native (.bitmask m _), k => some (Resize.bits m (k : BitVec (kBits n)))

/-- The implicit conversion of masks, for `fixed_size` only (simd.h:4346-4354). -/
def implicitMask : (a b : MAbi) → Data a → Option (Data b)
  | .fixed n, .fixed m, k => sameWidth (m := n) (n := m) k
  | _, _, _ => none

variable {ι : Type} {K : ι → Kind} {β : ι → Type}

/-- The implicit conversion of values, for `fixed_size` only (simd.h:4925-4939). -/
def implicitVal {α γ : Type} (c : Convert.Ctx α γ) (t : Abi.Target) (T U : Abi.Elem) : (a b : MAbi) → Tuple.Tup α → Option (Tuple.Tup γ)
  | .fixed n, .fixed m, x => if n = m then Convert.implicitCvt c t T U n x else none
  | _, _, _ => none

/-- The conversions between types with the ABI tags `tag`: `static_simd_cast` (simd.h:2881-2909) and the implicit conversions (4925-4939, 4346-4354),
which require objects of the same size; `resizing_simd_cast` (2957-2995). -/
def abiCasts (t : Abi.Target) (T : ι → Abi.Elem) (tag : ι → Abi.Tag) (C : ∀ a, Cfg (K a) (β a)) (ctx : ∀ a b, Convert.Ctx (K a).Bits (K b).Bits)
    (same ident : ι → ι → Bool) : Casts (fun a => abiImpl (C a) t (T a) (shape t (T a) (tag a))) where
  val i a b x :=
    (if i then implicitVal (ctx a b) t (T a) (T b) (shape t (T a) (tag a)) (shape t (T b) (tag b)) (toRegs (C a) t (T a) _ x)
      else Convert.staticSimdCast (ctx a b) t (T a) (T b) (same a b) (ident a b) (tag a) (tag b) (toRegs (C a) t (T a) _ x)).bind (ofRegs (C b) t (T b) _)
  mask i a b k :=
    (if i then implicitMask (shape t (T a) (tag a)) (shape t (T b) (tag b)) (toData (C a) t (T a) _ k)
      else if (shape t (T a) (tag a)).size = (shape t (T b) (tag b)).size then maskCast _ _ (toData (C a) t (T a) _ k)
      else none).map (ofData (C b) t (T b) _)
  maskResize a b k := (maskCast _ _ (toData (C a) t (T a) _ k)).map (ofData (C b) t (T b) _)
  resize a b h x :=
    (resizeRegs 0#(K b).width (tag a == tag b) (match tag a with | .fixed _ => true | _ => false) (shape t (T a) (tag a)).size
      (shape t (T b) (tag b)).size (abiRegs t (T b) (shape t (T b) (tag b))) (recast h (toRegs (C a) t (T a) _ x))).bind (ofRegs (C b) t (T b) _)

end StdSimd.SimdClass
