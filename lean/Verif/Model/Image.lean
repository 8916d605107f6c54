import Verif.Model.Align
import Verif.Model.Tuple
/-!
# Model of the object representation of `fixed_size` objects

Bytes of objects; `none` is a byte with an indeterminate value (padding of a structure).
-/
namespace StdSimd.Image
open Abi Align Tuple Native

variable {α : Type}

/-- Object representation of the element type: `s` bytes that determine the value (any byte order). -/
structure Rep (α : Type) (s : Nat) where
  enc : α → List (BitVec 8)
  dec : List (BitVec 8) → α
  len : ∀ a, (enc a).length = s
  inv : ∀ a, dec (enc a) = a

abbrev Bytes := List (Option (BitVec 8))

/-- Padding up to byte `n`. -/
def padTo (n : Nat) (b : Bytes) : Bytes := b ++ List.replicate (n - b.length) none

/-- The bytes of `_SimdTupleData` (simd_fixed_size.h:292-322) with members of the sizes and alignments in the first argument and the bytes
in the second: `first` at offset 0, `second` at the next multiple of its alignment, padding up to a multiple of the alignment of the
structure. -/
def tupleImage : List (Nat × Nat) → List Bytes → Bytes
  | [(b, a)], [r] => padTo (alignUp b a) r
  | (b, a) :: p :: ps, r :: rs =>
    padTo (layout ((b, a) :: p :: ps)).size (padTo (alignUp b (layout (p :: ps)).align) r ++ tupleImage (p :: ps) rs)
  | _, _ => []

/-- The bytes of the `_SimdMember` of `fixed_size<n>` (simd_fixed_size.h:1213, 1008-1029); elements of a vector register lie in order of
the index (GNU vector types).  `al` is the alignment of the element type in a structure. -/
def image (t : Target) (T : Elem) (al n : Nat) (R : Rep α T.size) (x : Tup α) : Bytes :=
  tupleImage ((storage t T n).map fun a => (regBytes t T a, regAlign t T al a)) (x.map fun r => (r.flatMap R.enc).map some)

/-- `operator array<_Tp, _Np>()` (simd_fixed_size.h:1233-1241): `memcpy` of `sizeof(array<_Tp, _Np>)` bytes of the `_SimdMember`.  `none`:
the `static_assert` fails, or a byte of the array is indeterminate. -/
def toArray {s : Nat} (R : Rep α s) (n : Nat) (im : Bytes) : Option (List α) :=
  if s * n ≤ im.length then do
    let bs ← (im.take (s * n)).mapM id
    pure ((List.range n).map fun i => R.dec ((bs.drop (s * i)).take s))
  else none

/-- `_CommonImplBuiltin::_S_store`, `_CommonImplX86::_S_store` of `n` elements to the address of an object (simd_builtin.h:1313-1330,
simd_x86.h:470-535), as in `frexp` (simd_math.h:668): the `src.length` first bytes of the object are replaced.  `none`: bytes after the
object are written. -/
def storeTo (src : List (BitVec 8)) (im : Bytes) : Option Bytes :=
  if src.length ≤ im.length then some (src.map some ++ im.drop src.length) else none

/-- The element at byte `p`. -/
def readElem {s : Nat} (R : Rep α s) (im : Bytes) (p : Nat) : Option α := do
  let bs ← ((im.drop p).take s).mapM id
  if bs.length = s then some (R.dec bs) else none

/-- The elements of the `_SimdMember` with the bytes `im`: for every register, the elements `first[0]`, `first[1]`, ... (simd_fixed_size.h:
631-647, without padding elements). -/
def readLanes (t : Target) (T : Elem) (al n : Nat) (R : Rep α T.size) (im : Bytes) : Option (List α) :=
  (((storageLayout t T al n).offsets.zip (storage t T n)).flatMap fun (p : Nat × Tag) =>
    (List.range (size T p.2)).map (fun j => p.1 + T.size * j)).mapM (readElem R im)

end StdSimd.Image
