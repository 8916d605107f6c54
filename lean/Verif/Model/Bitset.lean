import Verif.Model.MaskSplit
import Verif.Model.Tuple
/-!
# Model: conversions between `std::bitset` and `simd_mask`, `simd`

The "bitset interface" of `simd_mask` (simd.h:4317-4328, 4517-4521), `_BitMask(bitset)` (simd.h:1003-1004), `_M_to_bitset` (simd.h:1042-1047) and
`simd(_BitsetInit, bitset)` (simd.h:5137-5140).  A `bitset<N>` is a `BitVec N`.  `simd_mask(_BitsetInit, ...)` and `__to_bitset` are `MaskSplit.ofBitset` and
`MaskSplit.toBitset`; `ofBitset` takes the value of the `bitset` as `unsigned long long`.
-/
namespace StdSimd.Bitset
open Native MaskSplit

/-- `simd_mask::__from_bitset(bs)` (simd.h:4322-4324): `{__bitset_init, bs}`. -/
def fromBitset (a : MAbi) (bs : BitVec a.size) : Option (Data a) := ofBitset a (bs.setWidth 64)

/-- `simd_mask::__to_bitset()` (simd.h:4326-4328). -/
def toBitset (a : MAbi) (k : Data a) : Option (BitVec a.size) := MaskSplit.toBitset a k

/-- `simd(_BitsetInit, bitset<size()>)` of a native ABI (simd.h:5138-5140): `_M_data()` is zero, then `where(mask_type(__bitset_init, init), *this) = ~*this`
(`_S_complement` simd_builtin.h:1634-1638, simd_scalar.h:200-203; `_S_masked_assign`).  `c`: the compiler knows the mask. -/
def simdNative (w : Nat) (c : Bool) (g : Geo) (bs : BitVec g.size) : Option (List (BitVec w)) := do
  let v : List (BitVec w) := Native.broadcast g 0#w
  let k ← fromBitset (.native g) bs
  pure (Native.maskedAssign g (hintOf c g k) k v (v.map (~~~ ·)))

/-- The same with `fixed_size` (`_S_complement` simd_fixed_size.h:1510-1518, `_S_masked_assign` 1775-1787). -/
def simdFixed (w : Nat) (c : Nat → Bool) (gs : List Geo) (n : Nat) (bs : BitVec n) : Option (Tuple.Tup (BitVec w)) := do
  let v : Tuple.Tup (BitVec w) := Tuple.broadcast gs 0#w
  let k ← fromBitset (.fixed n) bs
  let x ← Tuple.unary (fun (a : BitVec w) => some (~~~a)) gs v
  Tuple.maskedAssign c gs k v x

end StdSimd.Bitset
