import Verif.Model.Native
import Verif.Model.FixedMask
/-!
# Model of `split<simd_mask>(simd_mask)` (experimental/bits/simd.h:3773-3813)

Simplifications: `static_simd_cast` between masks of equal size (`_Parts == 1`) is the conversion through the bits of the mask
(simd_builtin.h:2690-2747; the x86 sequences that implement it are modelled in `Model/MaskVec` and proved equal to it there).  The
last branch (`_V::size() > 64`) exists for no simd type, because `simd_mask` objects have at most 64 lanes
(`BitMask` with more words fails the `static_assert` of `_M_to_bitset`, simd.h:1045): it is `none` here.
-/
namespace StdSimd.MaskSplit

/-- The ABI of a mask: one native object, or `fixed_size<n>` (simd_fixed_size.h:1860-1861). -/
inductive MAbi where
  | native (g : Geo)
  | fixed (n : Nat)
  deriving DecidableEq

/-- `simd_size_v` (simd.h:2705-2729). -/
def MAbi.size : MAbi → Nat
  | native g => g.size
  | fixed n => n

/-- `_MaskMember` (simd_scalar.h:96, simd_builtin.h:995-996, 1110, simd_fixed_size.h:1861). -/
abbrev Data : MAbi → Type
  | .native g => Native.MaskM g
  | .fixed n => FixedMask.Member n

/-- Abstraction: the lanes of a mask object. -/
def lanes : (a : MAbi) → Data a → List Bool
  | .native g, k => Native.maskLanes g k
  | .fixed _, k => BitMask.lanes k

/-- `_S_to_bits` (simd_scalar.h:638-640, simd_builtin.h:2621-2634, simd_x86.h:4116-4240, simd_fixed_size.h:1894-1902). -/
def toBits : (a : MAbi) → Data a → BitMask a.size true
  | .native g, k => Native.maskToBits g k
  | .fixed _, k => FixedMask.toBits k

/-- `_S_from_bitmask` (simd_scalar.h:655-659, simd_builtin.h:2788-2794, simd_x86.h:4432-4436, simd_fixed_size.h:1915-1919). -/
def fromBitmask : (a : MAbi) → BitMask a.size true → Option (Data a)
  | .native g, k => Native.maskOfBits g k
  | .fixed _, k => some k

/-- `simd_mask(_BitsetInit, bitset<size()>)` (simd.h:4518-4521) applied to an `unsigned long long`: the `bitset` constructor keeps
the first `size()` bits, `_SanitizedBitMask` is made from the `bitset` (simd.h:1003: `to_ullong()`). -/
def ofBitset (a : MAbi) (w : BitVec 64) : Option (Data a) :=
  fromBitmask a (BitMask.ofULL a.size true ((w.setWidth a.size).setWidth 64))

/-- `__to_bitset()` (simd.h:4326-4329) with `_M_to_bitset` (simd.h:1043-1047, static_assert on one word). -/
def toBitset (a : MAbi) (k : Data a) : Option (BitVec a.size) :=
  (toBits a k).toULL.map (fun v => v.setWidth a.size)

/-- `__is_avx_abi` (simd.h:571-581) of a vector mask: `_VecBuiltin` with more than 16 and at most 32 bytes. -/
def isAvx : MAbi → Bool
  | .native (.vec w n _) => decide (16 < n * (w / 8) ∧ n * (w / 8) ≤ 32)
  | _ => false

/-- `__is_sse_abi` (simd.h:561-569): `_VecBuiltin` with at most 16 bytes. -/
def isSse : MAbi → Bool
  | .native (.vec w n _) => decide (n * (w / 8) ≤ 16)
  | _ => false

/-- `__lo128`, `__hi128` (simd.h:2128-2139): the two halves of the register. -/
def halves : (a b : MAbi) → Data a → Option (List (Data b))
  | .native (.vec w _ f), .native (.vec w' _ _), k =>
    if h : w = w' then
      let r : VMask w := k
      let lo : VMask w := r.take (f / 2)
      let hi : VMask w := r.drop (f / 2)
      some [(h ▸ lo : VMask w'), (h ▸ hi : VMask w')]
    else none
  | _, _, _ => none

/-- `split<_V>(simd_mask)` (simd.h:3779-3813); `a` is the ABI of the argument, `b` that of the parts; `_Parts` is
`size(a) / size(b)` (simd.h:3776). -/
def split (a b : MAbi) (x : Data a) : Option (List (Data b)) :=
  let parts := a.size / b.size
  if h : a = b then some [h ▸ x]
  else if parts = 1 then (fromBitmask b (BitMask.ofULL b.size true (((toBits a x).toULL.getD 0).setWidth 64))).map (fun v => [v])
  else if parts = 2 ∧ isSse b = true ∧ isAvx a = true then halves a b x
  else if b.size ≤ 64 then
    (toBitset a x).bind (fun bits =>
      (List.range parts).mapM (fun i => ofBitset b ((bits >>> (i * b.size)).setWidth 64)))
  else none

end StdSimd.MaskSplit
