import Verif.Model.Native
/-!
# Model of masked stores that convert

`_SimdImplBuiltin::_S_masked_store` (simd_builtin.h:1553-1632) and its replacement on x86 (simd_x86.h:1228-1301): which of the
implementations of `where(k, v).copy_to(mem)` is used for elements of type `_Tp` and memory of type `_Up`, and how the register and the
mask are cut into pieces when the converted values do not fit into one register.
-/
namespace StdSimd.Native
open Abi
variable {α β : Type}

/-- The `__have_*` constants the conversion code looks at, besides those in `Abi.Target`. -/
structure CvtFeat where
  /-- `_GLIBCXX_SIMD_X86INTRIN` -/
  x86 : Bool
  ssse3 : Bool
  sse41 : Bool
  dq : Bool

/-- `__converts_via_decomposition_v<_From, _To, toSize>` (simd_builtin.h:1222-1230, simd_x86.h:437-466). -/
def viaDecomposition (t : Target) (q : CvtFeat) (From To : Elem) (toSize : Nat) : Bool :=
  if !q.x86 then From.size != To.size
  else if !From.fp && !To.fp && From.size == 8 && toSize == 16 then
    (To.size == 2 && !q.ssse3) || (To.size == 1 && !t.avx512f)
  else if From.fp && !To.fp then
    ((From.size == 4 || From.size == 8) && To.size == 8 && !q.dq) || (From.size == 8 && To.size == 4 && !q.sse41 && toSize == 16)
  else if !From.fp && To.fp && From.size == 8 && !q.dq then
    (To.size == 4 && toSize == 16) || (To.size == 8 && decide (toSize < 64))
  else false

/-- The mask `_UAbi::_MaskImpl::_S_convert<_Up>(part)` (simd_builtin.h:2704-2727) for the piece of the mask `k` that starts at element
`off` and consists of `len` elements resp. bits: `__extract_part<i, total>(k.__as_full_vector())` (simd_builtin.h:204-280, simd.h:2346-2355,
2474-2476), or the whole mask with `off = 0`.  `g` is the ABI of `k`, `u` is `_UAbi`.  Simplification: the conversion of vector masks is given
element by element (its instruction sequences are `MaskVec.vecToVec`, `MaskVec.bitsToVec`); `none`: no such conversion. -/
def partMask : (g u : Geo) → MaskM g → (off len : Nat) → Option (MaskM u)
  | .vec w _ _, .vec w' _ f', (k : VMask w), off, len =>
    some ((List.range f').map (fun j => VMask.elem w' ((((k.drop off).take len)[j]?).getD 0#w).msb) : VMask w')
  | .vec w _ _, .bitmask m _, (k : VMask w), off, len => KMask.ofBits (VMask.toBits m ((k.drop off).take len))
  | .bitmask _ _, .vec w' _ f', k, off, len =>
    some ((List.range f').map (fun j => VMask.elem w' (decide (j < len) && (BitVec.ushiftRight k off).getLsbD j)) : VMask w')
  | .bitmask _ _, .bitmask m _, k, off, _ => some ((BitVec.ushiftRight k off).setWidth (kBits m) : KMask m)
  | _, _, _, _, _ => none

/-- The register of `_UAbi` with the converted elements of `v` from element `off` on: `__convert<_UW>(v)` resp. `__converted[i]` of
`__convert_all<_UV, _NAllStores>(v)` (simd_builtin.h:555-798; that conversions act on elements is property C21). -/
def partReg (cvt : α → β) (junk : β) (u : Geo) (v : List α) (off : Nat) : List β :=
  (List.range u.full).map (fun j => ((v[off + j]?).map cvt).getD junk)

/-- `_S_masked_store_nocvt` of one piece: elements of `v` from `voff` on, elements (bits) of `k` from `koff` on, to `mem + moff`
(simd_builtin.h:1609-1624). -/
def storePiece (p : MaskedPath) (cvt : α → β) (junk : β) (g u : Geo) (v : List α) (k : MaskM g) (voff koff len moff : Nat) (mem : Mem β) :
    Option (Mem β) := do
  let kk ← partMask g u k koff len
  maskedStore p (fun b : β => b) junk u (partReg cvt junk u v voff) mem moff kk

/-- Number of elements resp. bits of `__k.__as_full_vector()` (simd.h:2352-2355, 2466-2476). -/
def maskFull : Geo → Nat
  | .scalar => 1
  | .vec _ _ f => f
  | .bitmask n _ => kBits n

/-- The first element resp. bit of `__extract_part<i, total>(k.__as_full_vector())` (simd_builtin.h:214-215, 279). -/
def partOff (g : Geo) (i total : Nat) : Nat :=
  match g with
  | .bitmask _ _ => i * maskFull g / total
  | g => i * (maskFull g / total)

/-- The converting branch of `_S_masked_store` (simd_builtin.h:1577-1625); `c.max` is `__max_store_size`, `u` is the ABI
`deduce_t<_Up, _UW_size>` and `p` the way in which `_S_masked_store_nocvt` selects the elements. -/
def maskedStoreConvert (c : Xfer) (p : MaskedPath) (cvt : α → β) (junk : β) (g u : Geo) (v : List α) (mem : Mem β) (base : Nat)
    (k : MaskM g) : Option (Mem β) :=
  let n := g.size
  let uw := min n (c.max / c.up)
  if u.size ≠ uw then none
  else if uw = n then storePiece p cvt junk g u v k 0 0 (maskFull g) base mem
  else if uw * c.up ≠ c.max then none                                          -- static_assert
  else do
    let nFull := n / uw
    let nAll := divRoundup n uw
    let nParts := g.full / uw
    let piece (i : Nat) (m : Mem β) : Option (Mem β) :=
      storePiece p cvt junk g u v k (i * uw) (partOff g i nParts) (maskFull g / nParts) (base + i * uw) m
    let m ← (List.range nFull).foldlM (fun m i => piece i m) mem
    if nAll > nFull then piece nFull m else some m

/-- `_S_masked_store(v, mem, k)` for elements of type `T` and memory of type `U` (simd_x86.h:1228-1301, simd_builtin.h:1553-1632).  `ident`:
the same type. -/
def maskedStoreAny (t : Target) (q : CvtFeat) (T U : Elem) (ident : Bool) (p : MaskedPath) (cvt : α → β) (junk : α) (g u : Geo)
    (v : List α) (mem : Mem β) (base : Nat) (k : MaskM g) : Option (Mem β) :=
  let c := Xfer.of t U ident
  if q.x86 && (!T.fp && !U.fp && decide (T.size > U.size) && t.avx512f && (decide (T.size ≥ 4) || t.avx512bw)
      && (T.size * g.full == 64 || t.avx512vl)) then
    maskedStore .bits cvt junk g v mem base k
  else if ident || (!T.fp && !U.fp && T.size == U.size) then maskedStore p cvt junk g v mem base k
  else if decide (vecSizeof t U > U.size) && !viaDecomposition t q T U c.max then
    maskedStoreConvert c p cvt (cvt junk) g u v mem base k
  else maskedStore .iter cvt junk g v mem base k

end StdSimd.Native
