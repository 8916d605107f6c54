import Verif.Model.BoolArray
/-!
# Model of the x86 conversions between mask representations

`_MaskImplX86Mixin::_S_to_maskvector` from a bit mask (simd_x86.h:3484-3766) and from a vector mask (simd_x86.h:3768-4112), and the
calls in `_MaskImplBuiltin::_S_convert` (simd_builtin.h:2690-2747) that `static_simd_cast` and `resizing_simd_cast` of masks make
(simd.h:2898-2909, 2986-2994).

A register is a function from byte numbers to bytes.
-/
namespace StdSimd.MaskVec
open X86 BoolArray

/-- The bytes of a register, from the lowest address. -/
abbrev Reg := Nat → BitVec 8

/-- The register with elements `f 0, f 1, ...` of `e` bytes. -/
def ofElems (e : Nat) (f : Nat → BitVec (8 * e)) : Reg := fun j => lane 8 (f (j / e)) (j % e)
/-- Element `i` of a register with elements of `e` bytes. -/
def elem (e : Nat) (r : Reg) (i : Nat) : BitVec (8 * e) := join (8 * e) e (fun t => r (e * i + t))
/-- `__m128i()`. -/
def zero : Reg := fun _ => 0#8

/-! ## instructions -/

/-- `_mm_unpacklo_epi{8,16,32}(a, a)` with elements of `g` bytes; also `__interleave128_lo(a, a)` (simd_x86.h:60-95). -/
def unpacklo (g : Nat) (a : Reg) : Reg := fun i => a (i / g / 2 * g + i % g)
/-- `_mm_unpackhi_epi*(a, a)`. -/
def unpackhi (g : Nat) (a : Reg) : Reg := fun i => a (8 + i / g / 2 * g + i % g)
/-- `_mm256_unpacklo_epi8(a, a)`, `_mm256_unpacklo_ps(a, a)`: in each 128-bit half. -/
def unpacklo256 (g : Nat) (a : Reg) : Reg := fun i => a (16 * (i / 16) + (i % 16 / g / 2 * g + i % g))
/-- `__concat(lo, hi)` of two 128-bit registers. -/
def concat (lo hi : Reg) : Reg := fun i => if i < 16 then lo i else hi (i - 16)
/-- `__hi128`, `__hi256` (`h` bytes per half). -/
def hi (h : Nat) (a : Reg) : Reg := fun i => a (h + i)
/-- `__zero_extend` of a 128-bit register. -/
def zeroExtend (a : Reg) : Reg := fun i => if i < 16 then a i else 0#8
/-- `_mm256_castsi128_si256`: the upper half is undefined (`junk`). -/
def cast256 (junk a : Reg) : Reg := fun i => if i < 16 then a i else junk i
/-- `__xzyw` of a 256-bit register (simd_x86.h:303-309): swaps the inner quarters. -/
def xzyw (a : Reg) : Reg := fun i => a ([0, 16, 8, 24].getD (i / 8) 0 + i % 8)

/-- `_mm_packs_epi16(a, b)`. -/
def packs16 (a b : Reg) : Reg := fun i =>
  let s := if i < 8 then a else b
  sat8 (elem 2 s (i % 8))
/-- `_mm_packs_epi32(a, b)`. -/
def packs32 (a b : Reg) : Reg := fun i =>
  let s := if i < 8 then a else b
  lane 8 (sat16 (elem 4 s (i / 2 % 4))) (i % 2)
/-- `_mm256_packs_epi32(a, b)`: in each 128-bit half. -/
def packs32x256 (a b : Reg) : Reg := fun i =>
  if i < 16 then packs32 a b i else packs32 (hi 16 a) (hi 16 b) (i - 16)
/-- `_mm256_packs_epi16(a, b)`: in each 128-bit half. -/
def packs16x256 (a b : Reg) : Reg := fun i =>
  if i < 16 then packs16 a b i else packs16 (hi 16 a) (hi 16 b) (i - 16)
/-- `_mm_shuffle_epi8(a, tab)`: a table entry with the high bit set (`-1`, here 128) gives zero. -/
def shuffle8 (tab : List Nat) (a : Reg) : Reg := fun i =>
  let t := tab.getD i 128
  if 128 ≤ t then 0#8 else a (t % 16)
/-- `_mm256_shuffle_epi8(a, tab)`: in each 128-bit half. -/
def shuffle8x256 (tab : List Nat) (a : Reg) : Reg := fun i =>
  let t := tab.getD i 128
  if 128 ≤ t then 0#8 else a (16 * (i / 16) + t % 16)

/-! ## bits to vector (simd_x86.h:3484-3766) -/

/-- `__have_*` of the target. -/
structure Feat where
  sse2 : Bool := true
  ssse3 : Bool
  avx : Bool
  avx2 : Bool
  f : Bool
  vl : Bool
  dq : Bool
  bw : Bool

/-- `_mm*_movm_epi*(k)` and `_mm*_maskz_mov_epi*(k, ~0)`: element `i` is all ones when bit `i` is set. -/
def movm (e : Nat) (k : BitVec 64) : Reg := ofElems e (fun i => ones (k.getLsbD i))

/-- 16 bytes with AVX512F only (simd_x86.h:3505-3513). -/
def bytes16Avx512f (k : BitVec 64) : Reg :=
  let as32 := movm 4 k
  let as16 := xzyw (packs32x256 as32 (hi 32 as32))
  packs16 as16 (hi 16 as16)

/-- 16 bytes with SSSE3 (simd_x86.h:3514-3528). -/
def bytes16Ssse3 (k : BitVec 64) : Reg :=
  let kk : Reg := fun i => if i < 8 then lane 8 k i else 0#8
  let sh := shuffle8 [0, 0, 0, 0, 0, 0, 0, 0, 1, 1, 1, 1, 1, 1, 1, 1] kk
  fun i => ones ((sh i &&& [1#8, 2#8, 4#8, 8#8, 16#8, 32#8, 64#8, 128#8, 1#8, 2#8, 4#8, 8#8, 16#8, 32#8, 64#8, 128#8].getD i 0#8) != 0#8)

/-- 32 bytes with AVX512F only (simd_x86.h:3537-3559). -/
def bytes32Avx512f (k : BitVec 64) : Reg :=
  let as16 : Reg := ofElems 4 (fun i => ((ones (k.getLsbD i) : BitVec 32) >>> 16)
    ||| ((ones ((k >>> 16).getLsbD i) : BitVec 32) <<< 16))
  let y := xzyw (packs16x256 as16 (hi 32 as16))
  xzyw (shuffle8x256 [0, 2, 4, 6, 8, 10, 12, 14, 1, 3, 5, 7, 9, 11, 13, 15,
    0, 2, 4, 6, 8, 10, 12, 14, 1, 3, 5, 7, 9, 11, 13, 15] y)

/-- 32 bytes with AVX2 (simd_x86.h:3560-3577). -/
def bytes32Avx2 (k : BitVec 64) : Reg :=
  let kk : Reg := fun i => if i % 16 < 8 then lane 8 k (i % 16) else 0#8
  let sh := shuffle8x256 [0, 0, 0, 0, 0, 0, 0, 0, 1, 1, 1, 1, 1, 1, 1, 1, 2, 2, 2, 2, 2, 2, 2, 2, 3, 3, 3, 3, 3, 3, 3, 3] kk
  fun i => ones ((sh i &&& [1#8, 2#8, 4#8, 8#8, 16#8, 32#8, 64#8, 128#8, 1#8, 2#8, 4#8, 8#8, 16#8, 32#8, 64#8, 128#8].getD (i % 16) 0#8)
    != 0#8)

/-- At most four bytes (simd_x86.h:3583-3594); `uv` is the size of the result vector type. -/
def bytes4 (np uv : Nat) (k : BitVec 64) : Reg :=
  let x := if np > 7 then k &&& 0x0f#64 else k
  let charMask : BitVec 32 := ((x.setWidth 32 * 0x00204081#32) &&& 0x01010101#32) * 0xff#32
  fun i => if i < min uv 4 then lane 8 charMask i else 0#8

/-- At most seven bytes (simd_x86.h:3595-3606). -/
def bytes7 (np uv : Nat) (k : BitVec 64) : Reg :=
  let x := if np > 7 then k &&& 0x7f#64 else k
  let charMask : BitVec 64 := ((x * 0x40810204081#64) &&& 0x0101010101010101#64) * 0xff#64
  fun i => if i < min uv 8 then lane 8 charMask i else 0#8

/-- 8 shorts with AVX512F only (simd_x86.h:3616-3627). -/
def shorts8Avx512f (k : BitVec 64) : Reg :=
  let as32 := movm 4 k
  packs32 as32 (hi 16 as32)

/-- 16 shorts with AVX512F only (simd_x86.h:3636-3642). -/
def shorts16Avx512f (k : BitVec 64) : Reg :=
  let as32 := movm 4 k
  xzyw (packs32x256 as32 (hi 32 as32))

/-- The portable tail (simd_x86.h:3716-3765), element size `e`, `toN` elements, `w` bytes in the register. -/
def bitsTail (ft : Feat) (e w toN : Nat) (k : BitVec 64) : Reg :=
  let bpe := 8 * e
  if toN = 2 then
    ofElems e (fun i => if i < 2 then -((BitVec.ofBool (k.getLsbD i)).setWidth (8 * e)) else 0#(8 * e))
  else if !ft.avx2 && ft.avx && w == 32 then
    -- `_mm256_cmp_ps/pd(k & table, 0, _CMP_NEQ_UQ)`: a positive (denormal) number differs from zero unless all bits are zero
    ofElems e (fun i => ones ((k.setWidth (8 * e) &&& (1#(8 * e) <<< i)) != 0#(8 * e)))
  else if toN ≤ bpe then
    let bits : Nat → BitVec (8 * e) := fun i => k.setWidth (8 * e) &&& (if i < toN then 1#(8 * e) <<< i else 0#(8 * e))
    if toN < bpe then ofElems e (fun i => ones ((0#(8 * e)).slt (bits i)))
    else ofElems e (fun i => ones (bits i != 0#(8 * e)))
  else
    ofElems e (fun i => ones (((k >>> (bpe * (i / bpe))).setWidth (8 * e) &&& (1#(8 * e) <<< (i % bpe))) != 0#(8 * e)))

/-- `_S_to_maskvector(_SanitizedBitMask<np>)` with `np ≥ 2` outside of constant evaluation (simd_x86.h:3496-3766).  `w` is
`sizeof(_UI)`, `uv` is `sizeof(_UV)`. -/
def bitsToVec (ft : Feat) (e w uv np toN : Nat) (k : BitVec 64) : Reg :=
  let tail := bitsTail ft e w toN k
  let small := if min toN np ≤ 4 then bytes4 np uv k else if min toN np ≤ 7 then bytes7 np uv k else tail
  if e = 1 then
    if w = 16 then
      if ft.bw then movm 1 k
      else if ft.f then bytes16Avx512f k
      else if ft.ssse3 then bytes16Ssse3 k
      else small
    else if w = 32 then
      if ft.bw then movm 1 k
      else if ft.f then bytes32Avx512f k
      else if ft.avx2 then bytes32Avx2 k
      else small
    else movm 1 k
  else if e = 2 then
    if w = 16 then
      if ft.bw then movm 2 k else if ft.f then shorts8Avx512f k else tail
    else if w = 32 then
      if ft.bw then movm 2 k else if ft.f then shorts16Avx512f k else tail
    else movm 2 k
  else if w = 64 then movm e k
  else if ft.dq || ft.vl || ft.f then movm e k
  else tail

/-- The branch for constants (simd_x86.h:3495-3498): `min(toN, np)` elements are generated, the rest is zero. -/
def bitsToVecConst (e np toN : Nat) (k : BitVec 64) : Reg :=
  ofElems e (fun i => if i < min toN np then -((BitVec.ofBool (k.getLsbD i)).setWidth (8 * e)) else 0#(8 * e))

/-! ## vector to vector (simd_x86.h:3768-4112) -/

/-- 128 to 128 bits (simd_x86.h:3805-3880). -/
def sseToSse (ft : Feat) (e e' : Nat) (k : Reg) : Option Reg :=
  if e = 4 ∧ e' = 8 then some (unpacklo 4 k)
  else if e = 2 ∧ e' = 8 then some (unpacklo 4 (unpacklo 2 k))
  else if e = 1 ∧ e' = 8 then some (unpacklo 4 (unpacklo 2 (unpacklo 1 k)))
  else if e = 8 ∧ e' = 4 ∧ ft.sse2 then some (packs32 k zero)
  else if e = 8 ∧ e' = 4 then some (fun i => if i < 8 then k ([4, 12].getD (i / 4) 0 + i % 4) else 0#8)
  else if e = 2 ∧ e' = 4 then some (unpacklo 2 k)
  else if e = 1 ∧ e' = 4 then some (unpacklo 2 (unpacklo 1 k))
  else if e = 8 ∧ e' = 2 then
    if ft.sse2 && !ft.ssse3 then some (packs32 (packs32 k zero) zero)
    else some (fun i => if i < 4 then k ([6, 14].getD (i / 2) 0 + i % 2) else 0#8)
  else if e = 4 ∧ e' = 2 then some (packs32 k zero)
  else if e = 1 ∧ e' = 2 then some (unpacklo 1 k)
  else if e = 8 ∧ e' = 1 ∧ ft.ssse3 then some (shuffle8 [7, 15] k)
  else if e = 8 ∧ e' = 1 then some (packs16 (packs32 (packs32 k zero) zero) zero)
  else if e = 4 ∧ e' = 1 ∧ ft.ssse3 then some (shuffle8 [3, 7, 11, 15] k)
  else if e = 4 ∧ e' = 1 then some (packs16 (packs32 k zero) zero)
  else if e = 2 ∧ e' = 1 then some (packs16 k zero)
  else none

/-- 256 to 256 bits (simd_x86.h:3881-3953). -/
def avxToAvx (ft : Feat) (junk : Reg) (e e' : Nat) (k : Reg) : Option Reg :=
  if e = e' then none
  else if e = e' * 2 then some (cast256 junk (packs16 k (hi 16 k)))
  else if e = e' * 4 then some (cast256 junk (packs16 (packs16 k (hi 16 k)) zero))
  else if e = e' * 8 then some (cast256 junk (shuffle8 [3, 7, 11, 15] (packs16 k (hi 16 k))))
  else if e * 2 = e' then
    let y := xzyw k
    if !ft.avx2 && e == 4 then some (unpacklo256 4 y) else some (unpacklo256 1 y)
  else if e * 4 = e' then
    let y := unpacklo 1 k
    some (concat (unpacklo 2 y) (unpackhi 2 y))
  else if e = 1 ∧ e' = 8 then
    let y := unpacklo 2 (unpacklo 1 k)
    some (concat (unpacklo 4 y) (unpackhi 4 y))
  else none

/-- 128 to 256 bits (simd_x86.h:3954-4039). -/
def sseToAvx (ft : Feat) (e e' : Nat) (k : Reg) : Option Reg :=
  if e = e' then some (zeroExtend k)
  else if e * 2 = e' then some (concat (unpacklo 1 k) (unpackhi 1 k))
  else if e * 4 = e' then
    if ft.avx2 then some (shuffle8x256 [0, 0, 0, 0, 1, 1, 1, 1, 2, 2, 2, 2, 3, 3, 3, 3, 4, 4, 4, 4, 5, 5, 5, 5, 6, 6, 6, 6, 7, 7, 7, 7]
      (concat k k))
    else some (concat (shuffle8 [0, 0, 0, 0, 1, 1, 1, 1, 2, 2, 2, 2, 3, 3, 3, 3] k)
      (shuffle8 [4, 4, 4, 4, 5, 5, 5, 5, 6, 6, 6, 6, 7, 7, 7, 7] k))
  else if e * 8 = e' then
    if ft.avx2 then some (shuffle8x256 [0, 0, 0, 0, 0, 0, 0, 0, 1, 1, 1, 1, 1, 1, 1, 1, 2, 2, 2, 2, 2, 2, 2, 2, 3, 3, 3, 3, 3, 3, 3, 3]
      (concat k k))
    else some (concat (shuffle8 [0, 0, 0, 0, 0, 0, 0, 0, 1, 1, 1, 1, 1, 1, 1, 1] k)
      (shuffle8 [2, 2, 2, 2, 2, 2, 2, 2, 3, 3, 3, 3, 3, 3, 3, 3] k))
  else if e = e' * 2 then some (zeroExtend (packs16 k zero))
  else if e = 8 ∧ e' = 2 then some (zeroExtend (shuffle8 [6, 7, 14, 15] k))
  else if e = 4 ∧ e' = 1 then some (zeroExtend (shuffle8 [3, 7, 11, 15] k))
  else if e = 8 ∧ e' = 1 then some (zeroExtend (shuffle8 [7, 15] k))
  else none

/-- 256 to 128 bits (simd_x86.h:4040-4089). -/
def avxToSse (e e' : Nat) (k : Reg) : Option Reg :=
  if e = e' then some k
  else if e = e' * 2 then some (packs16 k (hi 16 k))
  else if e = e' * 4 then some (packs16 (packs16 k (hi 16 k)) zero)
  else if e = 8 ∧ e' = 1 then some (shuffle8 [3, 7, 11, 15] (packs16 k (hi 16 k)))
  else if e * 2 = e' then some (unpacklo 1 k)
  else if e * 4 = e' then some (unpacklo 1 (unpacklo 1 k))
  else if e * 8 = e' then some (unpacklo 1 (unpacklo 1 (unpacklo 1 k)))
  else none

/-- `_S_to_maskvector(_SimdWrapper)` outside of constant evaluation between registers of 16 or 32 bytes (simd_x86.h:3773-4092):
`s` and `s'` are the sizes of the source and target registers, `n` and `toN` the numbers of lanes. -/
def vecToVec (ft : Feat) (junk : Reg) (s s' e e' n toN : Nat) (k : Reg) : Option Reg :=
  if e = e' ∧ s = s' then
    -- bitcast; `_S_masked` clears the padding of the source when lanes are added
    some (if toN ≤ n then k else fun i => if i < n * e then k i else 0#8)
  else if e = e' then
    -- `__intrin_bitcast<_To>(__k)` (simd.h:1507-1548): with AVX the upper half comes from `__builtin_ia32_ps256_ps`, a cast that
    -- leaves it undefined; otherwise the bytes are copied into a zeroed object
    some (if s < s' then (if ft.avx then cast256 junk k else zeroExtend k) else k)
  else if s' = 16 ∧ s = 16 then sseToSse ft e e' k
  else if s' = 32 ∧ s = 32 then avxToAvx ft junk e e' k
  else if s' = 32 ∧ s = 16 then sseToAvx ft e e' k
  else if s' = 16 ∧ s = 32 then avxToSse e e' k
  else none

end StdSimd.MaskVec
