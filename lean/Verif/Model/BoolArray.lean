import Verif.Model.BitMask
import Verif.Model.Memory
import Verif.Model.KMask
import Verif.Model.X86Int
/-!
# Model of storing masks as arrays of `bool`

`_CommonImplBuiltin::_S_store_bool_array` (simd_builtin.h:1320-1360), `_CommonImplX86::_S_store_bool_array`
(simd_x86.h:537-614) and `_MaskImplX86Mixin`/`_MaskImplX86::_S_store` (simd_x86.h:4551-4682).

Memory is a partial map of bytes; the object representation of `false` is 0 and of `true` is 1 (x86 ABI).
-/
namespace StdSimd.BoolArray
open X86

/-- `_S_store<_Bytes>(x, addr)` (simd_builtin.h:1277-1312, simd_x86.h:470-534): copies the first `n` bytes of the object
representation; `static_assert(sizeof(x) >= _Bytes)` (1281) is the `none` of `bytes[j]?`. -/
def storeBytes (bytes : List (BitVec 8)) (n : Nat) (mem : Mem (BitVec 8)) (addr : Nat) : Option (Mem (BitVec 8)) :=
  (List.range n).foldlM (fun (m : Mem (BitVec 8)) j => do
    let b ← bytes[j]?
    m.write (addr + j) b) mem

/-- The object representation of an integer, little-endian. -/
def bytesOf {W : Nat} (v : BitVec W) : List (BitVec 8) := (List.range (W / 8)).map (lane 8 v)

/-- The object representation of a `bool`. -/
def boolByte (b : Bool) : BitVec 8 := if b then 1#8 else 0#8

/-- `mem[i] = b`. -/
def storeBool (b : Bool) (mem : Mem (BitVec 8)) (addr : Nat) : Option (Mem (BitVec 8)) := mem.write addr (boolByte b)

/-- `__bool2` (simd_builtin.h:1329). -/
def bool2 (bits : BitVec 64) : BitVec 16 := ((bits.setWidth 32 * 0x81#32) &&& 0x0101#32).setWidth 16
/-- `__bool3` (simd_builtin.h:1334). -/
def bool3 (bits : BitVec 64) : BitVec 32 := (bits.setWidth 32 * 0x4081#32) &&& 0x010101#32
/-- `__bool7` (simd_builtin.h:1344-1347). -/
def bool7 (bits : BitVec 64) : BitVec 64 := (bits * 0x40810204081#64) &&& 0x0101010101010101#64
/-- `__bool4` (simd_builtin.h:1352-1355). -/
def bool4 (remaining : Nat) (bits : BitVec 64) : BitVec 32 :=
  let bits := bits.setWidth 32
  let bits := if remaining > 7 then bits &&& 0xf#32 else bits
  (bits * 0x204081#32) &&& 0x01010101#32

variable {n : Nat} {s : Bool}

/-- One iteration of the loop (simd_builtin.h:1339-1358). -/
def baseChunk (x : BitMask n s) (base : Nat) (mem : Mem (BitVec 8)) (i : Nat) : Option (Mem (BitVec 8)) :=
  let offset := i * 4
  let remaining := n - offset
  if 4 < remaining ∧ remaining ≤ 7 then do
    let r ← x.extract offset (n - offset)
    let bits ← r.toULL
    storeBytes (bytesOf (bool7 bits)) remaining mem (base + offset)
  else if 4 ≤ remaining then do
    let r ← x.extract offset (n - offset)
    let bits ← r.toULL
    storeBytes (bytesOf (bool4 remaining bits)) 4 mem (base + offset)
  else some mem

/-- `_CommonImplBuiltin::_S_store_bool_array` (simd_builtin.h:1320-1360). -/
def storeBase (x : BitMask n s) (mem : Mem (BitVec 8)) (base : Nat) : Option (Mem (BitVec 8)) :=
  if n = 1 then do
    let b ← x.get 0
    storeBool b mem base
  else if n = 2 then do
    let bits ← x.toULL
    storeBytes (bytesOf (bool2 bits)) 2 mem base
  else if n = 3 then do
    let bits ← x.toULL
    storeBytes (bytesOf (bool3 bits)) 3 mem base
  else (List.range (divRoundup n 4)).foldlM (baseChunk x base) mem

/-- `_mm*_movm_epi8(bits)` and `1 &` (simd_x86.h:542-553) for a register of `W` bytes. -/
def storeMovm (x : BitMask n s) (mem : Mem (BitVec 8)) (base : Nat) : Option (Mem (BitVec 8)) := do
  let bits ← x.toULL
  let W := if n ≤ 16 then 16 else if n ≤ 32 then 32 else 64
  let movm := (List.range W).map (fun j => if bits.getLsbD j then 0xff#8 else 0#8)
  storeBytes (movm.map (fun b => 1#8 &&& b)) n mem base

/-- `_pdep_u32`, `_pdep_u64` (Intel SDM): the low bits of `src` are put, in order, at the set bits of `mask`. -/
def pdep {W : Nat} (src mask : BitVec W) : BitVec W :=
  join W W (fun j => BitVec.ofBool (mask.getLsbD j && src.getLsbD ((List.range j).countP (fun i => mask.getLsbD i))))

/-- One iteration of the BMI2 loop on x86-64 (simd_x86.h:559-581), where `sizeof(size_t)` is 8. -/
def bmiChunk64 (x : BitMask n s) (base : Nat) (mem : Mem (BitVec 8)) (i : Nat) : Option (Mem (BitVec 8)) :=
  let offset := i * 8
  let todo := min 8 (n - offset)
  if todo = 1 then do
    let b ← x.get offset
    storeBool b mem (base + offset)
  else do
    let r ← x.extract offset (n - offset)
    let bits ← r.toULL
    storeBytes (bytesOf (pdep bits 0x0101010101010101#64)) todo mem (base + offset)

/-- The same on i386, where `sizeof(size_t)` is 4. -/
def bmiChunk32 (x : BitMask n s) (base : Nat) (mem : Mem (BitVec 8)) (i : Nat) : Option (Mem (BitVec 8)) :=
  let offset := i * 4
  let todo := min 4 (n - offset)
  if todo = 1 then do
    let b ← x.get offset
    storeBool b mem (base + offset)
  else do
    let r ← x.extract offset (n - offset)
    let bits ← r.toULL
    storeBytes (bytesOf (pdep (bits.setWidth 32) 0x01010101#32)) todo mem (base + offset)

/-- The BMI2 path (simd_x86.h:554-582). -/
def storeBmi (x64 : Bool) (x : BitMask n s) (mem : Mem (BitVec 8)) (base : Nat) : Option (Mem (BitVec 8)) :=
  if n ≤ 4 then do
    let bits ← x.toULL
    storeBytes (bytesOf (pdep (bits.setWidth 32) 0x01010101#32)) n mem base
  else if x64 then (List.range (divRoundup n 8)).foldlM (bmiChunk64 x base) mem
  else (List.range (divRoundup n 4)).foldlM (bmiChunk32 x base) mem

/-- `_mm_packs_epi32` on one element: signed saturation to 16 bits. -/
def sat16 (a : BitVec 32) : BitVec 16 :=
  if a.toInt < -32768 then 0x8000#16 else if 32767 < a.toInt then 0x7fff#16 else a.setWidth 16
/-- `_mm_packs_epi16` on one element: signed saturation to 8 bits. -/
def sat8 (a : BitVec 16) : BitVec 8 :=
  if a.toInt < -128 then 0x80#8 else if 127 < a.toInt then 0x7f#8 else a.setWidth 8

/-- `_mm256_packs_epi32(a, b)`: works in each 128-bit half separately. -/
def packs256 (a b : List (BitVec 32)) : List (BitVec 16) :=
  ((a.take 4) ++ (b.take 4) ++ ((a.drop 4).take 4) ++ ((b.drop 4).take 4)).map sat16

/-- `__xzyw` (simd_builtin.h: `_mm256_permute4x64_epi64(v, 0xd8)`): swaps the two middle quarters (here of four 16-bit
elements each). -/
def xzyw (a : List (BitVec 16)) : List (BitVec 16) :=
  a.take 4 ++ (a.drop 8).take 4 ++ (a.drop 4).take 4 ++ (a.drop 12).take 4

/-- The 16 bytes of one SSE2 iteration with AVX512F (simd_x86.h:590-602). -/
def bools512 (todo : Nat) (bits : BitVec 32) : List (BitVec 8) :=
  let as32 := (List.range 16).map (fun j => if bits.getLsbD j then 1#32 else 0#32)
  let hi := if todo > 8 then as32.drop 8 else List.replicate 8 0#32
  let as16 := xzyw (packs256 (as32.take 8) hi)
  (as16.take 8 ++ as16.drop 8).map sat8

/-- `_mm_unpacklo_epi{8,16,32}(a, a)` on the bytes of a register, `g` bytes per element. -/
def unpackloSelf (g : Nat) (a : List (BitVec 8)) : List (BitVec 8) :=
  (List.range 16).map (fun i => a.getD (i / g / 2 * g + i % g) 0#8)

/-- The 16 bytes of one SSE2 iteration (simd_x86.h:604-613). -/
def boolsSse2 (bits : BitVec 32) : List (BitVec 8) :=
  let tmp := bytesOf bits ++ List.replicate 12 0#8
  let tmp := unpackloSelf 1 tmp
  let tmp := unpackloSelf 2 tmp
  let tmp := unpackloSelf 4 tmp
  let tmp2 := List.zipWith (fun (a b : BitVec 8) => a &&& b) tmp
    [1#8, 2#8, 4#8, 8#8, 16#8, 32#8, 64#8, 128#8, 1#8, 2#8, 4#8, 8#8, 16#8, 32#8, 64#8, 128#8]
  tmp2.map (fun a => (if a = 0#8 then 0xff#8 else 0#8) + 1#8)

/-- One iteration of the SSE2 loop (simd_x86.h:584-615). -/
def sseChunk (avx512f : Bool) (x : BitMask n s) (base : Nat) (mem : Mem (BitVec 8)) (i : Nat) : Option (Mem (BitVec 8)) := do
  let offset := i * 16
  let todo := min 16 (n - offset)
  let r ← x.extract offset (n - offset)
  let bits ← r.toULL
  storeBytes (if avx512f then bools512 todo (bits.setWidth 32) else boolsSse2 (bits.setWidth 32)) todo mem (base + offset)

/-- Which instructions are available (simd_x86.h:541-613). -/
inductive Path where
  | generic | bwvl | bmi2 (x64 : Bool) | sse2 (avx512f : Bool)
  deriving DecidableEq

/-- `_S_store_bool_array`: `_CommonImplBuiltin` (generic) or `_CommonImplX86` (simd_x86.h:537-614). -/
def store (p : Path) (x : BitMask n s) (mem : Mem (BitVec 8)) (base : Nat) : Option (Mem (BitVec 8)) :=
  match p with
  | .bwvl => storeMovm x mem base
  | .bmi2 x64 => storeBmi x64 x mem base
  | .sse2 avx512f =>
    if 7 < n then (List.range (divRoundup n 16)).foldlM (sseChunk avx512f x base) mem
    else storeBase x mem base
  | .generic => storeBase x mem base

/-- `_MaskImplFixedSize::_S_store` (simd_fixed_size.h:1948-1955). -/
def storeFixed (p : Path) (x : BitMask n true) (mem : Mem (BitVec 8)) (base : Nat) : Option (Mem (BitVec 8)) :=
  if n = 1 then do
    let b ← x.get 0
    storeBool b mem base
  else store p x mem base

/-! ## vector masks on x86 -/

/-- Two 64-bit lanes (simd_x86.h:4590-4595): `mem[0] = -k[1]; mem[1] = -k[3]` with `k` the mask as `int`s. -/
def vec64Sse (v : VMask 64) : List (BitVec 8) := v.map (fun a => boolByte (-(lane 32 a 1) != 0#32))

/-- Up to four 32-bit lanes with SSE2 (simd_x86.h:4598-4610). -/
def vec32Sse (v : VMask 32) : List (BitVec 8) :=
  let p16 := v.map sat16 ++ List.replicate 4 0#16
  let p8 := p16.map sat8 ++ List.replicate 8 0#8
  bytesOf (join 32 4 (fun j => p8.getD j 0#8) &&& 0x01010101#32)

/-- Up to eight 16-bit lanes (simd_x86.h:4623-4630). -/
def vec16Sse (v : VMask 16) : List (BitVec 8) := (v.map (fun (a : BitVec 16) => a >>> 15)).map sat8 ++ List.replicate 8 0#8

/-- 8-bit lanes (simd_x86.h:4632, 4678). -/
def vec8 (v : VMask 8) : List (BitVec 8) := v.map (fun (a : BitVec 8) => a &&& 1#8)

/-- `_mm_movemask_epi8` / `_mm256_movemask_epi8` of up to 32 bytes: the top bit of every byte. -/
def movemask8 (bytes : List (BitVec 8)) : BitVec 32 := join 32 32 (fun j => BitVec.ofBool (bytes.getD j 0#8).msb)

/-- Up to four 64-bit lanes, AVX (simd_x86.h:4638-4650). -/
def vec64Avx (avx2 : Bool) (v : VMask 64) : List (BitVec 8) :=
  let bytes := v.flatMap bytesOf
  let m := if avx2 then movemask8 bytes else movemask8 (bytes.take 16) ||| (movemask8 (bytes.drop 16) <<< 16)
  bytesOf (m &&& 0x01010101#32)

/-- Up to eight 32-bit lanes, AVX (simd_x86.h:4651-4660): the mask is packed as 16-bit elements, two per lane. -/
def vec32Avx (v : VMask 32) : List (BitVec 8) :=
  let shorts := v.flatMap (fun (a : BitVec 32) => [lane 16 a 0, lane 16 a 1])
  let p8 := (shorts.take 8 ++ shorts.drop 8).map sat8
  let k2 := (List.range 8).map (fun j => (join 16 2 (fun i => p8.getD (2 * j + i) 0#8) : BitVec 16) >>> 15)
  k2.map sat8 ++ List.replicate 8 0#8

/-- Up to sixteen 16-bit lanes, AVX (simd_x86.h:4661-4677). -/
def vec16Avx (avx2 : Bool) (v : VMask 16) : List (BitVec 8) :=
  if avx2 then
    let x := v.map (fun (a : BitVec 16) => a >>> 15)
    (x.take 8 ++ x.drop 8).map sat8
  else ((v.take 8 ++ v.drop 8).map sat8).map (fun a => 1#8 &&& a)

/-- The branches of `_S_store` for vector masks (simd_x86.h:4589-4680): element width, register, instructions. -/
inductive VecForm where
  | sse64 | sse32 | sse16 | byte | avx64 (avx2 : Bool) | avx32 | avx16 (avx2 : Bool)
  deriving DecidableEq

/-- Bits per lane. -/
abbrev VecForm.width : VecForm → Nat
  | .sse64 => 64 | .sse32 => 32 | .sse16 => 16 | .byte => 8 | .avx64 _ => 64 | .avx32 => 32 | .avx16 _ => 16

/-- The largest number of lanes of the branch. -/
abbrev VecForm.maxLanes : VecForm → Nat
  | .sse64 => 2 | .sse32 => 4 | .sse16 => 8 | .byte => 32 | .avx64 _ => 4 | .avx32 => 8 | .avx16 _ => 16

/-- The bytes written by the branch. -/
def vecBytes : (f : VecForm) → VMask f.width → List (BitVec 8)
  | .sse64, v => vec64Sse v
  | .sse32, v => vec32Sse v
  | .sse16, v => vec16Sse v
  | .byte, v => vec8 v
  | .avx64 a, v => vec64Avx a v
  | .avx32, v => vec32Avx v
  | .avx16 a, v => vec16Avx a v

/-- `_S_store` of a vector mask with `n` lanes (simd_x86.h:4589-4680). -/
def storeVec (f : VecForm) (n : Nat) (v : VMask f.width) (mem : Mem (BitVec 8)) (base : Nat) : Option (Mem (BitVec 8)) :=
  storeBytes (vecBytes f v) n mem base

/-! ## AVX-512 masks -/

/-- AVX512BW+VL (simd_x86.h:4557-4567): `_mm*_maskz_set1_epi8(v, 1)`. -/
def kBwvl (v : KMask n) : List (BitVec 8) :=
  (List.range (if n ≤ 16 then 16 else if n ≤ 32 then 32 else 64)).map (fun j => if v.getLsbD j then 1#8 else 0#8)

/-- At most eight lanes on x86-64 (simd_x86.h:4568-4581). -/
def kPdep64 (v : KMask n) : List (BitVec 8) :=
  bytesOf (pdep (BitVec.setWidth 64 v) 0x0101010101010101#64) ++ List.replicate 8 0#8

/-- At most eight lanes on i386. -/
def kPdep32 (v : KMask n) : List (BitVec 8) :=
  bytesOf (pdep (BitVec.setWidth 32 v) 0x01010101#32) ++ bytesOf (pdep (BitVec.setWidth 32 v >>> 4) 0x01010101#32)

/-- At most sixteen lanes (simd_x86.h:4582-4585): `_mm512_mask_cvtepi32_storeu_epi8(mem, 0xffff >> (16 - n), maskz_set1(v, 1))`
writes the bytes whose mask bit is set. -/
def storeK16 (v : KMask n) (mem : Mem (BitVec 8)) (base : Nat) : Option (Mem (BitVec 8)) :=
  let k := 0xffff#32 >>> (16 - n)
  ((List.range 16).filter (fun j => k.getLsbD j)).foldlM (fun (m : Mem (BitVec 8)) j =>
    m.write (base + j) ((if v.getLsbD j then 1#32 else 0#32 : BitVec 32).setWidth 8)) mem

/-- The branches of `_S_store` for AVX-512 masks (simd_x86.h:4555-4588). -/
inductive KForm where
  | bwvl | pdep64 | pdep32 | cvt16
  deriving DecidableEq

/-- The largest number of lanes of the branch. -/
abbrev KForm.maxLanes : KForm → Nat
  | .bwvl => 64 | .pdep64 => 8 | .pdep32 => 8 | .cvt16 => 16

/-- `_S_store` of an AVX-512 mask. -/
def storeK (f : KForm) (v : KMask n) (mem : Mem (BitVec 8)) (base : Nat) : Option (Mem (BitVec 8)) :=
  match f with
  | .bwvl => storeBytes (kBwvl v) n mem base
  | .pdep64 => storeBytes (kPdep64 v) n mem base
  | .pdep32 => storeBytes (kPdep32 v) n mem base
  | .cvt16 => storeK16 v mem base

/-- `_S_masked_store` of AVX-512 masks (simd_x86.h:4685-4712): `_mm*_mask_storeu_epi8(mem, k, maskz_set1_epi8(v, 1))` or, without
AVX512BW+VL, `_mm512_mask_cvtepi32_storeu_epi8`: the bytes whose bit of `k` is set are written.  `W` is the number of bytes of the
register: 16, 32 or 64. -/
def kMaskedStore (W : Nat) (v k : KMask n) (mem : Mem (BitVec 8)) (base : Nat) : Option (Mem (BitVec 8)) :=
  ((List.range W).filter (fun j => k.getLsbD j)).foldlM (fun (m : Mem (BitVec 8)) j =>
    m.write (base + j) (if v.getLsbD j then 1#8 else 0#8)) mem

/-! ## loads of masks (simd_x86.h:4278-4429) -/

/-- `memcpy(&a, mem, n)` into a zeroed register of `W` bytes. -/
def loadBytes (n W : Nat) (mem : Mem (BitVec 8)) (base : Nat) : Option (List (BitVec 8)) := do
  let bytes ← (List.range n).mapM (fun i => mem.read (base + i))
  some (bytes ++ List.replicate (W - n) 0#8)

/-- All ones or zero: the result of a vector comparison. -/
def ones {w : Nat} (b : Bool) : BitVec w := if b then BitVec.allOnes w else 0#w

/-- Two 64-bit lanes (simd_x86.h:4366-4369); `mem[i]` is a `bool`, so `int(mem[i])` is its byte. -/
def load64x2 (mem : Mem (BitVec 8)) (base : Nat) : Option (VMask 64) := do
  let b0 ← mem.read base
  let b1 ← mem.read (base + 1)
  some [join 64 2 (fun _ => -(b0.setWidth 32)), join 64 2 (fun _ => -(b1.setWidth 32))]

/-- Up to four 64-bit lanes with AVX (simd_x86.h:4370-4383). -/
def load64Avx (n : Nat) (mem : Mem (BitVec 8)) (base : Nat) : Option (VMask 64) := do
  let a ← loadBytes n 4 mem base
  let bool4 : BitVec 32 := join 32 4 (fun j => a.getD j 0#8)
  let k := [0x1#32, 0x100#32, 0x10000#32, if n = 4 then 0x1000000#32 else 0#32].map
    (fun (m : BitVec 32) => (ones ((bool4 &&& m) != 0#32) : BitVec 32))
  some (k.map (fun (e : BitVec 32) => join 64 2 (fun _ => e)))

/-- `_mm_cmpgt_epi16(_mm_unpacklo_epi8(k, k), 0)` of the first `m` bytes. -/
def cmpgt16 (m : Nat) (a : List (BitVec 8)) : List (BitVec 16) :=
  (List.range m).map (fun i => ones ((0#16).slt (join 16 2 (fun _ => a.getD i 0#8))))

/-- Up to four (`m = 4`) or eight (`m = 8`) 32-bit lanes (simd_x86.h:4384-4412). -/
def load32 (m n : Nat) (mem : Mem (BitVec 8)) (base : Nat) : Option (VMask 32) := do
  let a ← loadBytes n (if m = 4 then 4 else 16) mem base
  some ((cmpgt16 m a).map (fun (e : BitVec 16) => join 32 2 (fun _ => e)))

/-- Up to eight (`m = 8`) or sixteen (`m = 16`) 16-bit lanes (simd_x86.h:4413-4424). -/
def load16 (m n : Nat) (mem : Mem (BitVec 8)) (base : Nat) : Option (VMask 16) := do
  let a ← loadBytes n 16 mem base
  let k := a.map (fun (x : BitVec 8) => (ones ((0#8).slt x) : BitVec 8))
  some ((List.range m).map (fun i => join 16 2 (fun _ => k.getD i 0#8)))

/-- The bits of an AVX-512 mask (simd_x86.h:4285-4330): `_mm*_test_epi8_mask(a, a)`, or after sign extension to 64 or 32 bits
`_mm512_test_epi{64,32}_mask(b, b)`; `W` lanes are tested. -/
def loadK (n W ext : Nat) (mem : Mem (BitVec 8)) (base : Nat) : Option (KMask n) := do
  let a ← loadBytes n (max W 16) mem base
  some ((join 64 W (fun j => BitVec.ofBool (((a.getD j 0#8).signExtend ext &&& (a.getD j 0#8).signExtend ext) != 0#ext)) :
    BitVec 64).setWidth _)

/-- `_S_masked_load` of vector masks with AVX512BW+VL (simd_x86.h:4487-4541), `w` bits per lane, `bits` from `_S_to_bits(mask)`:
`_mm_mask_loadu_epi8(0, k, mem)`, widened with sign, and `_mm*_mask_sub(merge, k, 0, loaded)`. -/
def maskedLoadBwvl {w : Nat} (merge : VMask w) (bits : BitVec 64) (mem : Mem (BitVec 8)) (base : Nat) : Option (VMask w) := do
  let a ← (List.range merge.length).mapM (fun j => if bits.getLsbD j then mem.read (base + j) else some 0#8)
  some (merge.mapIdx (fun j m => if bits.getLsbD j then 0#w - (a.getD j 0#8).signExtend w else m))

end StdSimd.BoolArray
