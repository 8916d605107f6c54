/-!
# Model of the x86 integer emulations: `_SimdImplX86::_S_multiplies`, `_S_bit_shift_left`, `_S_bit_shift_right`
(simd_x86.h:1304-1379, 1531-2208)

SSE and AVX have no 8-bit multiplication and shifts and few variable shifts, so the code views the register through wider
elements (`__vector_bitcast`).  A register is modelled as the list of its lanes.  `overGroups1`/`overGroups2` model
`__vector_bitcast<Wide>(x)`, an operation on every wide element ("group"), and the cast back; every code path is then a
function on one or two groups.  Shift instructions (`psllw`, `psravd`, ...) shift in zeros or sign bits when the count
reaches the element width, which is what `<<<`, `>>>` and `sshiftRight` of `BitVec` do.  GNU vector shifts (`x << y`) are
assumed to be compiled to those instructions.
-/
namespace StdSimd.X86

/-- Element `i` of width `w` of a wider element (little-endian `__vector_bitcast`, simd.h:1478-1500). -/
def lane {W : Nat} (w : Nat) (g : BitVec W) (i : Nat) : BitVec w := g.extractLsb' (w * i) w

/-- A wide element made of `k` elements of width `w`. -/
def join {w : Nat} (W : Nat) : (k : Nat) → (Nat → BitVec w) → BitVec W
  | 0, _ => 0#W
  | k + 1, f => join W k f ||| ((f k).setWidth W <<< (w * k))

/-- Wide element `c` of a register; missing elements are zero (`__intrin_bitcast` zero-extends, simd.h:1507-1548). -/
def group {w : Nat} (W k : Nat) (xs : List (BitVec w)) (c : Nat) : BitVec W :=
  join W k (fun i => xs.getD (k * c + i) 0#w)

/-- Cast to wide elements, apply `F` to each of them, cast back. -/
def overGroups1 {w : Nat} (W k : Nat) (F : BitVec W → BitVec W) (xs : List (BitVec w)) : List (BitVec w) :=
  (List.range xs.length).map (fun j => lane w (F (group W k xs (j / k))) (j % k))

/-- The same for an operation with two registers. -/
def overGroups2 {w : Nat} (W k : Nat) (F : BitVec W → BitVec W → BitVec W) (xs ys : List (BitVec w)) : List (BitVec w) :=
  (List.range xs.length).map (fun j => lane w (F (group W k xs (j / k)) (group W k ys (j / k))) (j % k))

/-- An operation on the bytes of a 16-bit element (e.g. `__mask += __mask` on `_UChar` vectors). -/
def bytes1 (f : BitVec 8 → BitVec 8) (a : BitVec 16) : BitVec 16 := join 16 2 (fun i => f (lane 8 a i))

/-- An operation on the bytes of two 16-bit elements. -/
def bytes2 (f : BitVec 8 → BitVec 8 → BitVec 8) (a b : BitVec 16) : BitVec 16 :=
  join 16 2 (fun i => f (lane 8 a i) (lane 8 b i))

/-- `_mm_blendv_epi8`, `_CommonImplX86::_S_blend_intrin` (simd_x86.h:675-761) on bytes, and
`__vector_bitcast<_SChar>(mask) < 0 ? b : a`: the top bit of each mask byte selects. -/
def blendBytes (mask a b : BitVec 16) : BitVec 16 :=
  join 16 2 (fun i => if (lane 8 mask i).msb then lane 8 b i else lane 8 a i)

/-! ## 8-bit multiplication -/

/-- Two lanes (simd_x86.h:1314-1320): `short(((xs * ys) & 0xff) | ((xs >> 8) * (ys & 0xff00)))` on promoted `int`s. -/
def mul2 (x y : BitVec 16) : BitVec 16 :=
  let xs := x.signExtend 32
  let ys := y.signExtend 32
  (((xs * ys) &&& 0xff#32) ||| (xs.sshiftRight 8 * (ys &&& 0xff00#32))).setWidth 16

/-- Three lanes in a 32-bit register (simd_x86.h:1321-1329).  The `int` products are taken to wrap (they may overflow,
`Props.C24_signed_overflow`). -/
def mul3 (x y : BitVec 32) : BitVec 32 :=
  ((x * y) &&& 0xff#32) ||| ((x.sshiftRight 8 * (y &&& 0xff00#32)) &&& 0xff00#32)
    ||| (x.sshiftRight 16 * (y &&& 0xff0000#32))

/-- Four lanes (simd_x86.h:1330-1339); the last product is unsigned in the source. -/
def mul4 (x y : BitVec 32) : BitVec 32 :=
  ((x * y) &&& 0xff#32) ||| ((x.sshiftRight 8 * (y &&& 0xff00#32)) &&& 0xff00#32)
    ||| ((x.sshiftRight 16 * (y &&& 0xff0000#32)) &&& 0xff0000#32)
    ||| (x.sshiftRight 24 * (y &&& 0xff000000#32))

/-- Eight lanes with AVX2, signed (simd_x86.h:1340-1344): widen, multiply, truncate. -/
def mulWideS (x y : BitVec 8) : BitVec 8 := (x.signExtend 16 * y.signExtend 16).setWidth 8

/-- Eight lanes with AVX2, unsigned (simd_x86.h:1345-1349). -/
def mulWideU (x y : BitVec 8) : BitVec 8 := (x.setWidth 16 * y.setWidth 16).setWidth 8

/-- `__even` and `__odd` (simd_x86.h:1356-1362): 16-bit products. -/
def mulEven (x y : BitVec 16) : BitVec 16 := x * y
/-- See `mulEven`; `__high_byte` is `0 - 256` (line 1358). -/
def mulOdd (x y : BitVec 16) : BitVec 16 := x.sshiftRight 8 * (y &&& (0#16 - 256#16))

/-- General case with a blend: the bits `0xaaaa...` of the AVX512BW mask (simd_x86.h:1363-1366) select the odd bytes from
`__odd`. -/
def mulBlendK (x y : BitVec 16) : BitVec 16 :=
  join 16 2 (fun i => if (0xaaaa#16).getLsbD i then lane 8 (mulOdd x y) i else lane 8 (mulEven x y) i)

/-- General case with SSE4.1 (simd_x86.h:1367-1371): blend by the top bits of `__high_byte`. -/
def mulBlendV (x y : BitVec 16) : BitVec 16 := blendBytes (0#16 - 256#16) (mulEven x y) (mulOdd x y)

/-- General case with SSE2 (simd_x86.h:1372-1374): `__or(__andnot(__high_byte, __even), __odd)`. -/
def mulOr (x y : BitVec 16) : BitVec 16 := (~~~(0#16 - 256#16) &&& mulEven x y) ||| mulOdd x y

/-- The code paths of the 8-bit `_S_multiplies` (simd_x86.h:1312-1375). -/
inductive MulPath where
  | two | three | four | wideS | wideU | blendK | blendV | or
  deriving DecidableEq

/-- `_SimdImplX86::_S_multiplies` for 8-bit lanes (simd_x86.h:1304-1379). -/
def mulBytes : MulPath → List (BitVec 8) → List (BitVec 8) → List (BitVec 8)
  | .two => overGroups2 16 2 mul2
  | .three => overGroups2 32 4 mul3
  | .four => overGroups2 32 4 mul4
  | .wideS => List.zipWith mulWideS
  | .wideU => List.zipWith mulWideU
  | .blendK => overGroups2 16 2 mulBlendK
  | .blendV => overGroups2 16 2 mulBlendV
  | .or => overGroups2 16 2 mulOr

/-! ## 8-bit left shift by a scalar (simd_x86.h:1531-1632) -/

/-- Constant `3 ≤ y ≤ 7`, registers of more than four bytes (simd_x86.h:1563-1570): shift 32-bit elements, mask every byte
with `0xff << y`. -/
def shl8Const (y : Nat) (x : BitVec 32) : BitVec 32 :=
  (x <<< y) &&& join 32 4 (fun _ => (0xff#8 <<< y))

/-- Constant `3 ≤ y ≤ 7`, registers of four bytes (simd_x86.h:1571-1582). -/
def shl8Const4 (y : Nat) (x : BitVec 32) : BitVec 32 :=
  (x <<< y) &&& ((0xff#32 &&& (0xff#32 <<< y)) * 0x01010101#32)

/-- Constant `3 ≤ y ≤ 7`, registers of two bytes (simd_x86.h:1571-1582): `short` is promoted to `int`. -/
def shl8Const2 (y : Nat) (x : BitVec 16) : BitVec 16 :=
  (((x.signExtend 32) <<< y) &&& ((0xff#32 &&& (0xff#32 <<< y)) * 0x01010101#32)).setWidth 16

/-- AVX512BW (simd_x86.h:1590-1606): sign-extend, `vpsllvw`, truncate. -/
def shl8Avx512 (y : Nat) (x : BitVec 8) : BitVec 8 := ((x.signExtend 16) <<< y).setWidth 8

/-- `__k` (simd_x86.h:1611-1613, 1625-1627). -/
def shl8K (y : Nat) : BitVec 16 :=
  let k := (BitVec.allOnes 16 <<< 8) <<< y
  k ||| (k >>> 8)

/-- AVX2, 32-byte registers (simd_x86.h:1607-1621): `vpslld` and `__k`. -/
def shl8Avx2 (y : Nat) (x : BitVec 32) : BitVec 32 := (x <<< y) &&& join 32 2 (fun _ => shl8K y)

/-- SSE2 (simd_x86.h:1622-1629): `psllw` and `__k`. -/
def shl8Sse (y : Nat) (x : BitVec 16) : BitVec 16 := (x <<< y) &&& shl8K y

/-- What the compiler knows and which registers are used. -/
inductive ShlPath where
  | const | const4 | const2 | avx512 | avx2 | sse
  deriving DecidableEq

/-- `_S_bit_shift_left(_Tp, int)` for 8-bit lanes (simd_x86.h:1531-1632). -/
def shl8Int (p : ShlPath) (xs : List (BitVec 8)) (y : Nat) : List (BitVec 8) :=
  match p with
  | .avx512 => xs.map (shl8Avx512 y)
  | .avx2 => overGroups1 32 4 (shl8Avx2 y) xs
  | .sse => overGroups1 16 2 (shl8Sse y) xs
  | p =>
    if y = 0 then xs
    else if y = 1 then xs.map (fun x => x + x)
    else if y = 2 then (xs.map (fun x => x + x)).map (fun x => x + x)
    else if y < 8 then
      match p with
      | .const2 => overGroups1 16 2 (shl8Const2 y) xs
      | .const4 => overGroups1 32 4 (shl8Const4 y) xs
      | _ => overGroups1 32 4 (shl8Const y) xs
    else xs.map (fun _ => 0#8)

/-! ## Left shift by a vector (simd_x86.h:1636-1797) -/

/-- AVX512BW (simd_x86.h:1655-1679): zero-extend, `vpsllvw`, truncate. -/
def shl8vAvx512 (x y : BitVec 8) : BitVec 8 := ((x.setWidth 16) <<< (y.setWidth 16).toNat).setWidth 8

/-- SSE4.1 (simd_x86.h:1680-1701) and SSE2 (1702-1720): shift by 4, 2 and 1 where bits 2, 1 and 0 of `y` say so. -/
def shl8vSse (x y : BitVec 16) : BitVec 16 :=
  let mask := y <<< 5
  let x4 := bytes1 (fun b => b &&& 0xf0#8) (x <<< 4)
  let x := blendBytes mask x x4
  let mask := bytes2 (fun a b => a + b) mask mask
  let x2 := bytes1 (fun b => b &&& 0xfc#8) (x <<< 2)
  let x := blendBytes mask x x2
  let mask := bytes2 (fun a b => a + b) mask mask
  let x1 := bytes2 (fun a b => a + b) x x
  let x := blendBytes mask x x1
  bytes2 (fun a b => a &&& (if b &&& 0xf8#8 = 0#8 then BitVec.allOnes 8 else 0#8)) x y

/-- `_mm_blend_epi16(a, b, 0xaa)`: odd 16-bit elements from `b`. -/
def blendAA (a b : BitVec 32) : BitVec 32 :=
  join 32 2 (fun i => if (0xaa#8).getLsbD i then lane 16 b i else lane 16 a i)

/-- 16-bit lanes with AVX2 (simd_x86.h:1734-1741, 1748-1755). -/
def shl16vAvx2 (x y : BitVec 32) : BitVec 32 :=
  blendAA (x <<< (y &&& 0x0000ffff#32).toNat) ((x &&& 0xffff0000#32) <<< (y >>> 16).toNat)

/-- `_mm_cvttps_epi32` on the bits of a binary32 number: truncation, `0x80000000` for values out of range, infinities and
NaNs. -/
def cvttps (b : BitVec 32) : BitVec 32 :=
  let e := (b.extractLsb' 23 8).toNat
  let m := 2 ^ 23 + (b.extractLsb' 0 23).toNat
  if e < 127 then 0#32
  else if 158 ≤ e then 0x80000000#32
  else
    let v := if e ≤ 150 then m / 2 ^ (150 - e) else m * 2 ^ (e - 150)
    if b.msb then -BitVec.ofNat 32 v else BitVec.ofNat 32 v

/-- 16-bit lanes without AVX2 (simd_x86.h:1756-1770): multiply with powers of two made by a float to int conversion.
`mul16` is the 16-bit lane-wise product. -/
def shl16vSse (x y : BitVec 32) : BitVec 32 :=
  let yu := join 32 2 (fun i => lane 16 y i + (0x3f8#16 >>> 3))
  let factor := cvttps (yu <<< 23) ||| (cvttps ((yu >>> 16) <<< 23) <<< 16)
  join 32 2 (fun i => lane 16 x i * lane 16 factor i)

/-- 32-bit lanes without AVX2 (simd_x86.h:1774-1781). -/
def shl32vSse (x y : BitVec 32) : BitVec 32 := x * cvttps ((y <<< 23) + 0x3f800000#32)

/-- `_mm_sll_epi64(x, count)`: both elements are shifted by the low element of `count`. -/
def sllEpi64 (x : List (BitVec 64)) (count : List (BitVec 64)) : List (BitVec 64) :=
  x.map (fun (a : BitVec 64) => a <<< (count.getD 0 0#64).toNat)

/-- 64-bit lanes without AVX2 (simd_x86.h:1782-1794): `__lo` is shifted by the first count, `__hi` by the second; lane 0 is
taken from `__lo`, lane 1 from `__hi`. -/
def shl64vSse (x y : List (BitVec 64)) : List (BitVec 64) :=
  let lo := sllEpi64 x y
  let hi := sllEpi64 x [y.getD 1 0, y.getD 1 0]
  [lo.getD 0 0, hi.getD 1 0]

/-- The vector shifts of the widths whose code differs from `x << y`. -/
inductive ShlvPath where
  | avx512 | sse
  deriving DecidableEq

/-- 8-bit lanes (simd_x86.h:1653-1723). -/
def shl8v : ShlvPath → List (BitVec 8) → List (BitVec 8) → List (BitVec 8)
  | .avx512 => List.zipWith shl8vAvx512
  | .sse => overGroups2 16 2 shl8vSse

/-- Which of the instructions for 16-bit lanes is used (simd_x86.h:1726-1772). -/
inductive Shl16Path where
  | avx512 | avx2 | sse
  deriving DecidableEq

/-- 16-bit lanes (simd_x86.h:1724-1773). -/
def shl16v : Shl16Path → List (BitVec 16) → List (BitVec 16) → List (BitVec 16)
  | .avx512 => List.zipWith (fun x y => x <<< y.toNat)
  | .avx2 => overGroups2 32 2 shl16vAvx2
  | .sse => overGroups2 32 2 shl16vSse

/-! ## Right shift by a scalar (simd_x86.h:1802-1851) -/

/-- Unsigned 8-bit lanes (simd_x86.h:1817-1820); a constant amount of at least 8 is caught before (1813-1816). -/
def shr8u (const : Bool) (y : Nat) (xs : List (BitVec 8)) : List (BitVec 8) :=
  if const ∧ 8 ≤ y then xs.map (fun _ => 0#8)
  else (overGroups1 16 2 (fun g => g >>> y) xs).map (fun b => b &&& (0xff#32 >>> y).setWidth 8)

/-- Signed 8-bit lanes (simd_x86.h:1821-1831). -/
def shr8sGroup (y : Nat) (x : BitVec 16) : BitVec 16 :=
  (x.sshiftRight (y + 8) <<< 8) ||| (((x <<< 8).sshiftRight y) >>> 8)

/-- The register. -/
def shr8s (y : Nat) : List (BitVec 8) → List (BitVec 8) := overGroups1 16 2 (shr8sGroup y)

/-- An operation on the two 32-bit halves of a 64-bit element. -/
def ints (f : BitVec 32 → BitVec 32) (x : BitVec 64) : BitVec 64 := join 64 2 (fun i => f (lane 32 x i))

/-- Signed 64-bit lanes (simd_x86.h:1832-1848).  The 32-bit shift by 32 is `psrad` with count 32: sign bits everywhere. -/
def shr64s (y : Nat) (x : BitVec 64) : BitVec 64 :=
  if 32 < y then
    (ints (fun h => h.sshiftRight 32) x &&& 0xffffffff00000000#64) ||| ints (fun h => h.sshiftRight (y - 32)) (x >>> 32)
  else (x >>> y) ||| ints (fun h => h.sshiftRight y) (x &&& 0x8000000000000000#64)

/-! ## Right shift by a vector (simd_x86.h:1857-2208) -/

/-- AVX512BW(VL) up to 32 bytes, signed (simd_x86.h:1867-1886): `vpsravw` on sign-extended elements. -/
def shr8vWideS (x y : BitVec 8) : BitVec 8 := ((x.signExtend 16).sshiftRight (y.signExtend 16).toNat).setWidth 8
/-- The same, unsigned. -/
def shr8vWideU (x y : BitVec 8) : BitVec 8 := ((x.setWidth 16) >>> (y.setWidth 16).toNat).setWidth 8

/-- `_mm512_mask_mov_epi8(a, 0x5555..., b)`: even bytes from `b`. -/
def mov55 (a b : BitVec 16) : BitVec 16 :=
  join 16 2 (fun i => if (0x5555#16).getLsbD i then lane 8 b i else lane 8 a i)

/-- 64-byte registers, signed (simd_x86.h:1887-1894). -/
def shr8vZmmS (x y : BitVec 16) : BitVec 16 :=
  mov55 (x.sshiftRight (y >>> 8).toNat)
    ((x <<< 8).sshiftRight (mov55 0#16 (bytes2 (fun a b => a + b) y 8#16)).toNat)

/-- 64-byte registers, unsigned (simd_x86.h:1895-1902). -/
def shr8vZmmU (x y : BitVec 16) : BitVec 16 :=
  mov55 (x >>> (y >>> 8).toNat) (mov55 0#16 x >>> (mov55 0#16 y).toNat)

/-- AVX2, signed (simd_x86.h:1915-1936). -/
def shr8vAvx2S (x y : BitVec 32) : BitVec 32 :=
  let r3 := x.sshiftRight (y >>> 24).toNat &&& 0xff000000#32
  let r2 := (x <<< 8).sshiftRight ((y <<< 8) >>> 24).toNat &&& 0xff000000#32
  let r1 := (x <<< 16).sshiftRight ((y <<< 16) >>> 24).toNat &&& 0xff000000#32
  let r0 := (x <<< 24).sshiftRight ((y <<< 24) >>> 24).toNat
  r3 ||| (r2 >>> 8) ||| (r1 >>> 16) ||| (r0 >>> 24)

/-- AVX2, unsigned (simd_x86.h:1937-1955). -/
def shr8vAvx2U (x y : BitVec 32) : BitVec 32 :=
  let r3 := (x >>> (y >>> 24).toNat) &&& 0xff000000#32
  let r2 := ((x <<< 8) >>> ((y <<< 8) >>> 24).toNat) &&& 0xff000000#32
  let r1 := ((x <<< 16) >>> ((y <<< 16) >>> 24).toNat) &&& 0xff000000#32
  let r0 := (x <<< 24) >>> ((y <<< 24) >>> 24).toNat
  r3 ||| (r2 >>> 8) ||| (r1 >>> 16) ||| (r0 >>> 24)

/-- The last step: `& ((y & 0xf8) == 0)`, "y > 7 nulls the result". -/
def nullAbove7 (x y : BitVec 16) : BitVec 16 :=
  bytes2 (fun a b => a &&& (if b &&& 0xf8#8 = 0#8 then BitVec.allOnes 8 else 0#8)) x y

/-- SSE4.1, unsigned (simd_x86.h:1956-1980) and SSE2, unsigned (2021-2038; `mask > 0x7f` is the top bit of the byte). -/
def shr8vSseU (x y : BitVec 16) : BitVec 16 :=
  let mask := y <<< 5
  let x4 := (x >>> 4) &&& 0xff0f#16
  let x := blendBytes mask x x4
  let mask := bytes2 (fun a b => a + b) mask mask
  let x2 := (x >>> 2) &&& 0xff3f#16
  let x := blendBytes mask x x2
  let mask := bytes2 (fun a b => a + b) mask mask
  let x1 := (x >>> 1) &&& 0xff7f#16
  let x := blendBytes mask x x1
  nullAbove7 x y

/-- SSE4.1, signed (simd_x86.h:1981-2020): the odd bytes are shifted in `xh`, the even bytes in `xl`. -/
def shr8vSse41S (x y : BitVec 16) : BitVec 16 :=
  let mask := y <<< 5
  let xh := x
  let xl := x <<< 8
  let xh4 := xh.sshiftRight 4
  let xl4 := xl.sshiftRight 4
  let xh := blendBytes mask xh xh4
  let xl := blendBytes (mask <<< 8) xl xl4
  let mask := bytes2 (fun a b => a + b) mask mask
  let xh2 := xh.sshiftRight 2
  let xl2 := xl.sshiftRight 2
  let xh := blendBytes mask xh xh2
  let xl := blendBytes (mask <<< 8) xl xl2
  let mask := bytes2 (fun a b => a + b) mask mask
  let xh1 := xh.sshiftRight 1
  let xl1 := xl.sshiftRight 1
  let xh := blendBytes mask xh xh1
  let xl := blendBytes (mask <<< 8) xl xl1
  nullAbove7 ((xh &&& 0xff00#16) ||| (xl >>> 8)) y

/-- SSE2, signed (simd_x86.h:2039-2067): selection by 16-bit comparisons `mask > 0x7fff`. -/
def shr8vSse2S (x y : BitVec 16) : BitVec 16 :=
  let maskh := y <<< 5
  let maskl := y <<< (5 + 8)
  let xh := x
  let xl := x <<< 8
  let xh4 := xh.sshiftRight 4
  let xl4 := xl.sshiftRight 4
  let xh := if maskh > 0x7fff#16 then xh4 else xh
  let xl := if maskl > 0x7fff#16 then xl4 else xl
  let maskh := maskh + maskh
  let maskl := maskl + maskl
  let xh2 := xh.sshiftRight 2
  let xl2 := xl.sshiftRight 2
  let xh := if maskh > 0x7fff#16 then xh2 else xh
  let xl := if maskl > 0x7fff#16 then xl2 else xl
  let maskh := maskh + maskh
  let maskl := maskl + maskl
  let xh1 := xh.sshiftRight 1
  let xl1 := xl.sshiftRight 1
  let xh := if maskh > 0x7fff#16 then xh1 else xh
  let xl := if maskl > 0x7fff#16 then xl1 else xl
  nullAbove7 ((xh &&& 0xff00#16) ||| (xl >>> 8)) y

/-- 16-bit lanes, AVX2, signed (simd_x86.h:2098-2104). -/
def shr16vAvx2S (x y : BitVec 32) : BitVec 32 :=
  blendAA (((x <<< 16).sshiftRight (y &&& 0xffff#32).toNat).sshiftRight 16) (x.sshiftRight (y.sshiftRight 16).toNat)

/-- 16-bit lanes, AVX2, unsigned (simd_x86.h:2105-2110). -/
def shr16vAvx2U (x y : BitVec 32) : BitVec 32 :=
  blendAA ((x &&& 0xffff#32) >>> (y &&& 0xffff#32).toNat) (x >>> (y >>> 16).toNat)

/-- The lane type's `>>` in `__x128 >> 8` etc. -/
def shrLane (signed : Bool) (x : BitVec 16) (n : Nat) : BitVec 16 := if signed then x.sshiftRight n else x >>> n

/-- 16-bit lanes, SSE4.1 (simd_x86.h:2111-2137). -/
def shr16vSse41 (signed : Bool) (x y : BitVec 16) : BitVec 16 :=
  let mask := (y <<< 3) ||| (y <<< 11)
  let x := blendBytes mask x 0#16
  let mask := mask + mask
  let x := blendBytes mask x (shrLane signed x 8)
  let mask := mask + mask
  let x := blendBytes mask x (shrLane signed x 4)
  let mask := mask + mask
  let x := blendBytes mask x (shrLane signed x 2)
  blendBytes (mask + mask) x (shrLane signed x 1)

/-- 16-bit lanes, SSE2 (simd_x86.h:2138-2156). -/
def shr16vSse2 (signed : Bool) (x y : BitVec 16) : BitVec 16 :=
  let k := y <<< 11
  let x := if k.msb then 0#16 else x
  let k := k + k
  let x := if k.msb then shrLane signed x 8 else x
  let k := k + k
  let x := if k.msb then shrLane signed x 4 else x
  let k := k + k
  let x := if k.msb then shrLane signed x 2 else x
  if (k + k).msb then shrLane signed x 1 else x

/-- `_mm_mul_epu32` on one 64-bit element: the low 32-bit halves. -/
def mulEpu32 (a b : BitVec 64) : BitVec 64 := (lane 32 a 0).setWidth 64 * (lane 32 b 0).setWidth 64

/-- Unsigned 32-bit lanes without AVX2 (simd_x86.h:2158-2181) on one pair of lanes (a 64-bit element): `x >> y` as
`(x * 2^(31-y)) >> 31`. -/
def shr32vU (sse41 : Bool) (x y : BitVec 64) : BitVec 64 :=
  let factor := join 64 2 (fun i => cvttps (0x4f000000#32 - (lane 32 y i <<< 23)))
  let r02 := mulEpu32 x factor >>> 31
  let r13 := mulEpu32 (x >>> 32) (factor >>> 32)
  if sse41 then join 64 2 (fun i => if i = 0 then lane 32 r02 i else lane 32 (r13 <<< 1) i)
  else r02 ||| ((r13 >>> 31) <<< 32)

/-- `_mm_sra_epi32(x, count)`: all lanes are shifted by the low 64 bits of `count`. -/
def sraEpi32 (x count : List (BitVec 32)) : List (BitVec 32) :=
  x.map (fun (a : BitVec 32) => a.sshiftRight (count.getD 1 0#32 ++ count.getD 0 0#32).toNat)

/-- Signed 32-bit lanes without AVX2 (simd_x86.h:2182-2205): four shifts by each of the counts, then the diagonal.
`_mm_unpacklo_epi32(y, 0)`, `_mm_srli_epi64(y, 32)`, `_mm_unpackhi_epi32(y, 0)`, `_mm_srli_si128(y, 12)`. -/
def shr32vS (sse41 : Bool) (x y : List (BitVec 32)) : List (BitVec 32) :=
  let r0 := sraEpi32 x [y.getD 0 0, 0, y.getD 1 0, 0]
  let r1 := sraEpi32 x [y.getD 1 0, 0, y.getD 3 0, 0]
  let r2 := sraEpi32 x [y.getD 2 0, 0, y.getD 3 0, 0]
  let r3 := sraEpi32 x [y.getD 3 0, 0, 0, 0]
  if sse41 then
    -- blend(r1, r0, 0x3): element 0 from r0; blend(r3, r2, 0x30): element 2 from r2; 0xf0: elements 2, 3 from the second
    [r0.getD 0 0, r1.getD 1 0, r2.getD 2 0, r3.getD 3 0]
  else
    -- unpacklo_epi32(r0, r1 >> 32 bits) = r0[0], r1[1], ...; unpackhi_epi32(r2, r3 >> 32 bits) = r2[2], r3[3], ...
    let a := [r0.getD 0 0, r1.getD 1 0, r0.getD 1 0, r1.getD 2 0]
    let b := [r2.getD 2 0, r3.getD 3 0, r2.getD 3 0, 0]
    [a.getD 0 0, a.getD 1 0, b.getD 0 0, b.getD 1 0]

/-- The code paths of the 8-bit vector shift. -/
inductive Shr8Path where
  | wide | zmm | avx2 | sse41 | sse2
  deriving DecidableEq

/-- `_S_bit_shift_right(_Tp, vector)` for 8-bit lanes (simd_x86.h:1865-2070). -/
def shr8v (signed : Bool) (p : Shr8Path) : List (BitVec 8) → List (BitVec 8) → List (BitVec 8) :=
  match p with
  | .wide => List.zipWith (if signed then shr8vWideS else shr8vWideU)
  | .zmm => overGroups2 16 2 (if signed then shr8vZmmS else shr8vZmmU)
  | .avx2 => overGroups2 32 4 (if signed then shr8vAvx2S else shr8vAvx2U)
  | .sse41 => overGroups2 16 2 (if signed then shr8vSse41S else shr8vSseU)
  | .sse2 => overGroups2 16 2 (if signed then shr8vSse2S else shr8vSseU)

/-- The code paths of the 16-bit vector shift. -/
inductive Shr16Path where
  | avx512 | avx2 | sse41 | sse2
  deriving DecidableEq

/-- `_S_bit_shift_right(_Tp, vector)` for 16-bit lanes (simd_x86.h:2071-2157). -/
def shr16v (signed : Bool) (p : Shr16Path) : List (BitVec 16) → List (BitVec 16) → List (BitVec 16) :=
  match p with
  | .avx512 => List.zipWith (fun x y => shrLane signed x y.toNat)
  | .avx2 => overGroups2 32 2 (if signed then shr16vAvx2S else shr16vAvx2U)
  | .sse41 => List.zipWith (shr16vSse41 signed)
  | .sse2 => List.zipWith (shr16vSse2 signed)

/-- `_S_bit_shift_right(_Tp, vector)` for unsigned 32-bit lanes without AVX2. -/
def shr32v (sse41 : Bool) : List (BitVec 32) → List (BitVec 32) → List (BitVec 32) := overGroups2 64 2 (shr32vU sse41)

end StdSimd.X86
