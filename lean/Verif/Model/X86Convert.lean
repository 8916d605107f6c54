/-!
# Model of the x86 register conversions between integer types (experimental/bits/simd_x86_conversions.h)

`__convert_x86<_To>(v0, ...)` converts the elements of 1, 2, 4, 8 or 16 vector registers into one register of type `_To`.  Which
instructions it uses is decided at compile time by the element sizes, the register sizes and the instruction set.  The model keeps the two
stages apart: `convert` is the cascade of `if constexpr`, which yields a straight-line program (`Expr`), and `Expr.eval` is the effect of the
instructions of that program on bytes.  Modelled: all branches for conversions from integers to integers.  `none` is a program that does not
compile (a failing `static_assert`, `__assert_unreachable`, an argument of the wrong size).  Not modelled: branches for `float` and
`double`; the requirement that discarded code after a `return` compiles, too.
-/
namespace StdSimd.X86Convert

/-- `__have_ssse3`, `__have_sse4_1`, `__have_avx2`, `__have_avx512f`, `__have_avx512vl`, `__have_avx512bw` (simd.h:465-495).  SSE2 is
always there.  Simplification: flags without influence on conversions between integers are left out. -/
structure Ft where
  ssse3 : Bool
  sse41 : Bool
  avx2 : Bool
  f : Bool
  vl : Bool
  bw : Bool
  deriving DecidableEq

/-- Every instruction set of this list contains the previous ones (`-mavx2` implies `-msse4.1` and so on). -/
def Ft.Consistent (ft : Ft) : Prop :=
  (ft.sse41 = true → ft.ssse3 = true) ∧ (ft.avx2 = true → ft.sse41 = true) ∧ (ft.f = true → ft.avx2 = true)
    ∧ (ft.vl = true → ft.f = true) ∧ (ft.bw = true → ft.f = true)

/-- The operations on bytes that the instructions below are made of. `sign b` is a byte of copies of the top bit of `b`; `addLo`, `addHi` are
the two bytes of the 16-bit sum of `a1:a0` and `b1:b0`; `junk i` is the content of a byte at position `i` that nobody specifies. -/
structure Dom (B : Type) where
  zero : B
  sign : B → B
  or : B → B → B
  addLo : B → B → B → B → B
  addHi : B → B → B → B → B
  junk : Nat → B

/-- Bytes as bytes, with unspecified contents `junk`. -/
def bytes (junk : Nat → BitVec 8) : Dom (BitVec 8) where
  zero := 0#8
  sign b := if b.msb then 0xff#8 else 0#8
  or a b := a ||| b
  addLo a0 a1 b0 b1 := ((a1 ++ a0) + (b1 ++ b0)).extractLsb' 0 8
  addHi a0 a1 b0 b1 := ((a1 ++ a0) + (b1 ++ b0)).extractLsb' 8 8
  junk := junk

/-- Straight-line programs over registers.  `n` is always the size of the result in bytes, `w` the size of an element. -/
inductive Expr where
  /-- the `k`th argument -/
  | arg (k n : Nat)
  /-- `__m128i()` and the like -/
  | zero (n : Nat)
  /-- `__intrin_bitcast`, `__auto_bitcast`, `__vector_bitcast`, `__to_intrin` from `m` to `n` bytes (simd.h:1507-1560, 1632-1650,
  2162-2183): additional bytes are unspecified.  Simplification: in some cases they are zero. -/
  | fit (m n : Nat) (e : Expr)
  /-- `__zero_extend` from `m` to `n` bytes (simd.h:1952-2034) -/
  | zext (m n : Nat) (e : Expr)
  /-- `__lo128`, `__hi128`, `__lo256`, `__hi256`, `__extract_part` (simd.h:2038-2158, simd_builtin.h:203-268): `n` bytes from byte `off` -/
  | slice (off n : Nat) (e : Expr)
  /-- `__concat` of two registers of `m` bytes (simd.h:1900-1948) -/
  | concat (m : Nat) (a b : Expr)
  /-- `_mm[256]_unpacklo_epi{8w}`: in every 16 bytes, interleave the elements of the low halves -/
  | unpacklo (n w : Nat) (a b : Expr)
  /-- `_mm[256]_unpackhi_epi{8w}`: in every 16 bytes, interleave the elements of the high halves -/
  | unpackhi (n w : Nat) (a b : Expr)
  /-- `_mm[256]_shuffle_epi8`: in every 16 bytes, byte `mask[i] % 16`, or zero if `mask[i]` is at least 0x80 -/
  | shufb (n : Nat) (mask : List Nat) (e : Expr)
  /-- `_mm[256]_shuffle_ps`: in every 16 bytes, two 4-byte elements of `a` and two of `b`, chosen by the two-bit fields of `imm` -/
  | shufps (n imm : Nat) (a b : Expr)
  /-- a permutation of elements: `__xzyw` (simd_x86.h:289-318), `_mm256_permute4x64_epi64`, `_mm256_permutevar8x32_epi32` -/
  | perm (n w : Nat) (idx : List Nat) (e : Expr)
  /-- `_mm[256]_srai_epi{8w}` by `k` bits, `k` a multiple of 8 or `8w - 1` -/
  | srai (n w k : Nat) (e : Expr)
  /-- `_mm[256]_slli_epi{8w}`, `<<`, `_mm_slli_si128` (with `w = 16`) by `k` bits, `k` a multiple of 8 -/
  | slli (n w k : Nat) (e : Expr)
  /-- `_mm[256]_srli_epi{8w}` by `k` bits, `k` a multiple of 8 -/
  | srli (n w k : Nat) (e : Expr)
  /-- bitwise and with a constant whose elements of `w` bytes have ones in their `k` low bytes -/
  | keep (n w k : Nat) (e : Expr)
  /-- bitwise or -/
  | or (n : Nat) (a b : Expr)
  /-- `_mm[256]_blend_epi16`: in every 16 bytes, the 2-byte element `j` is of `b` if bit `j` of `imm` is set -/
  | blend16 (n imm : Nat) (a b : Expr)
  /-- `_mm256_blend_epi32`: the 4-byte element `j` is of `b` if bit `j` of `imm` is set -/
  | blend32 (n imm : Nat) (a b : Expr)
  /-- `_mm_hadd_epi16`: sums of adjacent 2-byte elements, of `a` in the low half, of `b` in the high half -/
  | hadd16 (a b : Expr)
  /-- element-wise conversion of `cnt` elements from `s` to `d` bytes, the rest of the result is zero:
  `_mm[256,512]_cvtepi{8s}_epi{8d}`, `_mm[256,512]_cvtepu{8s}_epi{8d}` (truncation for `d < s`, sign or zero extension for `d > s`), and
  `_To{static_cast<_Up>(v[0]), ...}` (simd_builtin.h:286-300) -/
  | cast (n s d : Nat) (sgn : Bool) (cnt : Nat) (e : Expr)

namespace Expr

/-- Byte `i` of the value of a program. `args k i` is byte `i` of argument `k`. -/
def eval {B : Type} (D : Dom B) (args : Nat → Nat → B) : Expr → Nat → B
  | arg k _, i => args k i
  | zero _, _ => D.zero
  | fit m _ e, i => if i < m then eval D args e i else D.junk i
  | zext m _ e, i => if i < m then eval D args e i else D.zero
  | slice off _ e, i => eval D args e (off + i)
  | concat m a b, i => if i < m then eval D args a i else eval D args b (i - m)
  | unpacklo _ w a b, i =>
    if (i % 16 / w) % 2 = 0 then eval D args a (i / 16 * 16 + i % 16 / w / 2 * w + i % w)
    else eval D args b (i / 16 * 16 + i % 16 / w / 2 * w + i % w)
  | unpackhi _ w a b, i =>
    if (i % 16 / w) % 2 = 0 then eval D args a (i / 16 * 16 + 8 + i % 16 / w / 2 * w + i % w)
    else eval D args b (i / 16 * 16 + 8 + i % 16 / w / 2 * w + i % w)
  | shufb _ mask e, i => if 128 ≤ mask.getD i 0 then D.zero else eval D args e (i / 16 * 16 + mask.getD i 0 % 16)
  | shufps _ imm a b, i =>
    if i % 16 / 4 < 2 then eval D args a (i / 16 * 16 + imm / 4 ^ (i % 16 / 4) % 4 * 4 + i % 4)
    else eval D args b (i / 16 * 16 + imm / 4 ^ (i % 16 / 4) % 4 * 4 + i % 4)
  | perm _ w idx e, i => eval D args e (idx.getD (i / w) 0 * w + i % w)
  | srai _ w k e, i =>
    if k + 1 ≠ 8 * w ∧ i % w + k / 8 < w then eval D args e (i + k / 8) else D.sign (eval D args e (i / w * w + w - 1))
  | slli _ w k e, i => if i % w < k / 8 then D.zero else eval D args e (i - k / 8)
  | srli _ w k e, i => if i % w + k / 8 < w then eval D args e (i + k / 8) else D.zero
  | keep _ w k e, i => if i % w < k then eval D args e i else D.zero
  | or _ a b, i => D.or (eval D args a i) (eval D args b i)
  | blend16 _ imm a b, i => if imm / 2 ^ (i % 16 / 2) % 2 = 0 then eval D args a i else eval D args b i
  | blend32 _ imm a b, i => if imm / 2 ^ (i / 4) % 2 = 0 then eval D args a i else eval D args b i
  | hadd16 a b, i =>
    let j := i % 8 / 2 * 4
    if i < 8 then
      if i % 2 = 0 then D.addLo (eval D args a j) (eval D args a (j + 1)) (eval D args a (j + 2)) (eval D args a (j + 3))
      else D.addHi (eval D args a j) (eval D args a (j + 1)) (eval D args a (j + 2)) (eval D args a (j + 3))
    else
      if i % 2 = 0 then D.addLo (eval D args b j) (eval D args b (j + 1)) (eval D args b (j + 2)) (eval D args b (j + 3))
      else D.addHi (eval D args b j) (eval D args b (j + 1)) (eval D args b (j + 2)) (eval D args b (j + 3))
  | cast _ s d sgn cnt e, i =>
    if i / d < cnt then
      if i % d < s then eval D args e (i / d * s + i % d)
      else if sgn then D.sign (eval D args e (i / d * s + s - 1)) else D.zero
    else D.zero

/-- `some n` if every instruction gets registers of the sizes it is declared with and the result has `n` bytes. -/
def size : Expr → Option Nat
  | arg _ n => some n
  | zero n => some n
  | fit m n e => if size e = some m then some n else none
  | zext m n e => if size e = some m ∧ (n = m ∨ n = 2 * m ∨ n = 4 * m ∨ n = 8 * m ∨ n = 16 * m) then some n else none
  | slice off n e => match size e with | some m => if off + n ≤ m then some n else none | none => none
  | concat m a b => if size a = some m ∧ size b = some m then some (2 * m) else none
  | unpacklo n _ a b => if size a = some n ∧ size b = some n ∧ (n = 16 ∨ n = 32) then some n else none
  | unpackhi n _ a b => if size a = some n ∧ size b = some n ∧ (n = 16 ∨ n = 32) then some n else none
  | shufb n mask e => if size e = some n ∧ mask.length = n ∧ (n = 16 ∨ n = 32) then some n else none
  | shufps n _ a b => if size a = some n ∧ size b = some n ∧ (n = 16 ∨ n = 32) then some n else none
  | perm n w idx e => if size e = some n ∧ idx.length * w = n then some n else none
  | srai n w k e => if size e = some n ∧ (k % 8 = 0 ∨ k + 1 = 8 * w) then some n else none
  | slli n _ k e => if size e = some n ∧ k % 8 = 0 then some n else none
  | srli n _ k e => if size e = some n ∧ k % 8 = 0 then some n else none
  | keep n _ _ e => if size e = some n then some n else none
  | or n a b => if size a = some n ∧ size b = some n then some n else none
  | blend16 n _ a b => if size a = some n ∧ size b = some n ∧ (n = 16 ∨ n = 32) then some n else none
  | blend32 n _ a b => if size a = some n ∧ size b = some n ∧ n = 32 then some n else none
  | hadd16 a b => if size a = some 16 ∧ size b = some 16 then some 16 else none
  | cast n s d _ cnt e => match size e with | some m => if cnt * s ≤ m ∧ cnt * d ≤ n then some n else none | none => none

end Expr
open Expr

/-- What a conversion is instantiated with: the instruction set, whether `_Tp` is signed, `sizeof(_Tp)`, `sizeof(_Up)`. -/
structure Cfg where
  ft : Ft
  sgn : Bool
  s : Nat
  d : Nat

/-- `-0x80` in the operand of `_mm_setr_epi8`. -/
def z : Nat := 128
/-- `k` times `-0x80`. -/
def zs (k : Nat) : List Nat := List.replicate k z

/-- The recursive uses of `__convert_x86`: `rc bt bs xs` is the conversion of registers of `bs` bytes to one of `bt` bytes. -/
abbrev Rec := Nat → Nat → List Expr → Option Expr

def lo128 (e : Expr) : Expr := .slice 0 16 e
def hi128 (e : Expr) : Expr := .slice 16 16 e

/-- `_mm[256,512]_cvtepi*_epi*`, truncating, of a register of `n` bytes.  The result is a register of at least 16 bytes. -/
def vpmov (n s d : Nat) (e : Expr) : Expr := .cast (max 16 (n / s * d)) s d false (n / s) e
/-- `is_signed_v<_Tp> ? _mm[..]_cvtepi*_epi*(e) : _mm[..]_cvtepu*_epi*(e)`, extending, to a register of `n` bytes. -/
def vpmovx (n s d : Nat) (sgn : Bool) (e : Expr) : Expr := .cast n s d sgn (n / d) e

/-- `__xzyw` of 32 bytes (simd_x86.h:302-308). -/
def xzyw (e : Expr) : Expr := .perm 32 8 [0, 2, 1, 3] e

/-- The assertions about the instruction set (simd_x86_conversions.h:181-191, 1021-1031, 1565-1575, 1873-1883). -/
def isaOk (c : Cfg) (bt bs : Nat) : Bool :=
  ((bs ≤ 16 && bt ≤ 16) || c.ft.avx2)
    && (c.ft.bw || ((4 ≤ c.s || bs < 64) && (4 ≤ c.d || bt < 64)))
    && ((bs < 64 && bt < 64) || c.ft.f)

/-- `__vector_convert<_To>(__v, make_index_sequence<min(_M, _Np)>())` (simd_x86_conversions.h:863). -/
def fallback1 (c : Cfg) (bt bs : Nat) (v : Expr) : Option Expr := some (.cast bt c.s c.d c.sgn (min (bt / c.d) (bs / c.s)) v)

/-- The instruction sequences of the 1-argument conversion (simd_x86_conversions.h:209-550), for registers that hold equally many
elements, or less than 32 bytes. -/
def seq1 (c : Cfg) (bt bs : Nat) (v : Expr) : Option Expr :=
  let ft := c.ft
  let xx : Bool := bs ≤ 16 && bt ≤ 16
  let xy : Bool := bs ≤ 16 && bt = 32
  let xz : Bool := bs ≤ 16 && bt = 64
  let yx : Bool := bs = 32 && bt ≤ 16
  let yz : Bool := bs = 32 && bt = 64
  let zx : Bool := bs = 64 && bt ≤ 16
  let zy : Bool := bs = 64 && bt = 32
  -- `__intrin`
  let iv : Expr := .fit bs (max 16 bs) v
  -- `return __intrin_bitcast<_To>(e)` for a register `e` of `m` bytes
  let ret (m : Nat) (e : Expr) : Option Expr := some (.fit m bt e)
  -- `__m128i()`
  let o : Expr := .zero 16
  match c.s, c.d with
  | 8, 4 => -- 209-227
    if xx && ft.vl then ret 16 (vpmov 16 8 4 iv)
    else if xx then ret 16 (.shufps 16 8 v o)
    else if yx && ft.vl then ret 16 (vpmov 32 8 4 iv)
    else if yx && ft.f then ret 16 (lo128 (vpmov 64 8 4 (.fit bs 64 v)))
    else if yx then ret 16 (lo128 (.perm 32 8 [0, 2, 0, 0] (.shufps 32 8 iv iv)))
    else if zy then ret 32 (vpmov 64 8 4 iv)
    else fallback1 c bt bs v
  | 8, 2 => -- 228-262
    if xx && ft.vl then ret 16 (vpmov 16 8 2 iv)
    else if xx && ft.f then ret 16 (lo128 (vpmov 64 8 2 (.fit bs 64 v)))
    else if xx && ft.ssse3 then ret 16 (.shufb 16 ([0, 1, 8, 9] ++ zs 12) iv)
    else if yx && ft.vl then ret 16 (vpmov 32 8 2 iv)
    else if yx && ft.f then ret 16 (lo128 (vpmov 64 8 2 (.fit bs 64 v)))
    else if yx then
      let a := .shufb 32 ([0, 1, 8, 9] ++ zs 12 ++ zs 4 ++ [0, 1, 8, 9] ++ zs 8) iv
      ret 16 (.or 16 (lo128 a) (hi128 a))
    else if zx then ret 16 (vpmov 64 8 2 iv)
    else fallback1 c bt bs v
  | 8, 1 => -- 263-277
    if xx && ft.vl then ret 16 (vpmov 16 8 1 iv)
    else if xx && ft.f then ret 16 (lo128 (vpmov 64 8 1 (.zext 16 64 iv)))
    else if yx && ft.vl then ret 16 (vpmov 32 8 1 iv)
    else if yx && ft.f then ret 16 (vpmov 64 8 1 (.zext 32 64 iv))
    else if zx then ret 16 (vpmov 64 8 1 iv)
    else fallback1 c bt bs v
  | 4, 8 => -- 278-299
    if ft.sse41 && xx then ret 16 (vpmovx 16 4 8 c.sgn iv)
    else if xx then ret 16 (.unpacklo 16 4 iv (if c.sgn then .srai 16 4 31 iv else o))
    else if xy then ret 32 (vpmovx 32 4 8 c.sgn iv)
    else if yz then ret 64 (vpmovx 64 4 8 c.sgn iv)
    else fallback1 c bt bs v
  | 4, 2 => -- 300-339
    if xx && ft.vl then ret 16 (vpmov 16 4 2 iv)
    else if xx && ft.f then ret 16 (lo128 (vpmov 64 4 2 (.fit bs 64 v)))
    else if xx && ft.ssse3 then ret 16 (.shufb 16 ([0, 1, 4, 5, 8, 9, 12, 13] ++ zs 8) iv)
    else if xx then
      let a := .unpacklo 16 2 iv o
      let b := .unpackhi 16 2 iv o
      let c' := .unpacklo 16 2 a b
      let d' := .unpackhi 16 2 a b
      ret 16 (.unpacklo 16 2 c' d')
    else if yx && ft.vl then ret 16 (vpmov 32 4 2 iv)
    else if yx && ft.f then ret 16 (lo128 (vpmov 64 4 2 (.fit bs 64 v)))
    else if yx then
      let a := .shufb 32 ([0, 1, 4, 5, 8, 9, 12, 13] ++ zs 8 ++ [0, 1, 4, 5, 8, 9, 12, 13] ++ zs 8) iv
      ret 16 (lo128 (.perm 32 8 [0, 2, 3, 3] a))
    else if zy then ret 32 (vpmov 64 4 2 iv)
    else fallback1 c bt bs v
  | 4, 1 => -- 340-373
    if xx && ft.vl then ret 16 (vpmov 16 4 1 iv)
    else if xx && ft.f then ret 16 (lo128 (vpmov 64 4 1 (.zext 16 64 iv)))
    else if xx && ft.ssse3 then ret 16 (.shufb 16 ([0, 4, 8, 12] ++ zs 12) iv)
    else if xx then
      let a := .unpacklo 16 1 iv iv
      let b := .unpackhi 16 1 iv iv
      let c' := .unpacklo 16 1 a b
      let d' := .unpackhi 16 1 a b
      let e := .unpacklo 16 1 c' d'
      ret 16 (.keep 16 16 4 e)
    else if yx && ft.vl then ret 16 (vpmov 32 4 1 iv)
    else if yx && ft.f then ret 16 (vpmov 64 4 1 (.zext 32 64 iv))
    else if zx then ret 16 (vpmov 64 4 1 iv)
    else fallback1 c bt bs v
  | 2, 8 => -- 374-399
    if xx && ft.sse41 then ret 16 (vpmovx 16 2 8 c.sgn iv)
    else if xx && c.sgn then
      let x := .srai 16 2 15 iv
      let y := .unpacklo 16 2 iv x
      let x := .unpacklo 16 2 x x
      ret 16 (.unpacklo 16 4 y x)
    else if xx then ret 16 (.unpacklo 16 4 (.unpacklo 16 2 iv o) o)
    else if xy then ret 32 (vpmovx 32 2 8 c.sgn iv)
    else if xz then ret 64 (vpmovx 64 2 8 c.sgn iv)
    else fallback1 c bt bs v
  | 2, 4 => -- 400-419
    if xx && ft.sse41 then ret 16 (vpmovx 16 2 4 c.sgn iv)
    else if xx && c.sgn then ret 16 (.srai 16 4 16 (.unpacklo 16 2 iv iv))
    else if xx then ret 16 (.unpacklo 16 2 iv o)
    else if xy then ret 32 (vpmovx 32 2 4 c.sgn iv)
    else if yz then ret 64 (vpmovx 64 2 4 c.sgn iv)
    else fallback1 c bt bs v
  | 2, 1 => -- 420-462
    if xx && ft.bw && ft.vl then ret 16 (vpmov 16 2 1 iv)
    else if xx && ft.bw then ret 16 (lo128 (vpmov 64 2 1 (.zext 16 64 iv)))
    else if xx && ft.ssse3 then ret 16 (.shufb 16 ([0, 2, 4, 6, 8, 10, 12, 14] ++ zs 8) iv)
    else if xx then
      let a := .unpacklo 16 1 iv iv
      let b := .unpackhi 16 1 iv iv
      let c' := .unpacklo 16 1 a b
      let d' := .unpackhi 16 1 a b
      let e := .unpacklo 16 1 c' d'
      let f := .unpackhi 16 1 c' d'
      ret 16 (.unpacklo 16 1 e f)
    else if yx && ft.bw && ft.vl then ret 16 (vpmov 32 2 1 iv)
    else if yx && ft.bw then none -- `__lo256` of a register of 32 bytes: static_assert, simd.h:2144-2149
    else if yx then
      let a := .shufb 32 ([0, 2, 4, 6, 8, 10, 12, 14] ++ zs 8 ++ zs 8 ++ [0, 2, 4, 6, 8, 10, 12, 14]) iv
      ret 16 (.or 16 (lo128 a) (hi128 a))
    else if zy && ft.bw then ret 32 (vpmov 64 2 1 iv)
    else if zy then none
    else fallback1 c bt bs v
  | 1, 8 => -- 463-503
    if xx && ft.sse41 then ret 16 (vpmovx 16 1 8 c.sgn iv)
    else if xx && c.sgn then
      if ft.ssse3 then fallback1 c bt bs v -- the result of the shuffle is not used
      else
        let x := .unpacklo 16 1 iv iv
        let x := .unpacklo 16 2 x x
        ret 16 (.unpacklo 16 4 (.srai 16 4 24 x) (.srai 16 4 31 x))
    else if xx then ret 16 (.unpacklo 16 4 (.unpacklo 16 2 (.unpacklo 16 1 iv o) o) o)
    else if xy then ret 32 (vpmovx 32 1 8 c.sgn iv)
    else if xz then ret 64 (vpmovx 64 1 8 c.sgn iv)
    else fallback1 c bt bs v
  | 1, 4 => -- 504-528
    if xx && ft.sse41 then ret 16 (vpmovx 16 1 4 c.sgn iv)
    else if xx && c.sgn then
      let x := .unpacklo 16 1 iv iv
      ret 16 (.srai 16 4 24 (.unpacklo 16 2 x x))
    else if xx then ret 16 (.unpacklo 16 2 (.unpacklo 16 1 iv o) o)
    else if xy then ret 32 (vpmovx 32 1 4 c.sgn iv)
    else if xz then ret 64 (vpmovx 64 1 4 c.sgn iv)
    else fallback1 c bt bs v
  | 1, 2 => -- 529-550
    if xx && ft.sse41 then ret 16 (vpmovx 16 1 2 c.sgn iv)
    else if xx && c.sgn then ret 16 (.srai 16 2 8 (.unpacklo 16 1 iv iv))
    else if xx then ret 16 (.unpacklo 16 1 iv o)
    else if xy then ret 32 (vpmovx 32 1 2 c.sgn iv)
    else if yz && ft.bw then ret 64 (vpmovx 64 1 2 c.sgn iv)
    else if yz then none
    else fallback1 c bt bs v
  | _, _ => none

/-- The 1-argument conversion (simd_x86_conversions.h:34-865). -/
def conv1 (c : Cfg) (rc : Rec) (bt bs : Nat) (v : Expr) : Option Expr :=
  let np := bs / c.s
  let m := bt / c.d
  if bs = 32 && bt ≤ 16 && !c.ft.avx2 then rc bt 16 [lo128 v, hi128 v]
  else if bs ≤ 16 && bt = 32 && !c.ft.avx2 then
    let total := np / m * 2
    if total = 0 then none
    else do
      let per := np / total * c.s
      let a ← rc (bt / 2) bs [v]
      let b ← rc (bt / 2) per [.slice per per v]
      pure (.concat (bt / 2) a b)
  else if !isaOk c bt bs then none
  else if c.s = c.d then
    if m ≤ np then some (.fit bs bt v) else some (.zext bs bt v)
  else if np < m && 16 < bt then do
    let k := (if np < 16 / c.d then 16 / c.d else np) * c.d
    let r ← rc k bs [v]
    pure (.zext k bt r)
  else if m < np && 16 < bs then
    let len := np / (np / m) * c.s
    rc bt len [.slice 0 len v]
  else seq1 c bt bs v

/-- `_To{static_cast<_Up>(v0[0]), ..., static_cast<_Up>(v1[0]), ...}` (simd_builtin.h:294-300, and the explicit lists at
simd_x86_conversions.h:1096 and 1140). -/
def braced (c : Cfg) (bt np : Nat) (v0 v1 : Expr) : Option Expr :=
  some (.zext (2 * (np * c.d)) bt (.concat (np * c.d) (.cast (np * c.d) c.s c.d c.sgn np v0) (.cast (np * c.d) c.s c.d c.sgn np v1)))

/-- The fallback of the 2-argument conversion (simd_x86_conversions.h:1368-1401). -/
def fallback2 (c : Cfg) (rc : Rec) (bt bs : Nat) (v0 v1 : Expr) : Option Expr :=
  let np := bs / c.s
  if 32 ≤ bt then do
    let a ← rc (bt / 2) bs [v0]
    let b ← rc (bt / 2) bs [v1]
    pure (.concat (bt / 2) a b)
  else if bt = 16 then do
    let lo ← rc bt bs [v0]
    let hi ← rc bt bs [v1]
    if c.d * np = 8 then some (.unpacklo 16 8 lo hi)
    else if c.d * np = 4 then some (.unpacklo 16 4 lo hi)
    else if c.d * np = 2 then some (.unpacklo 16 2 lo hi)
    else none
  else braced c bt np v0 v1

/-- The 2-argument conversion (simd_x86_conversions.h:868-1404). -/
def conv2 (c : Cfg) (rc : Rec) (bt bs : Nat) (v0 v1 : Expr) : Option Expr :=
  let ft := c.ft
  let np := bs / c.s
  let m := bt / c.d
  let xx : Bool := bs ≤ 16 && bt ≤ 16
  let yx : Bool := bs = 32 && bt ≤ 16
  let yy : Bool := bs = 32 && bt = 32
  let zy : Bool := bs = 64 && bt = 32
  let zz : Bool := bs = 64 && bt = 64
  let i0 : Expr := .fit bs (max 16 bs) v0
  let i1 : Expr := .fit bs (max 16 bs) v1
  let ret (k : Nat) (e : Expr) : Option Expr := some (.fit k bt e)
  if m < 2 * np then none -- 881
  else if yx && !ft.avx2 then rc bt 16 [lo128 v0, hi128 v0, lo128 v1, hi128 v1]
  else if !isaOk c bt bs then none
  else if bs < 16 || (bs = 16 && ft.avx2) || (bs = 32 && ft.f && (4 ≤ c.s || ft.bw)) then rc bt (2 * bs) [.concat bs v0 v1]
  else if c.s = c.d then none
  else if 2 * np < m && 16 < bt then do
    let k := (if 2 * np < 16 / c.d then 16 / c.d else 2 * np) * c.d
    let r ← rc k bs [v0, v1]
    pure (.zext k bt r)
  else match c.s, c.d with
  | 8, 4 => -- 1059-1081
    if xx then ret 16 (.shufps 16 0x88 (.fit bs 16 v0) (.fit bs 16 v1))
    else if yy then ret 32 (xzyw (.shufps 32 0x88 (.fit bs 32 v0) (.fit bs 32 v1)))
    else if zz then ret 64 (.concat 32 (vpmov 64 8 4 i0) (vpmov 64 8 4 i1))
    else fallback2 c rc bt bs v0 v1
  | 8, 2 => -- 1082-1115
    if xx then
      if ft.sse41 then
        ret 16 (.shufb 16 ([0, 1, 8, 9, 4, 5, 12, 13] ++ zs 8) (.blend16 16 0x44 i0 (.slli 16 16 32 i1)))
      else braced c bt 2 v0 v1
    else if yx then
      let a := .unpacklo 32 2 i0 i1
      let b := .unpackhi 32 2 i0 i1
      let c' := .unpacklo 32 2 a b
      ret 16 (.unpacklo 16 4 (lo128 c') (hi128 c'))
    else if zy then ret 32 (.concat 16 (vpmov 64 8 2 i0) (vpmov 64 8 2 i1))
    else fallback2 c rc bt bs v0 v1
  | 8, 1 => -- 1116-1154
    if xx && ft.sse41 then ret 16 (.shufb 16 ([0, 8, 4, 12] ++ zs 12) (.blend16 16 0x44 i0 (.slli 16 16 32 i1)))
    else if xx && ft.ssse3 then
      ret 16 (.unpacklo 16 2 (.shufb 16 ([0, 8] ++ zs 14) i0) (.shufb 16 ([0, 8] ++ zs 14) i1))
    else if xx then braced c bt 2 v0 v1
    else if yx then
      let a := .shufb 32 ([0, 8, z, z, 4, 12] ++ zs 10 ++ [z, z, 0, 8, z, z, 4, 12] ++ zs 8)
        (.blend32 32 0xAA i0 (.slli 32 8 32 i1))
      ret 16 (.or 16 (lo128 a) (hi128 a))
    else fallback2 c rc bt bs v0 v1
  | 4, 2 => -- 1155-1202
    if xx then
      if ft.sse41 then
        ret 16 (.shufb 16 [0, 1, 4, 5, 8, 9, 12, 13, 2, 3, 6, 7, 10, 11, 14, 15] (.blend16 16 0xaa i0 (.slli 16 16 16 i1)))
      else if ft.ssse3 then ret 16 (.hadd16 (.fit bs 16 (.slli bs 4 16 v0)) (.fit bs 16 (.slli bs 4 16 v1)))
      else
        let a := .unpacklo 16 2 i0 i1
        let b := .unpackhi 16 2 i0 i1
        let c' := .unpacklo 16 2 a b
        let d' := .unpackhi 16 2 a b
        ret 16 (.unpacklo 16 2 c' d')
    else if yy then
      let shuf := [0, 1, 4, 5, 8, 9, 12, 13] ++ zs 8 ++ [0, 1, 4, 5, 8, 9, 12, 13] ++ zs 8
      let a := .shufb 32 shuf i0
      let b := .shufb 32 shuf i1
      ret 32 (xzyw (.unpacklo 32 8 a b))
    else fallback2 c rc bt bs v0 v1
  | 4, 1 => -- 1203-1234
    if xx && ft.ssse3 then
      let shuf := [0, 4, 8, 12] ++ zs 12
      ret 16 (.unpacklo 16 4 (.shufb 16 shuf i0) (.shufb 16 shuf i1))
    else if xx then
      let a := .unpacklo 16 1 i0 i1
      let b := .unpackhi 16 1 i0 i1
      let c' := .unpacklo 16 1 a b
      let d' := .unpackhi 16 1 a b
      let e := .unpacklo 16 1 c' d'
      ret 16 (.keep 16 16 8 e)
    else if yx then
      let a := .shufb 32 ([0, 4, 8, 12, z, z, z, z, 2, 6, 10, 14, z, z, z, z] ++ [z, z, z, z, 0, 4, 8, 12, z, z, z, z, 2, 6, 10, 14])
        (.blend16 32 0xAA i0 (.slli 32 4 16 i1))
      ret 16 (.or 16 (lo128 a) (hi128 a))
    else fallback2 c rc bt bs v0 v1
  | 2, 1 => -- 1235-1266
    if xx && ft.ssse3 then
      let shuf := [0, 2, 4, 6, 8, 10, 12, 14] ++ zs 8
      ret 16 (.unpacklo 16 8 (.shufb 16 shuf i0) (.shufb 16 shuf i1))
    else if xx then
      let a := .unpacklo 16 1 i0 i1
      let b := .unpackhi 16 1 i0 i1
      let c' := .unpacklo 16 1 a b
      let d' := .unpackhi 16 1 a b
      let e := .unpacklo 16 1 c' d'
      let f := .unpackhi 16 1 c' d'
      ret 16 (.unpacklo 16 1 e f)
    else if yy then
      let shuf := [0, 2, 4, 6, 8, 10, 12, 14, 1, 3, 5, 7, 9, 11, 13, 15]
      ret 32 (xzyw (.shufb 32 (shuf ++ shuf) (.or 32 (.keep 32 2 1 i0) (.slli 32 2 8 i1))))
    else fallback2 c rc bt bs v0 v1
  | _, _ => fallback2 c rc bt bs v0 v1

/-- The fallback of the 4-argument conversion (simd_x86_conversions.h:1784-1814). -/
def fallback4 (c : Cfg) (rc : Rec) (bt bs : Nat) (v0 v1 v2 v3 : Expr) : Option Expr :=
  let np := bs / c.s
  if 32 ≤ bt then do
    let a ← rc (bt / 2) bs [v0, v1]
    let b ← rc (bt / 2) bs [v2, v3]
    pure (.concat (bt / 2) a b)
  else if bt = 16 then do
    let lo ← rc bt bs [v0, v1]
    let hi ← rc bt bs [v2, v3]
    if c.d * np * 2 = 8 then some (.unpacklo 16 8 lo hi)
    else if c.d * np * 2 = 4 then some (.unpacklo 16 4 lo hi)
    else none
  else
    -- `__vector_convert<_To>(__v0, __v1, __v2, __v3, make_index_sequence<_Np>())` (simd_builtin.h:312-323)
    let k (v : Expr) : Expr := .cast (np * c.d) c.s c.d c.sgn np v
    some (.zext (4 * (np * c.d)) bt (.concat (2 * (np * c.d)) (.concat (np * c.d) (k v0) (k v1)) (.concat (np * c.d) (k v2) (k v3))))

/-- The 4-argument conversion (simd_x86_conversions.h:1407-1817). -/
def conv4 (c : Cfg) (rc : Rec) (bt bs : Nat) (v0 v1 v2 v3 : Expr) : Option Expr :=
  let ft := c.ft
  let np := bs / c.s
  let m := bt / c.d
  let xx : Bool := bs ≤ 16 && bt ≤ 16
  let yx : Bool := bs = 32 && bt ≤ 16
  let yy : Bool := bs = 32 && bt = 32
  let i0 : Expr := .fit bs (max 16 bs) v0
  let i1 : Expr := .fit bs (max 16 bs) v1
  let i2 : Expr := .fit bs (max 16 bs) v2
  let i3 : Expr := .fit bs (max 16 bs) v3
  let ret (k : Nat) (e : Expr) : Option Expr := some (.fit k bt e)
  if m < 4 * np then none -- 1422
  else if yx && !ft.avx2 then
    rc bt 16 [lo128 v0, hi128 v0, lo128 v1, hi128 v1, lo128 v2, hi128 v2, lo128 v3, hi128 v3]
  else if !isaOk c bt bs then none
  else if bs < 16 || (bs = 16 && ft.avx2) || (bs = 32 && ft.f) then rc bt (2 * bs) [.concat bs v0 v1, .concat bs v2 v3]
  else if c.s = c.d then none
  else if 4 * np < m && 16 < bt then do
    let k := (if 4 * np < 16 / c.d then 16 / c.d else 4 * np) * c.d
    let r ← rc k bs [v0, v1, v2, v3]
    pure (.zext k bt r)
  else match c.s, c.d with
  | 8, 2 => -- 1602-1650
    if xx && ft.sse41 then
      ret 16 (.shufb 16 [0, 1, 8, 9, 2, 3, 10, 11, 4, 5, 12, 13, 6, 7, 14, 15]
        (.blend16 16 0xcc (.blend16 16 0x22 i0 (.slli 16 16 16 i1)) (.blend16 16 0x88 (.slli 16 16 32 i2) (.slli 16 16 48 i3))))
    else if yy && ft.avx2 then
      let shuf := [0, 1, 4, 5, 8, 9, 12, 13, 2, 3, 6, 7, 10, 11, 14, 15]
      ret 32 (.shufb 32 (shuf ++ shuf)
        (xzyw (.blend16 32 0xaa (.shufps 32 0x88 v0 v2) (.slli 32 4 16 (.shufps 32 0x88 v1 v3)))))
    else fallback4 c rc bt bs v0 v1 v2 v3
  | 8, 1 => -- 1651-1677
    if xx then fallback4 c rc bt bs v0 v1 v2 v3
    else if yx then
      let a := .or 32 (.or 32 (.or 32 (.srli 32 4 24 (.slli 32 4 24 i0)) (.srli 32 4 16 (.slli 32 4 24 i1)))
        (.srli 32 4 8 (.slli 32 4 24 i2))) (.slli 32 4 24 i3)
      let b := .unpackhi 32 8 a a
      let c' := .unpacklo 32 1 a b
      ret 16 (.unpacklo 16 2 (lo128 c') (hi128 c'))
    else fallback4 c rc bt bs v0 v1 v2 v3
  | 4, 1 => -- 1678-1735
    if xx then
      if ft.ssse3 then
        let x0 := .keep 16 4 1 v0
        let x1 := .slli 16 4 8 (.keep 16 4 1 v1)
        let x2 := .slli 16 4 16 (.keep 16 4 1 v2)
        let x3 := .slli 16 4 24 v3
        ret 16 (.shufb 16 [0, 4, 8, 12, 1, 5, 9, 13, 2, 6, 10, 14, 3, 7, 11, 15] (.or 16 (.or 16 (.or 16 x0 x1) x2) x3))
      else
        let a := .unpacklo 16 1 i0 i2
        let b := .unpackhi 16 1 i0 i2
        let c' := .unpacklo 16 1 i1 i3
        let d' := .unpackhi 16 1 i1 i3
        let e := .unpacklo 16 1 a c'
        let f := .unpackhi 16 1 a c'
        let g := .unpacklo 16 1 b d'
        let h := .unpackhi 16 1 b d'
        ret 16 (.unpacklo 16 1 (.unpacklo 16 1 e g) (.unpacklo 16 1 f h))
    else if yy then
      let shuf := [0, 4, 8, 12, 2, 6, 10, 14, 1, 5, 9, 13, 3, 7, 11, 15]
      let a := .shufb 32 (shuf ++ shuf)
        (.or 32 (.keep 32 2 1 (.blend16 32 0xAA i0 (.slli 32 4 16 i1))) (.slli 32 2 8 (.blend16 32 0xAA i2 (.slli 32 4 16 i3))))
      ret 32 (.perm 32 4 [0, 4, 1, 5, 2, 6, 3, 7] a)
    else fallback4 c rc bt bs v0 v1 v2 v3
  | _, _ => fallback4 c rc bt bs v0 v1 v2 v3

/-- The 8-argument conversion (simd_x86_conversions.h:1820-2010). -/
def conv8 (c : Cfg) (rc : Rec) (bt bs : Nat) (v0 v1 v2 v3 v4 v5 v6 v7 : Expr) : Option Expr :=
  let ft := c.ft
  let np := bs / c.s
  let m := bt / c.d
  let xx : Bool := bs ≤ 16 && bt ≤ 16
  let yy : Bool := bs = 32 && bt = 32
  let zz : Bool := bs = 64 && bt = 64
  let ret (k : Nat) (e : Expr) : Option Expr := some (.fit k bt e)
  let i (v : Expr) : Expr := .fit bs (max 16 bs) v
  -- `((__v0 & 0xff) | ((__v1 & 0xff) << 8)) | ...`
  let merge : Expr :=
    let k (j : Nat) (v : Expr) : Expr := .slli bs 8 (8 * j) (.keep bs 8 1 v)
    .or bs (.or bs (.or bs (.keep bs 8 1 v0) (k 1 v1)) (.or bs (k 2 v2) (k 3 v3)))
      (.or bs (.or bs (k 4 v4) (k 5 v5)) (.or bs (k 6 v6) (.slli bs 8 56 v7)))
  if m < 8 * np then none -- 1840
  else if !isaOk c bt bs then none
  else if bs < 16 || (bs = 16 && ft.avx2) || (bs = 32 && ft.f) then
    rc bt (2 * bs) [.concat bs v0 v1, .concat bs v2 v3, .concat bs v4 v5, .concat bs v6 v7]
  else if c.s = c.d then none
  else if 8 * np < m && 16 < bt then none
  else match c.s, c.d with
  | 8, 1 => -- 1904-1973
    if xx && ft.ssse3 then ret 16 (.shufb 16 [0, 8, 1, 9, 2, 10, 3, 11, 4, 12, 5, 13, 6, 14, 7, 15] merge)
    else if xx then
      let a := .unpacklo 16 1 (i v0) (i v1)
      let b := .unpackhi 16 1 (i v0) (i v1)
      let c' := .unpacklo 16 1 (i v2) (i v3)
      let d' := .unpackhi 16 1 (i v2) (i v3)
      let e := .unpacklo 16 1 (i v4) (i v5)
      let f := .unpackhi 16 1 (i v4) (i v5)
      let g := .unpacklo 16 1 (i v6) (i v7)
      let h := .unpackhi 16 1 (i v6) (i v7)
      ret 16 (.unpacklo 16 8 (.unpacklo 16 4 (.unpacklo 16 1 a b) (.unpacklo 16 1 c' d'))
        (.unpacklo 16 4 (.unpacklo 16 1 e f) (.unpacklo 16 1 g h)))
    else if yy then
      let s1 := [0, 8, 1, 9, 2, 10, 3, 11, 4, 12, 5, 13, 6, 14, 7, 15]
      let s2 := [0, 1, 8, 9, 2, 3, 10, 11, 4, 5, 12, 13, 6, 7, 14, 15]
      ret 32 (.shufb 32 (s2 ++ s2) (xzyw (.shufb 32 (s1 ++ s1) merge)))
    else if zz then do
      let a ← rc (bt / 2) bs [v0, v1, v2, v3]
      let b ← rc (bt / 2) bs [v4, v5, v6, v7]
      pure (.concat (bt / 2) a b)
    else none -- no `return` for `__z_to_y` etc.; excluded by line 1840
  | _, _ => none

/-- One unfolding of `__convert_x86`: overload resolution by the number of arguments. -/
def step (c : Cfg) (rc : Rec) : Rec
  | bt, bs, [v] => conv1 c rc bt bs v
  | bt, bs, [v0, v1] => conv2 c rc bt bs v0 v1
  | bt, bs, [v0, v1, v2, v3] => conv4 c rc bt bs v0 v1 v2 v3
  | bt, bs, [v0, v1, v2, v3, v4, v5, v6, v7] => conv8 c rc bt bs v0 v1 v2 v3 v4 v5 v6 v7
  | bt, bs, [v0, v1, v2, v3, v4, v5, v6, v7, v8, v9, v10, v11, v12, v13, v14, v15] =>
    -- 2013-2025
    rc bt (2 * bs) [.concat bs v0 v1, .concat bs v2 v3, .concat bs v4 v5, .concat bs v6 v7, .concat bs v8 v9, .concat bs v10 v11,
      .concat bs v12 v13, .concat bs v14 v15]
  | _, _, _ => none

/-- `__convert_x86` with a bound on the depth of the recursive template instantiations. -/
def conv (c : Cfg) : Nat → Rec
  | 0 => fun _ _ _ => none
  | f + 1 => step c (conv c f)

/-- `__convert_x86<_To>(v0, ..., v{k-1})` for `sizeof(_To) = bt` and `sizeof(v0) = bs`: the program, or `none` if it does not compile.
No instantiation is nested deeper than 12 (if it were, the result here would be `none`). -/
def convert (c : Cfg) (bt bs k : Nat) : Option Expr := do
  let e ← conv c 12 bt bs ((List.range k).map (fun (i : Nat) => Expr.arg i bs))
  if e.size = some bt then some e else none

/-! ## `__convert_all` with SSE2 only -/

/-- Least power of two that is at least `n` (for `n ≤ 16`). -/
def ceil16 (n : Nat) : Nat := if n ≤ 1 then 1 else if n ≤ 2 then 2 else if n ≤ 4 then 4 else if n ≤ 8 then 8 else 16

/-- `array<_To, np>{a...}`: missing initializers are zero, too many are an error. -/
def mkArray (np : Nat) (xs : List Expr) : Option (List Expr) :=
  if xs.length ≤ np then some (xs ++ List.replicate (np - xs.length) (.zero 16)) else none

/-- `__convert_all<_To, nparts>(v)` for integers if SSE4.1 is not available and `_To` is wider than the elements of `v`
(simd_builtin.h:590-757): `v` has `n` elements of `s` bytes, its register has `vb` bytes, `_To` has 16 bytes and elements of `d` bytes.
`fuel` bounds the depth of the instantiations.  Simplification: destinations of floating-point type and registers `_To` of less than
16 bytes are left out. -/
def convertAll (sgn : Bool) : Nat → (s d n vb nparts : Nat) → Expr → Option (List Expr)
  | 0, _, _, _, _, _, _ => none
  | fuel + 1, s, d, n, vb, nparts, v =>
    let full := 16 / d
    let np := if nparts ≠ 0 then nparts else n / full
    let vi : Expr := .fit vb 16 v
    let o : Expr := .zero 16
    -- `__make_array(x0, x1)`, 615-621
    let make (x0 x1 : Expr) : Option (List Expr) := if np = 1 then mkArray 1 [x0] else mkArray np [x0, x1]
    -- `__adjust(_SizeConstant<m>(), v)`, 609-613
    let adjust (m : Nat) : Expr := .fit vb (ceil16 (m * s)) v
    if nparts = 1 then
      -- 582-589: `__extract_part<0, total>`, then `__vector_convert<_To>` of `n / total` elements, which uses `__convert_x86` only for
      -- registers without padding (simd_builtin.h:501-518)
      let total := (n + full - 1) / full
      let k := n / total
      if k = 0 then none else
      let part : Expr := .slice 0 (ceil16 (k * s)) v
      if k * s = ceil16 (k * s) then (conv ⟨⟨false, false, false, false, false, false⟩, sgn, s, d⟩ 12 16 (k * s) [part]).map (fun e => [e])
      else some [.cast 16 s d sgn (min full k) part]
    else if np = 0 then some []
    else match s, d, sgn with
    | 1, 2, false => make (.unpacklo 16 1 vi o) (.unpackhi 16 1 vi o)
    | 1, 2, true => make (.srai 16 2 8 (.unpacklo 16 1 vi vi)) (.srai 16 2 8 (.unpackhi 16 1 vi vi))
    | 2, 4, false => make (.unpacklo 16 2 vi o) (.unpackhi 16 2 vi o)
    | 2, 4, true => make (.srai 16 4 16 (.unpacklo 16 2 vi vi)) (.srai 16 4 16 (.unpackhi 16 2 vi vi))
    | 4, 8, false => make (.unpacklo 16 4 vi o) (.unpackhi 16 4 vi o)
    | 4, 8, true => make (.unpacklo 16 4 vi (.srai 16 4 31 vi)) (.unpackhi 16 4 vi (.srai 16 4 31 vi))
    | 1, _, true => -- 680-712
      let vv0 := .unpacklo 16 1 vi vi
      let vv1 := .unpackhi 16 1 vi vi
      let vvvv : List Expr := [.unpacklo 16 2 vv0 vv0, .unpackhi 16 2 vv0 vv0, .unpacklo 16 2 vv1 vv1, .unpackhi 16 2 vv1 vv1]
      if d = 4 then (List.range np).mapM (fun (i : Nat) => (vvvv[i]?).map (fun e => Expr.srai 16 4 24 e))
      else (List.range np).mapM (fun (i : Nat) => (vvvv[i / 2]?).map (fun e =>
        if i % 2 = 0 then Expr.unpacklo 16 4 (.srai 16 4 24 e) (.srai 16 4 31 e)
        else Expr.unpackhi 16 4 (.srai 16 4 24 e) (.srai 16 4 31 e)))
    | 1, 4, false => do -- 713-721
      let m := (np + 1) / 2 * 8
      let shorts ← convertAll sgn fuel 1 2 m (ceil16 m) 0 (adjust m)
      (List.range np).mapM (fun (i : Nat) => do
        let x ← shorts[i / 2]?
        let r ← convertAll sgn fuel 2 4 8 16 0 x
        r[i % 2]?)
    | 2, 8, true => -- 722-743
      let vv0 := .unpacklo 16 2 vi vi
      let vv1 := .unpackhi 16 2 vi vi
      let vvvv : List Expr :=
        [.unpacklo 16 4 (.srai 16 4 16 vv0) (.srai 16 4 31 vv0), .unpackhi 16 4 (.srai 16 4 16 vv0) (.srai 16 4 31 vv0),
         .unpacklo 16 4 (.srai 16 4 16 vv1) (.srai 16 4 31 vv1), .unpackhi 16 4 (.srai 16 4 16 vv1) (.srai 16 4 31 vv1)]
      (List.range np).mapM (fun (i : Nat) => vvvv[i]?)
    | _, 8, false => do -- 744-754
      let m := (np + 1) / 2 * 4
      let ints ← convertAll sgn fuel s 4 m (ceil16 (m * s)) 0 (adjust m)
      (List.range np).mapM (fun (i : Nat) => do
        let x ← ints[i / 2]?
        let r ← convertAll sgn fuel 4 8 4 16 0 x
        r[i % 2]?)
    | _, _, _ => none

/-- There are registers of `b` bytes for integers of `w` bytes (vectors of at least two elements; `__vectorized_sizeof`, simd.h:2573-2620: the ABI tags that are
valid for integers). -/
def RegOk (ft : Ft) (w b : Nat) : Prop := 2 * w ≤ b ∧ (b ≤ 16 ∨ (b = 32 ∧ ft.avx2 = true) ∨ (b = 64 ∧ ft.f = true ∧ (4 ≤ w ∨ ft.bw = true)))

instance (ft : Ft) (w b : Nat) : Decidable (RegOk ft w b) := inferInstanceAs (Decidable (_ ∧ _))

/-- The instantiations in question: `k` registers of `bs` bytes are converted to one of `bt` bytes.  Several arguments must fit into the
result (the static_asserts at 881, 1422, 1840).  Without AVX2 there are no integer vectors of 32 bytes in the interface, but the conversions
from and to floating-point types make them: as arguments if all elements fit into 16 bytes (175-176, 1017-1020, 1558-1564), as a result for
one argument that fills it (177-180). -/
def Legal (c : Cfg) (bt bs k : Nat) : Prop :=
  (RegOk c.ft c.s bs ∨ (bs = 32 ∧ bt ≤ 16 ∧ k * (bs / c.s) ≤ bt / c.d))
    ∧ (RegOk c.ft c.d bt ∨ (bt = 32 ∧ bs ≤ 16 ∧ k = 1 ∧ bt / c.d ≤ bs / c.s))
    ∧ (k = 1 ∨ k * (bs / c.s) ≤ bt / c.d)

instance (c : Cfg) (bt bs k : Nat) : Decidable (Legal c bt bs k) := inferInstanceAs (Decidable (_ ∧ _))

end StdSimd.X86Convert
