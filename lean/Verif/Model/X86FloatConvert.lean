import Verif.Model.X86Convert
import Verif.Spec.NumCast
import Verif.Spec.FloatMath
/-!
# Model of the x86 register conversions from and to floating-point types (experimental/bits/simd_x86_conversions.h)

As in `Model.X86Convert` the cascade of `if constexpr` yields a program, and the effect of its instructions is kept apart.  Here a
register is the list of its elements, and the program is given by one term (`Tm`) per element of the result: the instructions that move
elements between registers act on the lists, the instructions that compute are the constructors of `Tm`.  `none` is a program that does not
compile.  Conversions between integers that are used on the way are those of `Model.X86Convert` (`convInt`; C46 is about them).

Trusted: the meaning of the instructions (`Tm.eval`): `vcvt*` round in the current direction and truncating conversions (`vcvtt*`) give the
"integer indefinite" value if the result does not fit (Intel SDM, vol. 1, 4.8.3.9 and `VCVTTPD2UDQ` etc.); `+`, `-`, `*` of vectors are the
IEEE operations, `a * b + c` is contracted to one operation or not (`Env.fused`).
-/
namespace StdSimd.X86FloatConvert
open Spec

/-- The instruction set: the flags of `X86Convert.Ft`, `__have_avx`, `__have_avx512dq`, `__have_fma || __have_fma4`. -/
structure Ft where
  i : X86Convert.Ft
  avx : Bool
  dq : Bool
  fma : Bool
  deriving DecidableEq

/-- AVX2 implies AVX, which implies SSE4.1; AVX512DQ implies AVX512F. -/
def Ft.Consistent (ft : Ft) : Prop :=
  ft.i.Consistent ∧ (ft.i.avx2 = true → ft.avx = true) ∧ (ft.avx = true → ft.i.sse41 = true) ∧ (ft.dq = true → ft.i.f = true)
    ∧ (ft.fma = true → ft.avx = true)

/-- The format of floating-point elements of `d` bytes. -/
def fmt (d : Nat) : Fmt := if d = 4 then ⟨8, 23⟩ else ⟨11, 52⟩

/-- What the program leaves open: the rounding direction, the NaNs it computes, whether `a * b + c` is one operation, the results of
undefined conversions and the contents of unspecified elements. -/
structure Env where
  mode : RMode
  nan (d : Nat) : (fmt d).Bits → (fmt d).Bits → (fmt d).Bits
  isNaN : ∀ (d : Nat) (x y : (fmt d).Bits), (fmt d).isNaN (nan d x y)
  cvtNan (s d : Nat) : (fmt s).Bits → (fmt d).Bits
  cvtIsNaN : ∀ (s d : Nat) (x : (fmt s).Bits), (fmt d).isNaN (cvtNan s d x)
  fused : Bool
  undef : Nat → Nat
  junk : Nat

/-- The floating-point environment for elements of `d` bytes. -/
def Env.at (env : Env) (d : Nat) : (fmt d).Env := ⟨env.mode, env.nan d, env.isNaN d⟩

/-- What one element of the result is computed by. -/
inductive Tm where
  /-- element `i` of argument `k` -/
  | arg (k i : Nat)
  | zero
  /-- unspecified (`__intrin_bitcast` to a larger register and the like) -/
  | junk
  /-- an integer of `s` bytes to a floating-point number of `d` bytes: `vcvtdq2ps`, `vcvtuqq2pd`, ..., or `static_cast` -/
  | ofInt (sgn : Bool) (s d : Nat) (t : Tm)
  /-- truncation of a floating-point number of `s` bytes to an integer of `d` bytes by `vcvttps2dq`, `vcvttpd2udq`, ... -/
  | trunc (s : Nat) (sgn : Bool) (d : Nat) (t : Tm)
  /-- `static_cast` of a floating-point number of `s` bytes to an integer of `d` bytes -/
  | scast (s : Nat) (sgn : Bool) (d : Nat) (t : Tm)
  /-- between `float` and `double`: `vcvtps2pd`, `vcvtpd2ps` or `static_cast` -/
  | fcvt (s d : Nat) (t : Tm)
  /-- between integers -/
  | icast (sgn : Bool) (s d : Nat) (t : Tm)
  /-- `>> k`, `_mm512_srai_epi64`, `_mm256_srli_epi32` of an integer of `s` bytes -/
  | shr (sgn : Bool) (s k : Nat) (t : Tm)
  /-- the low (`0`) or high (`1`) half of eight bytes -/
  | half (h : Nat) (t : Tm)
  /-- `&` and `^` with a constant -/
  | and (c : Nat) (t : Tm)
  | xor (c : Nat) (t : Tm)
  /-- a constant -/
  | lit (d c : Nat)
  | add (d : Nat) (a b : Tm)
  | sub (d : Nat) (a b : Tm)
  | mul (d : Nat) (a b : Tm)
  /-- `a * b + c` -/
  | madd (d : Nat) (a b c : Tm)
  /-- `_mm[256]_floor_pd` -/
  | floor (d : Nat) (t : Tm)
  deriving DecidableEq

/-- The bits of the result of a truncating conversion instruction. -/
def truncTo (f : Fmt) (sgn : Bool) (d : Nat) (b : f.Bits) : Nat :=
  if f.isFinite b ∧ (⟨false, sgn, d⟩ : NumType).InRange (truncZ (f.ratValue b)) then castBits d (truncZ (f.ratValue b))
  else if sgn then 2 ^ (8 * d - 1) else 2 ^ (8 * d) - 1

/-- The bits of `static_cast` to an integer type; `u` if it is undefined. -/
def castTo (u : Nat) (f : Fmt) (sgn : Bool) (d : Nat) (b : f.Bits) : Nat :=
  if f.isFinite b ∧ (⟨false, sgn, d⟩ : NumType).InRange (truncZ (f.ratValue b)) then castBits d (truncZ (f.ratValue b)) else u

/-- Conversion between floating-point formats, of elements of `s` bytes to elements of `d` bytes. -/
def fcvtTo (env : Env) (s d : Nat) (b : (fmt s).Bits) : (fmt d).Bits :=
  if (fmt s).isNaN b then env.cvtNan s d b
  else if (fmt s).isInf b then (fmt d).ofMag ((fmt s).sign b) (fmt d).infMag
  else (fmt d).round env.mode ((fmt s).sign b) ((fmt s).ratValue b)

/-- The bits of the value of a term. -/
def Tm.eval (env : Env) (args : Nat → Nat → Nat) : Tm → Nat
  | arg k i => args k i
  | zero => 0
  | junk => env.junk
  | ofInt sgn s d t => (Fmt.ofInt (env.at d) (intValue sgn s (t.eval env args))).toNat
  | trunc s sgn d t => truncTo (fmt s) sgn d (BitVec.ofNat _ (t.eval env args))
  | scast s sgn d t => castTo (env.undef (t.eval env args)) (fmt s) sgn d (BitVec.ofNat _ (t.eval env args))
  | fcvt s d t => (fcvtTo env s d (BitVec.ofNat _ (t.eval env args))).toNat
  | icast sgn s d t => castBits d (intValue sgn s (t.eval env args))
  | shr sgn s k t => castBits s (intValue sgn s (t.eval env args) / 2 ^ k)
  | half h t => t.eval env args / 2 ^ (32 * h) % 2 ^ 32
  | and c t => t.eval env args &&& c
  | xor c t => t.eval env args ^^^ c
  | lit d c => (Fmt.ofInt (env.at d) c).toNat
  | add d a b => (Fmt.add (env.at d) (BitVec.ofNat _ (a.eval env args)) (BitVec.ofNat _ (b.eval env args))).toNat
  | sub d a b => (Fmt.sub (env.at d) (BitVec.ofNat _ (a.eval env args)) (BitVec.ofNat _ (b.eval env args))).toNat
  | mul d a b => (Fmt.mul (env.at d) (BitVec.ofNat _ (a.eval env args)) (BitVec.ofNat _ (b.eval env args))).toNat
  | madd d a b c =>
    let x : (fmt d).Bits := BitVec.ofNat _ (a.eval env args)
    let y : (fmt d).Bits := BitVec.ofNat _ (b.eval env args)
    let z : (fmt d).Bits := BitVec.ofNat _ (c.eval env args)
    (if env.fused then Fmt.fma (env.at d) x y z else Fmt.add (env.at d) (Fmt.mul (env.at d) x y) z).toNat
  | floor d t => (Fmt.rint (env.at d) .down (BitVec.ofNat _ (t.eval env args))).toNat

/-! ## Registers -/

abbrev Reg := List Tm

/-- The first `n` elements, further ones are unspecified: `__intrin_bitcast`, `__auto_bitcast`, `__vector_bitcast`, `__to_intrin` (as
`X86Convert.Expr.fit`), and `__lo128`, `__lo256`, `__extract_part<0, ...>`. -/
def fit (n : Nat) (v : Reg) : Reg := (List.range n).map (fun i => v.getD i .junk)

/-- `__zero_extend` to `n` elements. -/
def zext (n : Nat) (v : Reg) : Reg := v ++ List.replicate (n - v.length) .zero

/-- An instruction that computes `n` elements from the first `n` of its operand; the rest of the register, of `full` elements, is zero. -/
def ins (n full : Nat) (op : Tm → Tm) (v : Reg) : Reg := (fit n v).map op ++ List.replicate (full - n) .zero

/-- `_mm_unpacklo_epi{8g}` of registers of 16 bytes with elements of `d` bytes: groups of `g` bytes, alternately. -/
def unpacklo (d g : Nat) (a b : Reg) : Reg :=
  (List.range (16 / d)).map (fun i =>
    let e := g / d
    let j := i / (2 * e) * e + i % e
    if i / e % 2 = 0 then a.getD j .junk else b.getD j .junk)

abbrev Ty := NumType
def f32 : Ty := ⟨true, true, 4⟩
def f64 : Ty := ⟨true, true, 8⟩
def s32 : Ty := ⟨false, true, 4⟩
def u32 : Ty := ⟨false, false, 4⟩

/-- `static_cast<U>` of an element of type `T`. -/
def cast (T U : Ty) : Tm → Tm :=
  match T.fp, U.fp with
  | false, false => .icast T.sgn T.size U.size
  | false, true => .ofInt T.sgn T.size U.size
  | true, false => .scast T.size U.sgn U.size
  | true, true => .fcvt T.size U.size

/-- `__vector_convert<_To>(v, make_index_sequence<n>())` (simd_builtin.h:286-300): the remaining elements of `_To` are zero. -/
def vectorConvert (T U : Ty) (m n : Nat) (v : Reg) : Reg := zext m ((fit n v).map (cast T U))

/-- The conversion between integers (C46): defined if it compiles; elements without a source are unspecified. -/
def convInt (ft : Ft) (T U : Ty) (bt bs : Nat) (vs : List Reg) : Option Reg :=
  let c : X86Convert.Cfg := ⟨ft.i, T.sgn, T.size, U.size⟩
  if X86Convert.Legal c bt bs vs.length ∧ (X86Convert.convert c bt bs vs.length).isSome then
    some (fit (bt / U.size) ((vs.flatten.take (min (bt / U.size) (vs.length * (bs / T.size)))).map (cast T U)))
  else none

/-- The recursive uses of `__convert_x86`. -/
abbrev Rec := Ty → Ty → (bt bs : Nat) → List Reg → Option Reg

/-- `__f64_to_u32` by way of signed integers: `cvttpd_epi32(floor_pd(x) - 0x8000'0000u)`, before the exclusive or. -/
def shifted (t : Tm) : Tm := .trunc 8 true 4 (.sub 8 (.floor 8 t) (.lit 8 0x80000000))
/-- `0x10000 * cvtepi32_ps(x >> 16) + cvtepi32_ps(x & 0xffff)` -/
def u32Split (t : Tm) : Tm := .madd 4 (.lit 4 0x10000) (.ofInt true 4 4 (.shr false 4 16 t)) (.ofInt true 4 4 (.and 0xffff t))
/-- `cvtepi32_pd(cvtepi64_epi32(x >> 32)) * 0x100000000LL + cvtepu32_pd(cvtepi64_epi32(x))`, or with `cvtepu32_pd` for unsigned `x` -/
def i64Split (sgn : Bool) (t : Tm) : Tm :=
  .madd 8 (.ofInt sgn 4 8 (.icast sgn 8 4 (.shr sgn 8 32 t))) (.lit 8 0x100000000) (.ofInt false 4 8 (.icast sgn 8 4 t))
/-- `cvtepu32_ps(cvtepi64_epi32(srai_epi64(x, 32))) * 0x100000000LL + cvtepu32_ps(cvtepi64_epi32(x))` -/
def u64Split (t : Tm) : Tm :=
  .madd 4 (.ofInt false 4 4 (.icast true 8 4 (.shr true 8 32 t))) (.lit 4 0x100000000) (.ofInt false 4 4 (.icast true 8 4 t))

/-- The 1-argument conversion after the common cases (simd_x86_conversions.h:551-864). -/
def seq1 (ft : Ft) (rc : Rec) (T U : Ty) (bt bs : Nat) (v : Reg) : Option Reg :=
  let np := bs / T.size
  let m := bt / U.size
  let dqvl := ft.dq && ft.i.vl
  let xx : Bool := bs ≤ 16 && bt ≤ 16
  let xy : Bool := bs ≤ 16 && bt = 32
  let yx : Bool := bs = 32 && bt ≤ 16
  let yy : Bool := bs = 32 && bt = 32
  let yz : Bool := bs = 32 && bt = 64
  let zy : Bool := bs = 64 && bt = 32
  let zz : Bool := bs = 64 && bt = 64
  let ret (r : Reg) : Option Reg := some (fit m r)
  let fallback : Option Reg := some (vectorConvert T U m (min m np) v) -- 863
  if T.fp && !U.fp && T.size = 4 && U.size = 8 then -- __f32_to_s64, __f32_to_u64 (551-570)
    if dqvl && xx then ret (ins 2 2 (.trunc 4 U.sgn 8) v)
    else if dqvl && xy then ret (ins 4 4 (.trunc 4 U.sgn 8) v)
    else if ft.dq && yz then ret (ins 8 8 (.trunc 4 U.sgn 8) v)
    else fallback
  else if T = f32 && U = s32 then -- 571-579
    if xx || yy || zz then fallback else none
  else if T = f32 && U = u32 then -- 580-600
    if ft.i.vl && xx then ret (ins 4 4 (.trunc 4 false 4) v)
    else if ft.i.f && xx then ret (fit 4 (ins 16 16 (.trunc 4 false 4) v))
    else if ft.i.vl && yy then ret (ins 8 8 (.trunc 4 false 4) v)
    else if ft.i.f && yy then ret (fit 8 (ins 16 16 (.trunc 4 false 4) v))
    else if xx || yy || zz then fallback
    else none
  else if T = f32 && !U.fp then do -- __f32_to_ibw (601-602)
    let r ← rc f32 s32 (np * 4) bs [v]
    rc s32 U bt (np * 4) [r]
  else if T = f64 && !U.fp && U.size = 8 then -- __f64_to_s64, __f64_to_u64 (603-622)
    if dqvl && xx then ret (ins 2 2 (.trunc 8 U.sgn 8) v)
    else if dqvl && yy then ret (ins 4 4 (.trunc 8 U.sgn 8) v)
    else if ft.dq && zz then ret (ins 8 8 (.trunc 8 U.sgn 8) v)
    else fallback
  else if T = f64 && U = s32 then -- 623-631
    if xx then ret (ins 2 4 (.trunc 8 true 4) v)
    else if yx then ret (ins 4 4 (.trunc 8 true 4) v)
    else if zy then ret (ins 8 8 (.trunc 8 true 4) v)
    else fallback
  else if T = f64 && U = u32 then -- 632-657
    if ft.i.vl && xx then ret (ins 2 4 (.trunc 8 false 4) v)
    else if ft.i.sse41 && xx then ret ((ins 2 4 shifted v).map (.xor 0x80000000))
    else if xx then fallback
    else if ft.i.vl && yx then ret (ins 4 4 (.trunc 8 false 4) v)
    else if yx then ret ((ins 4 4 shifted v).map (.xor 0x80000000))
    else if zy then ret (ins 8 8 (.trunc 8 false 4) v)
    else fallback
  else if T = f64 && !U.fp then do -- __f64_to_ibw (658-662)
    let n := if np < 4 then 4 else np
    let r ← rc f64 s32 (n * 4) bs [v]
    rc s32 U bt (n * 4) [r]
  else if !T.fp && T.size = 8 && U = f32 then -- __s64_to_f32, __u64_to_f32 (663-693)
    if xx && dqvl then ret (ins 2 4 (.ofInt T.sgn 8 4) v)
    else if yx && dqvl then ret (ins 4 4 (.ofInt T.sgn 8 4) v)
    else if zy && ft.dq then ret (ins 8 8 (.ofInt T.sgn 8 4) v)
    else if zy && T.sgn then do
      let r ← rc T f64 64 bs [v]
      ret (ins 8 8 (.fcvt 8 4) r)
    else if zy then ret (ins 8 8 u64Split v)
    else fallback
  else if T = s32 && U = f32 then fallback -- 694-697
  else if T = u32 && U = f32 then -- 698-725
    if xx && ft.i.vl then fallback
    else if xx && ft.i.f then ret (fit 4 (ins 16 16 (.ofInt false 4 4) v))
    else if xx && ft.fma then ret (ins 4 4 u32Split v)
    else if yy && ft.i.vl then fallback
    else if yy && ft.i.f then ret (fit 8 (ins 16 16 (.ofInt false 4 4) v))
    else if yy then ret (ins 8 8 u32Split v)
    else fallback
  else if !T.fp && U = f32 then -- __ibw_to_f32 (726-777)
    if m ≤ 4 || ft.i.avx2 then do
      let r ← rc T s32 (m * 4) bs [v]
      rc s32 f32 bt (m * 4) [r]
    else if !xy then none
    else if ft.i.sse41 then
      let cvt (off : Nat) : Reg := ins 4 4 (.icast T.sgn T.size 4) (v.drop off)
      rc s32 f32 bt 16 [cvt 0, cvt 4]
    else none -- SSE2 code for registers of 32 bytes, which need AVX: not modelled
  else if !T.fp && T.size = 8 && U = f64 then -- __s64_to_f64, __u64_to_f64 (778-809)
    if xx && dqvl then ret (ins 2 2 (.ofInt T.sgn 8 8) v)
    else if yy && dqvl then ret (ins 4 4 (.ofInt T.sgn 8 8) v)
    else if zz && ft.dq then ret (ins 8 8 (.ofInt T.sgn 8 8) v)
    else if zz then ret (ins 8 8 (i64Split T.sgn) v)
    else fallback
  else if T = s32 && U = f64 then -- 810-818
    if xx then ret (ins 2 2 (.ofInt true 4 8) v)
    else if xy then ret (ins 4 4 (.ofInt true 4 8) v)
    else if yz then ret (ins 8 8 (.ofInt true 4 8) v)
    else fallback
  else if T = u32 && U = f64 then -- 819-839
    let viaSigned (t : Tm) : Tm := .add 8 (.ofInt true 4 8 (.xor 0x80000000 t)) (.lit 8 0x80000000)
    if xx && ft.i.vl then ret (ins 2 2 (.ofInt false 4 8) v)
    else if xx && ft.i.f then ret (fit 2 (ins 8 8 (.ofInt false 4 8) v))
    else if xx then ret (ins 2 2 viaSigned v)
    else if xy && ft.i.vl then ret (ins 4 4 (.ofInt false 4 8) v)
    else if xy && ft.i.f then ret (fit 4 (ins 8 8 (.ofInt false 4 8) v))
    else if xy then ret (ins 4 4 viaSigned v)
    else if yz then ret (ins 8 8 (.ofInt false 4 8) v)
    else fallback
  else if !T.fp && U = f64 then do -- __ibw_to_f64 (840-844)
    let n := max 4 m
    let r ← rc T s32 (n * 4) bs [v]
    rc s32 f64 bt (n * 4) [r]
  else if T = f32 && U = f64 then -- 845-853
    if xx then ret (ins 2 2 (.fcvt 4 8) v)
    else if xy then ret (ins 4 4 (.fcvt 4 8) v)
    else if yz then ret (ins 8 8 (.fcvt 4 8) v)
    else fallback
  else if T = f64 && U = f32 then -- 854-862
    if xx then ret (ins 2 4 (.fcvt 8 4) v)
    else if yx then ret (ins 4 4 (.fcvt 8 4) v)
    else if zy then ret (ins 8 8 (.fcvt 8 4) v)
    else fallback
  else none

/-- The 1-argument conversion (simd_x86_conversions.h:34-865). -/
def conv1 (ft : Ft) (rc : Rec) (T U : Ty) (bt bs : Nat) (v : Reg) : Option Reg :=
  let np := bs / T.size
  let m := bt / U.size
  if !T.fp && !U.fp then convInt ft T U bt bs [v]
  else if T.fp = U.fp && T.size = U.size then
    if m ≤ np then some (fit m v) else some (zext m v)
  else if np < m && 16 < bt then do
    let k := if np < 16 / U.size then 16 / U.size else np
    let r ← rc T U (k * U.size) bs [v]
    pure (zext m r)
  else if m < np && 16 < bs then
    let len := np / (np / m)
    rc T U bt (len * T.size) [fit len v]
  else seq1 ft rc T U bt bs v

/-- The fallback of the 2-argument conversion (simd_x86_conversions.h:1368-1401). -/
def fallback2 (rc : Rec) (T U : Ty) (bt bs : Nat) (v0 v1 : Reg) : Option Reg :=
  let np := bs / T.size
  if 32 ≤ bt then do
    let a ← rc T U (bt / 2) bs [v0]
    let b ← rc T U (bt / 2) bs [v1]
    pure (a ++ b)
  else if bt = 16 then do
    let lo ← rc T U bt bs [v0]
    let hi ← rc T U bt bs [v1]
    if U.size * np = 8 then some (unpacklo U.size 8 lo hi)
    else if U.size * np = 4 then some (unpacklo U.size 4 lo hi)
    else if U.size * np = 2 then some (unpacklo U.size 2 lo hi)
    else none
  else some (zext (bt / U.size) ((fit np v0 ++ fit np v1).map (cast T U)))

/-- `(hi + mid) + lo` of the conversion of 64-bit integers from the halves (simd_x86_conversions.h:1272-1290); `cvt` converts the upper
halves. -/
def halves (cvt : Tm → Tm) (t : Tm) : Tm :=
  .add 4 (.add 4 (.mul 4 (.lit 4 0x100000000) (cvt (.half 1 t))) (.mul 4 (.lit 4 0x10000) (.ofInt true 4 4 (.shr false 4 16 (.half 0 t)))))
    (.ofInt true 4 4 (.and 0xffff (.half 0 t)))
/-- `(__hi32 * 0x100000000LL + __hi16) + __lo16` (simd_x86_conversions.h:1298-1314) -/
def halves512 (t : Tm) : Tm :=
  .add 4 (.madd 4 (.ofInt true 4 4 (.icast true 8 4 (.shr true 8 32 t))) (.lit 4 0x100000000)
      (.ofInt false 4 4 (.and 0xffff0000 (.icast true 8 4 t))))
    (.ofInt true 4 4 (.and 0xffff (.icast true 8 4 t)))

/-- In every 16 bytes, interleave the low (`h = 0`) or high (`h = 1`) halves: `_mm256_unpacklo_epi32`, `_mm256_unpackhi_epi32` on elements of
4 bytes. -/
def unpack32 (h : Nat) (a b : Reg) : Reg :=
  (List.range a.length).map (fun i =>
    let j := i / 4 * 4 + 2 * h + i % 4 / 2
    if i % 2 = 0 then a.getD j .junk else b.getD j .junk)
/-- The halves of elements of 8 bytes. -/
def split32 (v : Reg) : Reg := v.flatMap (fun t => [.half 0 t, .half 1 t])
/-- `__xzyw` of 32 bytes with elements of 4 bytes (simd_x86.h:296-301). -/
def xzyw (v : Reg) : Reg := v.take 2 ++ (v.drop 4).take 2 ++ (v.drop 2).take 2 ++ v.drop 6

/-- The 2-argument conversion (simd_x86_conversions.h:868-1404). -/
def conv2 (ft : Ft) (rc : Rec) (T U : Ty) (bt bs : Nat) (v0 v1 : Reg) : Option Reg :=
  let np := bs / T.size
  let m := bt / U.size
  let xx : Bool := bs ≤ 16 && bt ≤ 16
  let yy : Bool := bs = 32 && bt = 32
  let zz : Bool := bs = 64 && bt = 64
  if m < 2 * np then none -- 881
  else if !T.fp && !U.fp then convInt ft T U bt bs [v0, v1]
  else if bs < 16 || (bs = 16 && ft.i.avx2) || (bs = 16 && ft.avx && T.fp) || (bs = 32 && ft.i.f && (4 ≤ T.size || ft.i.bw)) then
    rc T U bt (2 * bs) [v0 ++ v1] -- 1033-1042
  else if T.fp = U.fp && T.size = U.size then none -- 1047-1049
  else if 2 * np < m && 16 < bt then do -- 1051-1057
    let k := if 2 * np < 16 / U.size then 16 / U.size else 2 * np
    let r ← rc T U (k * U.size) bs [v0, v1]
    pure (zext m r)
  else if !T.fp && T.size = 8 && U = f32 then -- 1267-1325
    if xx then some (fit 4 ((fit 2 v0 ++ fit 2 v1).map (cast T U)))
    else if yy then
      if !ft.i.avx2 then none
      else do
        let a := unpack32 0 (split32 v0) (split32 v1)
        let b := unpack32 1 (split32 v0) (split32 v1)
        let lo32 := unpack32 0 a b
        let hi32 := unpack32 1 a b
        let h ← rc ⟨false, T.sgn, 4⟩ f32 32 32 [hi32]
        let hi := h.map (.mul 4 (.lit 4 0x100000000))
        let mid := lo32.map (fun t => .mul 4 (.lit 4 0x10000) (.ofInt true 4 4 (.shr false 4 16 t)))
        let lo := lo32.map (fun t => .ofInt true 4 4 (.and 0xffff t))
        some (xzyw (List.zipWith (.add 4) (List.zipWith (.add 4) hi mid) lo))
    else if zz && ft.dq then some (ins 8 8 (.ofInt T.sgn 8 4) v0 ++ ins 8 8 (.ofInt T.sgn 8 4) v1)
    else if zz && T.sgn then some ((fit 8 v0 ++ fit 8 v1).map halves512)
    else if zz then some ((fit 8 v0 ++ fit 8 v1).map u64Split)
    else fallback2 rc T U bt bs v0 v1
  else if T = f64 && U = u32 then -- 1330-1350
    if xx && ft.i.sse41 then some ((unpacklo 4 8 (ins 2 4 shifted v0) (ins 2 4 shifted v1)).map (.xor 0x80000000))
    else if yy then some ((ins 4 4 shifted v0 ++ ins 4 4 shifted v1).map (.xor 0x80000000))
    else fallback2 rc T U bt bs v0 v1
  else if T = f64 && !U.fp && U.size ≤ 2 then do -- 1351-1362
    let r ← rc f64 s32 (np * 2 * 4) bs [v0, v1]
    rc s32 U bt (np * 2 * 4) [r]
  else if T = f32 && !U.fp && U.size ≤ 2 then do -- 1363-1368
    let a ← rc f32 s32 (np * 4) bs [v0]
    let b ← rc f32 s32 (np * 4) bs [v1]
    rc s32 U bt (np * 4) [a, b]
  else fallback2 rc T U bt bs v0 v1

/-- The fallback of the 4-argument conversion (simd_x86_conversions.h:1784-1814). -/
def fallback4 (rc : Rec) (T U : Ty) (bt bs : Nat) (v0 v1 v2 v3 : Reg) : Option Reg :=
  let np := bs / T.size
  if 32 ≤ bt then do
    let a ← rc T U (bt / 2) bs [v0, v1]
    let b ← rc T U (bt / 2) bs [v2, v3]
    pure (a ++ b)
  else if bt = 16 then do
    let lo ← rc T U bt bs [v0, v1]
    let hi ← rc T U bt bs [v2, v3]
    if U.size * np * 2 = 8 then some (unpacklo U.size 8 lo hi)
    else if U.size * np * 2 = 4 then some (unpacklo U.size 4 lo hi)
    else none
  else some (zext (bt / U.size) ((fit np v0 ++ fit np v1 ++ fit np v2 ++ fit np v3).map (cast T U)))

/-- The 4-argument conversion (simd_x86_conversions.h:1407-1817). -/
def conv4 (ft : Ft) (rc : Rec) (T U : Ty) (bt bs : Nat) (v0 v1 v2 v3 : Reg) : Option Reg :=
  let np := bs / T.size
  let m := bt / U.size
  if m < 4 * np then none -- 1422
  else if !T.fp && !U.fp then convInt ft T U bt bs [v0, v1, v2, v3]
  else if bs < 16 || (bs = 16 && ft.i.avx2) || (bs = 16 && ft.avx && T.fp) || (bs = 32 && ft.i.f) then
    rc T U bt (2 * bs) [v0 ++ v1, v2 ++ v3]
  else if T.fp = U.fp && T.size = U.size then none
  else if 4 * np < m && 16 < bt then do
    let k := if 4 * np < 16 / U.size then 16 / U.size else 4 * np
    let r ← rc T U (k * U.size) bs [v0, v1, v2, v3]
    pure (zext m r)
  else if !T.fp && T.size = 8 && U = f32 then -- 1736-1768
    if bs ≤ 16 && bt = 32 then some ((fit 2 v0 ++ fit 2 v1 ++ fit 2 v2 ++ fit 2 v3).map (cast T U))
    else fallback4 rc T U bt bs v0 v1 v2 v3
  else if T = f64 && !U.fp && U.size ≤ 2 then do -- 1769-1774
    let a ← rc f64 s32 (np * 2 * 4) bs [v0, v1]
    let b ← rc f64 s32 (np * 2 * 4) bs [v2, v3]
    rc s32 U bt (np * 2 * 4) [a, b]
  else if T = f32 && !U.fp && U.size ≤ 2 then do -- 1775-1782
    let a ← rc f32 s32 (np * 4) bs [v0]
    let b ← rc f32 s32 (np * 4) bs [v1]
    let c ← rc f32 s32 (np * 4) bs [v2]
    let d ← rc f32 s32 (np * 4) bs [v3]
    rc s32 U bt (np * 4) [a, b, c, d]
  else fallback4 rc T U bt bs v0 v1 v2 v3

/-- The 8-argument conversion (simd_x86_conversions.h:1820-2010). -/
def conv8 (ft : Ft) (rc : Rec) (T U : Ty) (bt bs : Nat) (v0 v1 v2 v3 v4 v5 v6 v7 : Reg) : Option Reg :=
  let np := bs / T.size
  let m := bt / U.size
  if m < 8 * np then none -- 1840
  else if !T.fp && !U.fp then convInt ft T U bt bs [v0, v1, v2, v3, v4, v5, v6, v7]
  else if bs < 16 || (bs = 16 && ft.i.avx2) || (bs = 16 && ft.avx && T.fp) || (bs = 32 && ft.i.f) then
    rc T U bt (2 * bs) [v0 ++ v1, v2 ++ v3, v4 ++ v5, v6 ++ v7]
  else if T.fp = U.fp && T.size = U.size then none
  else if 8 * np < m && 16 < bt then none -- 1901
  else if T = f64 && !U.fp && U.size = 1 then do -- 1974-1981
    let a ← rc f64 s32 (np * 2 * 4) bs [v0, v1]
    let b ← rc f64 s32 (np * 2 * 4) bs [v2, v3]
    let c ← rc f64 s32 (np * 2 * 4) bs [v4, v5]
    let d ← rc f64 s32 (np * 2 * 4) bs [v6, v7]
    rc s32 U bt (np * 2 * 4) [a, b, c, d]
  else none

/-- One unfolding of `__convert_x86`: overload resolution by the number of arguments. -/
def step (ft : Ft) (rc : Rec) : Rec
  | T, U, bt, bs, [v] => conv1 ft rc T U bt bs v
  | T, U, bt, bs, [v0, v1] => conv2 ft rc T U bt bs v0 v1
  | T, U, bt, bs, [v0, v1, v2, v3] => conv4 ft rc T U bt bs v0 v1 v2 v3
  | T, U, bt, bs, [v0, v1, v2, v3, v4, v5, v6, v7] => conv8 ft rc T U bt bs v0 v1 v2 v3 v4 v5 v6 v7
  | T, U, bt, bs, [v0, v1, v2, v3, v4, v5, v6, v7, v8, v9, v10, v11, v12, v13, v14, v15] =>
    -- 2013-2025
    rc T U bt (2 * bs) [v0 ++ v1, v2 ++ v3, v4 ++ v5, v6 ++ v7, v8 ++ v9, v10 ++ v11, v12 ++ v13, v14 ++ v15]
  | _, _, _, _, _ => none

/-- `__convert_x86` with a bound on the depth of the recursive template instantiations. -/
def conv (ft : Ft) : Nat → Rec
  | 0 => fun _ _ _ _ _ => none
  | f + 1 => step ft (conv ft f)

/-- `__convert_x86<_To>(v0, ..., v{k-1})` for elements of type `T` in registers of `bs` bytes and a result of `bt` bytes with elements of type
`U`: the terms of its elements.  No instantiation is nested deeper than 12. -/
def convert (ft : Ft) (T U : Ty) (bt bs k : Nat) : Option Reg := do
  let r ← conv ft 12 T U bt bs ((List.range k).map (fun a => (List.range (bs / T.size)).map (Tm.arg a)))
  if r.length = bt / U.size then some r else none

/-- There are registers of `b` bytes for elements of type `T`. -/
def RegOk (ft : Ft) (T : Ty) (b : Nat) : Prop :=
  2 * T.size ≤ b ∧ (b ≤ 16 ∨ (b = 32 ∧ (if T.fp then ft.avx else ft.i.avx2) = true) ∨ (b = 64 ∧ ft.i.f = true ∧ (4 ≤ T.size ∨ ft.i.bw = true)))

instance (ft : Ft) (T : Ty) (b : Nat) : Decidable (RegOk ft T b) := inferInstanceAs (Decidable (_ ∧ _))

/-- The instantiations in question: `k` registers of `bs` bytes are converted to one of `bt` bytes.  Several arguments must fit into the
result. -/
def Legal (ft : Ft) (T U : Ty) (bt bs k : Nat) : Prop :=
  RegOk ft T bs ∧ RegOk ft U bt ∧ (k = 1 ∨ k * (bs / T.size) ≤ bt / U.size)

instance (ft : Ft) (T U : Ty) (bt bs k : Nat) : Decidable (Legal ft T U bt bs k) := inferInstanceAs (Decidable (_ ∧ _))

end StdSimd.X86FloatConvert
