import Verif.Model.SimdClass
/-!
# Model: the operators of `simd` of 8-, 16-, 32- and 64-bit integers on x86

`_SimdImplX86` (simd_x86.h:1312-2208) replaces multiplication, division, remainder and shifts of `_SimdImplBuiltin`; this file puts the code
paths of `Model.X86Int` and `Model.Division` together into the native implementation (`RegImpl`) programs run on.  Which path is taken depends on
the instruction set and the size of the register (`Geo`), so every choice is a function of the register.  Compile-time constant
operands, for which the functions use the plain operators, are in `Model.KnownX86`.
-/
namespace StdSimd.SimdClass
open Spec Spec.Program Native

/-- `_SimdImplScalar` for integers (simd_scalar.h:200-291, 557-564): a shift is one of the promoted type, so that counts less than 32 are fine for small
types, too. -/
def scalarInt (signed : Bool) (w : Nat) : RegImpl (.int signed w) where
  un := (builtinInt signed w (fun a _ => a)).un
  bin o g x y := match o with
    | .shl => map2 (fun (a b : BitVec w) => if b.toNat < max w 32 then some (a <<< b.toNat) else none) x y
    | .shr => map2 (fun (a b : BitVec w) => if b.toNat < max w 32 then some (if signed then a.sshiftRight b.toNat else a >>> b.toNat) else none) x y
    | o => (builtinInt signed w (fun a _ => a)).bin o g x y
  shift left _ x s := map1 (fun (a : BitVec w) => if s < max w 32 then
    some (if left then a <<< s else if signed then a.sshiftRight s else a >>> s) else none) x

/-- What division needs to know: the rounding of `float` or `double`, what an out-of-range conversion gives, and the size of the
floating-point registers. -/
structure X86Div (w : Nat) where
  R : ℚ → ℚ
  ind : BitVec w
  bytes : Geo → Nat

/-- The code paths for 8-bit elements. -/
structure X86Byte where
  mul : Geo → X86.MulPath
  div : X86Div 8
  shl : Geo → X86.ShlvPath
  shr : Geo → X86.Shr8Path
  shlInt : Geo → X86.ShlPath
  /-- whether the count of `v >> s` is a compile-time constant -/
  shrConst : Geo → Bool

/-- 8-bit integers: `_S_multiplies` (simd_x86.h:1312-1380), `_S_divides` (1382-1484), `_S_modulus` (1486-1496), `_S_bit_shift_left` (1531-1797),
`_S_bit_shift_right` (1802-2208); the rest is inherited. -/
def x86Byte (c : X86Byte) (signed : Bool) : RegImpl (.int signed 8) where
  un := (builtinInt signed 8 (fun a _ => a)).un
  bin o g x y := match g with
    | .scalar => (scalarInt signed 8).bin o g x y
    | g => match o with
      | .mul => some (X86.mulBytes (c.mul g) x y)
      | .div => some (Division.x86Divides c.div.R g signed c.div.ind (c.div.bytes g) x y)
      | .mod => some (Division.x86Modulus8 (c.mul g) c.div.R g signed c.div.ind (c.div.bytes g) x y)
      | .shl => some (X86.shl8v (c.shl g) x y)
      | .shr => some (X86.shr8v signed (c.shr g) x y)
      | o => (builtinInt signed 8 (fun a _ => a)).bin o g x y
  shift left g x s := match g with
    | .scalar => (scalarInt signed 8).shift left g x s
    | g => some (if left then X86.shl8Int (c.shlInt g) x s else if signed then X86.shr8s s x else X86.shr8u (c.shrConst g) s x)

/-- The code paths for 16-bit elements.  `v << s` and `v >> s` with an `int` are the operators of the vector type (simd_x86.h:1632, 1849): counts of 16
or more are undefined for them, the result is `junk`. -/
structure X86Short where
  div : X86Div 16
  shl : Geo → X86.Shl16Path
  shr : Geo → X86.Shr16Path
  junk : BitVec 16 → Nat → BitVec 16

/-- 16-bit integers: `_S_divides` (simd_x86.h:1382-1484), `_S_modulus` (1486-1496), `_S_bit_shift_left` (1724-1773), `_S_bit_shift_right`
(2071-2157). -/
def x86Short (c : X86Short) (signed : Bool) : RegImpl (.int signed 16) where
  un := (builtinInt signed 16 c.junk).un
  bin o g x y := match g with
    | .scalar => (scalarInt signed 16).bin o g x y
    | g => match o with
      | .div => some (Division.x86Divides c.div.R g signed c.div.ind (c.div.bytes g) x y)
      | .mod => some (Division.x86Modulus c.div.R g signed c.div.ind (c.div.bytes g) x y)
      | .shl => some (X86.shl16v (c.shl g) x y)
      | .shr => some (X86.shr16v signed (c.shr g) x y)
      | o => (builtinInt signed 16 c.junk).bin o g x y
  shift left g x s := match g with
    | .scalar => (scalarInt signed 16).shift left g x s
    | g => (builtinInt signed 16 c.junk).shift left g x s

/-- The code paths for 32-bit elements: whether there is AVX2 (or AVX-512), and SSE4.1 if not. -/
structure X86Int32 where
  div : X86Div 32
  avx2 : Bool
  sse41 : Bool
  junk : BitVec 32 → Nat → BitVec 32

/-- A register of at most four elements as `__m128i` (`__to_intrin`): what is missing is `fill`. -/
def toXmm (fill : BitVec 32) (x : List (BitVec 32)) : List (BitVec 32) := (List.range 4).map (fun i => x.getD i fill)

/-- 32-bit integers: `_S_divides` (simd_x86.h:1382-1484), `_S_modulus` (1486-1496), `_S_bit_shift_left` (1774-1781), `_S_bit_shift_right`
(2158-2208). -/
def x86Int32 (c : X86Int32) (signed : Bool) : RegImpl (.int signed 32) where
  un := (builtinInt signed 32 c.junk).un
  bin o g x y := match g with
    | .scalar => (scalarInt signed 32).bin o g x y
    | g => match o with
      | .div => some (Division.x86Divides c.div.R g signed c.div.ind (c.div.bytes g) x y)
      | .mod => some (Division.x86Modulus c.div.R g signed c.div.ind (c.div.bytes g) x y)
      | .shl => if c.avx2 then (builtinInt signed 32 c.junk).bin .shl g x y else some (List.zipWith X86.shl32vSse x y)
      | .shr =>
        if c.avx2 then (builtinInt signed 32 c.junk).bin .shr g x y
        else if signed then some ((X86.shr32vS c.sse41 (toXmm 0#32 x) (toXmm 0#32 y)).take g.full)
        else some (X86.shr32v c.sse41 x y)
      | o => (builtinInt signed 32 c.junk).bin o g x y
  shift left g x s := match g with
    | .scalar => (scalarInt signed 32).shift left g x s
    | g => (builtinInt signed 32 c.junk).shift left g x s

/-- The code paths for 64-bit elements: whether there is AVX2 (or AVX-512). -/
structure X86Int64 where
  avx2 : Bool
  junk : BitVec 64 → Nat → BitVec 64

/-- 64-bit integers: `_S_divides` and `_S_modulus` are those of the base (simd_x86.h:1389-1390, 1480, 1491-1493), `_S_bit_shift_left` (1782-1797), `_S_bit_shift_right`
with an `int` (1832-1848); the right shift by a vector is the operator of the vector type (2204-2205). -/
def x86Int64 (c : X86Int64) (signed : Bool) : RegImpl (.int signed 64) where
  un := (builtinInt signed 64 c.junk).un
  bin o g x y := match g with
    | .scalar => (scalarInt signed 64).bin o g x y
    | g => match o with
      | .shl => if g.full = 2 ∧ c.avx2 = false then some (X86.shl64vSse x y) else (builtinInt signed 64 c.junk).bin .shl g x y
      | o => (builtinInt signed 64 c.junk).bin o g x y
  shift left g x s := match g with
    | .scalar => (scalarInt signed 64).shift left g x s
    | g => if signed ∧ left = false then map1 (fun (a : BitVec 64) => some (X86.shr64s s a)) x else (builtinInt signed 64 c.junk).shift left g x s

end StdSimd.SimdClass
