/-!
# Model of the bit operations on registers

`__xor`, `__or`, `__and`, `__andnot`, `__not` (experimental/bits/simd.h:1713-1899) and the operators built on them: `_S_bit_and`, `_S_bit_or`, `_S_bit_xor`,
`_S_complement` (simd_builtin.h:1634-1637, 1689-1702; simd_scalar.h:247-284), `__float_bitwise_operators` (simd.h:5174-5198).  A register is the string of its
bits (little endian); reinterpreting it as another vector type changes only the width at which an instruction looks at it.

Trusted: what the compiler does for `&`, `|`, `^`, `~` on vectors of integers, element by element; the `andn` instructions, at the width of their name.
Simplified: reinterpretation of a value of `long double` keeps all its bytes, padding included.
-/
namespace StdSimd.RegBits

/-- Element `i` of a register seen as vector of elements of `w` bits. -/
def elem {N : Nat} (w i : Nat) (r : BitVec N) : BitVec w := r.extractLsb' (i * w) w

/-- The register with `n` elements `g i` of `w` bits. -/
def pack (N w : Nat) (g : Nat → BitVec w) : Nat → BitVec N
  | 0 => 0#N
  | n + 1 => pack N w g n ||| ((g n).setWidth N <<< (n * w))

/-- A vector operation on elements of `w` bits. -/
def map2 {N : Nat} (w : Nat) (op : BitVec w → BitVec w → BitVec w) (a b : BitVec N) : BitVec N :=
  pack N w (fun i => op (elem w i a) (elem w i b)) (N / w)
/-- The same with one operand. -/
def map1 {N : Nat} (w : Nat) (op : BitVec w → BitVec w) (a : BitVec N) : BitVec N := pack N w (fun i => op (elem w i a)) (N / w)

/-- An element type: number of bits, and whether it is a floating-point type. -/
structure Ty where
  fp : Bool
  w : Nat
  deriving DecidableEq

/-- The target: x86 with GCC (`_GLIBCXX_SIMD_X86INTRIN && !defined __clang__`) and instruction sets. -/
structure Feat where
  x86 : Bool
  avx2 : Bool
  avx512dq : Bool

variable {N : Nat}

/-- `__xor` (simd.h:1714-1735): floating-point elements are reinterpreted as unsigned integers of the same size. -/
def xor (T : Ty) (a b : BitVec N) : BitVec N := map2 T.w (fun x y => x ^^^ y) a b
/-- `__or` (simd.h:1739-1760). -/
def or (T : Ty) (a b : BitVec N) : BitVec N := map2 T.w (fun x y => x ||| y) a b
/-- `__and` (simd.h:1764-1785). -/
def and (T : Ty) (a b : BitVec N) : BitVec N := map2 T.w (fun x y => x &&& y) a b

/-- `_S_x86_andnot` (simd.h:1790-1849): the width at which the chosen instruction looks at its operands.  The intrinsic type of integers has elements of
64 bits (`__v2di`, `__v4di`, `__v8di`). -/
def andnotWidth (t : Feat) (T : Ty) (bytes : Nat) : Nat :=
  if bytes = 64 then
    if T.fp && T.w == 32 then if t.avx512dq then 32 else 64      -- _mm512_andnot_ps, else _mm512_andnot_si512
    else 64                                                      -- _mm512_andnot_pd, _mm512_andnot_si512
  else if T.fp then T.w                                          -- andnps, andnpd
  else if bytes = 32 && !t.avx2 then 64                          -- andnpd256
  else 64                                                        -- pandn128, andnotsi256

/-- `__andnot` (simd.h:1852-1883); `known`: the compiler knows both operands. -/
def andnot (t : Feat) (known : Bool) (T : Ty) (a b : BitVec N) : BitVec N :=
  if t.x86 && decide (16 ≤ N / 8) && !known then map2 (andnotWidth t T (N / 8)) (fun x y => ~~~x &&& y) a b
  else map2 T.w (fun x y => ~~~x &&& y) a b

/-- `__not` (simd.h:1887-1897): floating-point elements are reinterpreted as `unsigned`, which has 32 bits. -/
def not (T : Ty) (a : BitVec N) : BitVec N := map1 (if T.fp then 32 else T.w) (fun x => ~~~x) a

/-- `_S_complement` (simd_builtin.h:1634-1637): `~__x._M_data`, integers only. -/
def complement (T : Ty) (a : BitVec N) : BitVec N := map1 T.w (fun x => ~~~x) a

/-! ## one element -/

/-- `__int_for_sizeof` (simd.h:381-445): the width of the pieces; an integer type of this size, else `struct _Ip` of several `int`; `i128`: there is `__int128`. -/
def pieceWidth (i128 : Bool) (bytes : Nat) : Option Nat :=
  if bytes = 4 ∨ bytes = 1 ∨ bytes = 2 ∨ bytes = 8 then some (bytes * 8)
  else if i128 && bytes == 16 then some 128
  else if bytes % 4 = 0 then some 32
  else none

/-- `_S_bit_and`, `_S_bit_or`, `_S_bit_xor` of one floating-point element (simd_scalar.h:247-284), with `operator&`, `operator|`, `operator^` of `_Ip`
(simd.h:411-433). -/
def scalarBit (i128 : Bool) (op : (w : Nat) → BitVec w → BitVec w → BitVec w) (a b : BitVec N) : Option (BitVec N) :=
  (pieceWidth i128 (N / 8)).map (fun w => map2 w (op w) a b)

/-- `_S_bit_and`, `_S_bit_or`, `_S_bit_xor` of one integer (simd_scalar.h:254-256, 267-269, 280-282): in the promoted type, of `p` bits, then converted back;
`sgn`: the type is signed. -/
def scalarInt (p : Nat) (sgn : Bool) (op : (w : Nat) → BitVec w → BitVec w → BitVec w) (a b : BitVec N) : BitVec N :=
  let ext (x : BitVec N) : BitVec p := if sgn then x.signExtend p else x.setWidth p
  (op p (ext a) (ext b)).setWidth N

end StdSimd.RegBits
