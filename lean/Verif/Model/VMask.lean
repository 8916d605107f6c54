import Verif.Model.BitMask
import Verif.Model.BitOps
import Verif.Model.Memory
/-!
# Model of native vector masks: `_MaskImplBuiltinMixin`, `_MaskImplBuiltin` (simd_builtin.h:2540-2968)
and the `__is_sse_abi`/`__is_avx_abi` branches of `_MaskImplX86` (simd_x86.h:4116-5162)

A vector mask for element type `T` with `w = 8 * sizeof(T)` is a GNU vector of `full` signed integers of
`w` bits, of which the first `n` are lanes of the mask (`_SimdWrapper<__int_for_sizeof_t<T>, n>`,
simd_builtin.h:995-996).  The `full - n` padding elements have no prescribed content.
-/
namespace StdSimd

/-- `_MaskMember` of a `_VecBuiltin` ABI (simd_builtin.h:995-996): the elements of the register. -/
abbrev VMask (w : Nat) := List (BitVec w)

namespace VMask
variable {w : Nat}

/-- Abstraction: the lanes, as `simd_mask::operator[]` reads them (`static_cast<bool>(_M_data[i])`,
simd.h:4401-4410). -/
def lanes (n : Nat) (x : VMask w) : List Bool := (x.take n).map (fun v => v != 0#w)

/-- What the library promises about a vector mask object: the register has `full` elements and each of the
`n` lanes is all-zeros or all-ones.  Padding elements are unconstrained. -/
structure Wf (n full : Nat) (x : VMask w) : Prop where
  len : x.length = full
  lane : ∀ v ∈ x.take n, v = 0#w ∨ v = BitVec.allOnes w

/-- A single mask element: `b ? ~_Up() : _Up()` (simd_builtin.h:2551, 2564). -/
def elem (w : Nat) (b : Bool) : BitVec w := if b then BitVec.allOnes w else 0#w

/-- `_VecBuiltin::_S_implicit_mask` (simd_builtin.h:998-1012). -/
def implicitMask (w n full : Nat) : VMask w :=
  if full = n then List.replicate full (BitVec.allOnes w)
  else (List.range full).map (fun i => if i < n then BitVec.allOnes w else 0#w)

/-- `_VecBuiltin::_S_masked` (simd_builtin.h:1023-1032). -/
def masked (n full : Nat) (x : VMask w) : VMask w :=
  if full = n then x else List.zipWith (· &&& ·) x (implicitMask w n full)

/-- `_MaskImplBuiltin::_S_broadcast` (simd_builtin.h:2661-2667). -/
def broadcast (w n full : Nat) (b : Bool) : VMask w :=
  if b then implicitMask w n full else List.replicate full 0#w

/-- `_S_to_maskvector(bool)` (simd_builtin.h:2546-2553): first element only, the rest zero-initialised. -/
def ofBool (w full : Nat) (b : Bool) : VMask w :=
  (List.range full).map (fun i => if i = 0 then elem w b else 0#w)

/-- `_S_to_maskvector(_BitMask<_Np, _Sanitized>)` (simd_builtin.h:2555-2568), also used by
`_S_from_bitmask` (2789-2794) and `_S_convert` (2691-2701).  `full` is the number of elements of the
result register. `x[i]` is only read for `i < _Np`. -/
def ofBits (w full : Nat) {n : Nat} {s : Bool} (x : BitMask n s) : Option (VMask w) :=
  (List.range full).mapM (fun i => if i < n then (x.get i).map (elem w) else some 0#w)

/-- `_S_to_maskvector(_SimdWrapper<_Tp, _Np>)` (simd_builtin.h:2570-2617), vector to vector: registers of
equal element and total size are reinterpreted, otherwise lane `i < _Np` is converted as a signed integer
(`_Up(x[i])`) and further elements are zero. -/
def ofVector (w' full' n : Nat) (x : VMask w) : VMask w' :=
  if h : w = w' ∧ x.length = full' then h.1 ▸ x
  else (List.range full').map (fun i =>
    if i < n then ((x[i]?).getD 0#w).signExtend w' else 0#w')

/-- `_MaskImplBuiltinMixin::_S_to_bits` (simd_builtin.h:2621-2634): the sign bit of each of the `n` lanes,
shifted to its position and or-ed. -/
def toBits (n : Nat) (x : VMask w) : BitMask n true :=
  BitMask.ofULL n true ((List.range n).foldl
    (fun (r : BitVec 64) i => r ||| (((x[i]?).getD 0#w >>> (w - 1)).setWidth 64 <<< i)) 0#64)

/-- `__and` / `_S_logical_and` / `_S_bit_and` (simd_builtin.h:2797-2801, 2820-2824). -/
def and (x y : VMask w) : VMask w := List.zipWith (· &&& ·) x y
/-- `_S_logical_or` / `_S_bit_or` (simd_builtin.h:2803-2807, 2826-2830). -/
def or (x y : VMask w) : VMask w := List.zipWith (· ||| ·) x y
/-- `_S_bit_xor` (simd_builtin.h:2832-2836). -/
def xor (x y : VMask w) : VMask w := List.zipWith (· ^^^ ·) x y
/-- `_S_bit_not` (simd_builtin.h:2809-2818): partial registers use `~x & implicit_mask`. -/
def not (n full : Nat) (x : VMask w) : VMask w :=
  if full = n then x.map (~~~ ·)
  else List.zipWith (fun a b => ~~~a &&& b) x (implicitMask w n full)
/-- `operator!=` on `simd_mask` (simd.h:4494-4496). -/
def neq (x y : VMask w) : VMask w := xor x y
/-- `operator==` on `simd_mask` (simd.h:4490-4492). -/
def eq (n full : Nat) (x y : VMask w) : VMask w := not n full (neq x y)

/-- `_S_set` (simd_builtin.h:2839-2862): `k._M_data[i] = -x`. -/
def set (k : VMask w) (i : Nat) (b : Bool) : VMask w := List.set k i (-(BitVec.ofBool b).setWidth w)

/-- `_CommonImplBuiltin::_S_blend(k, at0, at1)` (simd_builtin.h:1363-1369): `k ? at1 : at0` on GNU vectors,
element-wise, an element counts as true when nonzero. -/
def blend {α : Type} (k : VMask w) (at0 at1 : List α) : List α :=
  List.zipWith (fun (b : BitVec w) (p : α × α) => if b = 0#w then p.1 else p.2) k (at0.zip at1)

/-- `_S_masked_assign(k, lhs, rhs)` (simd_builtin.h:2865-2870). -/
def maskedAssign (k lhs rhs : VMask w) : VMask w := blend k lhs rhs
/-- `_S_masked_assign(k, lhs, bool)` (simd_builtin.h:2872-2887); `const` says whether `__rhs` is a
compile-time constant (either branch may be taken by the compiler). -/
def maskedAssignBool (n full : Nat) (const : Bool) (k lhs : VMask w) (rhs : Bool) : VMask w :=
  if const then
    if rhs = false then List.zipWith (fun a b => ~~~a &&& b) k lhs else or k lhs
  else blend k lhs (broadcast w n full rhs)

/-- `_S_load` (simd_builtin.h:2671-2687): lane `i` is `mem[i] ? ~0 : 0` for the `n` lanes and nothing else is
read; padding elements: `> 0` of the zero padding of the loaded register (1-byte lanes, memcpy of exactly
`n` bytes by `_CommonImplBuiltin::_S_load`, simd_builtin.h:1233-1272), or zero-initialised
(`__generate_vector`, simd.h:1699-1711). -/
def load (w n full : Nat) (mem : Mem Bool) (base : Nat) : Option (VMask w) := do
  let bs ← (List.range n).mapM (fun i => mem.read (base + i))
  pure (bs.map (elem w) ++ List.replicate (full - n) 0#w)

/-- `_S_store` (simd_builtin.h:2767-2774): `mem[i] = v[i]` for the `n` lanes. -/
def store (n : Nat) (v : VMask w) (mem : Mem Bool) (base : Nat) : Option (Mem Bool) :=
  (List.range n).foldlM (fun (m : Mem Bool) i => do
    let e ← v[i]?
    m.write (base + i) (e != 0#w)) mem

/-- `_S_masked_load` (simd_builtin.h:2751-2764); `bits` is the result of `_SuperImpl::_S_to_bits(mask)`. -/
def maskedLoad (n : Nat) (merge : VMask w) (bits : BitMask n true) (mem : Mem Bool) (base : Nat) :
    Option (VMask w) := do
  let k ← bits.toULL
  (bitIteration k).foldlM (fun (r : VMask w) i => do
    let b ← mem.read (base + i)
    pure (set r i b)) merge

/-- `_S_masked_store` (simd_builtin.h:2777-2786). -/
def maskedStore (n : Nat) (v : VMask w) (mem : Mem Bool) (base : Nat) (bits : BitMask n true) :
    Option (Mem Bool) := do
  let k ← bits.toULL
  (bitIteration k).foldlM (fun (m : Mem Bool) i => do
    let e ← v[i]?
    m.write (base + i) (e != 0#w)) mem

/-! ## Reductions of `_MaskImplBuiltin` -/

/-- `_S_all_of` (simd_builtin.h:2891-2898). -/
def allOf (n : Nat) (k : VMask w) : Bool := (List.range n).all (fun i => !((k[i]?).getD 0#w == 0#w))
/-- `_S_any_of` (simd_builtin.h:2902-2909). -/
def anyOf (n : Nat) (k : VMask w) : Bool := (List.range n).any (fun i => !((k[i]?).getD 0#w == 0#w))
/-- `_S_none_of` (simd_builtin.h:2913-2920). -/
def noneOf (n : Nat) (k : VMask w) : Bool := (List.range n).all (fun i => (k[i]?).getD 0#w == 0#w)
/-- `_S_popcount` (simd_builtin.h:2934-2945): `-reduce(simd<I>(k))`.  `reduce` of integer lanes with `+` is
modelled by the wrapping sum of the `n` lanes (that `reduce` computes it is property C16); the sum is an
`_I`, is promoted to `int` and negated. -/
def popcount (n : Nat) (k : VMask w) : Int := -((k.take n).foldl (· + ·) 0#w).toInt
/-- `_S_some_of` (simd_builtin.h:2924-2930). -/
def someOf (n : Nat) (k : VMask w) : Bool := decide (0 < popcount n k) && decide (popcount n k < n)
/-- `_S_find_first_set` (simd_builtin.h:2949-2955). -/
def findFirstSet (n : Nat) (bits : BitMask n true) : Option Nat := bits.toULL.map ctz
/-- `_S_find_last_set` (simd_builtin.h:2959-2965). -/
def findLastSet (n : Nat) (bits : BitMask n true) : Option Int :=
  bits.toULL.map (fun x => (bitWidth x : Int) - 1)

/-! ## x86: intrinsics -/

/-- A word with bit `i` equal to `l[i]`, zero above: the shape of every movemask-like result. -/
def ofBools (v : Nat) (l : List Bool) : BitVec v := (BitVec.ofBoolListLE l).setWidth v

/-- `__to_intrin` (simd.h:1632-1645, 1507-1548): vectors shorter than 16 bytes are widened to 16 bytes with
zeros in the new elements. -/
def toIntrin (x : VMask w) : VMask w := x ++ List.replicate (128 / w - x.length) 0#w

/-- The sign bit of every element: `movmskps`, `movmskpd`, `vpmov*2m`, `vpcmp*(x < 0)` and `pmovmskb` on byte
elements (Intel SDM). -/
def signBits (x : VMask w) : List Bool := x.map BitVec.msb

/-- `pmovmskb` on a register of `w`-bit elements: the top bit of every byte (Intel SDM). -/
def byteSignBits (x : VMask w) : List Bool :=
  x.flatMap (fun v => (List.range (w / 8)).map (fun j => v.getLsbD (8 * j + 7)))

/-- Signed saturation of a 16-bit element to 8 bits, the element operation of `packsswb` (Intel SDM). -/
def sat8 (v : BitVec 16) : BitVec 8 :=
  if v.toInt > 127 then 127#8 else if v.toInt < -128 then (-128 : BitVec 8) else v.setWidth 8

/-- `_mm_packs_epi16(a, b)` (Intel SDM): saturated `a`, then saturated `b`. -/
def packs16 (a b : VMask 16) : VMask 8 := a.map sat8 ++ b.map sat8

/-- `__testc(a, b)` (simd_x86.h:224-252): carry flag of `ptest`: `(~a & b) == 0`; the `ps`/`pd` forms look at
sign bits only. -/
def testc (signOnly : Bool) (a b : VMask w) : Bool :=
  (List.zipWith (fun x y => ~~~x &&& y) a b).all (fun v => if signOnly then !v.msb else v == 0#w)

/-- `__testz(a, b)` (simd_x86.h:190-219), SSE4.1 forms: zero flag of `ptest`: `(a & b) == 0`. -/
def testz (signOnly : Bool) (a b : VMask w) : Bool :=
  (List.zipWith (fun x y => x &&& y) a b).all (fun v => if signOnly then !v.msb else v == 0#w)

/-- `__testnzc(a, b)` (simd_x86.h:256-286), SSE4.1 forms: both flags clear. -/
def testnzc (signOnly : Bool) (a b : VMask w) : Bool := !testz signOnly a b && !testc signOnly a b

/-! ## x86: `_S_to_bits`, reductions -/

/-- `_MaskImplX86Mixin::_S_to_bits`, constant branch (simd_x86.h:4125-4135): or of `_ULLong(-x[i]) << i`. -/
def x86ToBitsConst (n : Nat) (x : VMask w) : BitMask n true :=
  BitMask.ofULL n true ((List.range n).foldl
    (fun (r : BitVec 64) i => r ||| ((-((x[i]?).getD 0#w)).signExtend 64 <<< i)) 0#64)

/-- `_MaskImplX86Mixin::_S_to_bits`, sign-bit branches (simd_x86.h:4136-4235 except 2-byte elements without
AVX512BW): one bit per element of the intrinsic register (zero-extended to 64 bytes in some branches, which
adds zero bits), converted to `unsigned long long`, then sanitised by the implicit conversion
`_BitMask<_Np>` → `_SanitizedBitMask<_Np>` (simd.h:1007-1010).  `movemask` results are `int` and
sign-extended. -/
def x86ToBitsSign (n : Nat) (isInt : Bool) (x : VMask w) : BitMask n true :=
  let bits := signBits (toIntrin x)
  let ull : BitVec 64 := if isInt then (ofBools 32 bits).signExtend 64 else ofBools 64 bits
  (BitMask.ofULL n false ull).sanitized

/-- `_MaskImplX86Mixin::_S_to_bits` for 2-byte elements without AVX512BW (simd_x86.h:4157-4159, 4165-4167):
`movemask_epi8(packs_epi16(lo, hi))`, `hi = 0` for 16-byte registers. -/
def x86ToBits16 (n : Nat) (x : VMask 16) : BitMask n true :=
  let xi := toIntrin x
  let packed := packs16 (xi.take 8) ((xi.drop 8) ++ List.replicate (16 - xi.length) 0#16)
  (BitMask.ofULL n false ((ofBools 32 (signBits packed)).signExtend 64)).sanitized

/-- `(1 << k) - 1` as `int`. -/
def lowMask (k : Nat) : BitVec 32 := (1#32 <<< k) - 1#32

/-- The SSE2 operand of the reductions (simd_x86.h:4891-4899 and below): `movemask_ps/pd` for floating-point
elements, `movemask_epi8` for integers. -/
def sseMovemask (fp : Bool) (x : VMask w) : BitVec 32 :=
  if fp then ofBools 32 (signBits x) else ofBools 32 (byteSignBits x)

/-- Number of mask bits that belong to lanes: `_Np` resp. `_Np * sizeof(_Tp)` (simd_x86.h:4892, 4898). -/
def sseBits (fp : Bool) (w n : Nat) : Nat := if fp then n else n * (w / 8)

/-- `_S_all_of` for SSE/AVX ABIs (simd_x86.h:4877-4900). -/
def x86AllOf (sse41 fp signOnly : Bool) (n full : Nat) (k : VMask w) : Bool :=
  let a := toIntrin k
  if sse41 then testc signOnly a (toIntrin (implicitMask w n full))
  else (sseMovemask fp a &&& lowMask (sseBits fp w n)) == lowMask (sseBits fp w n)

/-- `_S_any_of` for SSE/AVX ABIs (simd_x86.h:4933-4960). `sizeof(__k) < 16` is `full * w < 128`. -/
def x86AnyOf (sse41 fp signOnly : Bool) (n full : Nat) (k : VMask w) : Bool :=
  let a := toIntrin k
  if sse41 then
    if full ≠ n ∨ full * w < 128 then !testz signOnly a (toIntrin (implicitMask w n full))
    else !testz signOnly a a
  else (sseMovemask fp a &&& lowMask (sseBits fp w n)) != 0#32

/-- `_S_none_of` for SSE/AVX ABIs (simd_x86.h:4968-4995). -/
def x86NoneOf (sse41 fp signOnly : Bool) (n full : Nat) (k : VMask w) : Bool :=
  let a := toIntrin k
  if sse41 then
    if full ≠ n ∨ full * w < 128 then testz signOnly a (toIntrin (implicitMask w n full))
    else testz signOnly a a
  else (sseMovemask fp a &&& lowMask (sseBits fp w n)) == 0#32

/-- `_S_some_of` for SSE/AVX ABIs (simd_x86.h:5003-5035); `>`/`<` compare `int`s. -/
def x86SomeOf (sse41 fp signOnly : Bool) (n full : Nat) (k : VMask w) : Bool :=
  let a := toIntrin k
  if sse41 then testnzc signOnly a (toIntrin (implicitMask w n full))
  else
    let allbits := lowMask (sseBits fp w n)
    let tmp := sseMovemask fp a &&& allbits
    decide (0 < tmp.toInt) && decide (tmp.toInt < allbits.toInt)

/-- Element `i` of a register (the intrinsics only use indices inside it). -/
def at' (x : VMask w) (i : Nat) : BitVec w := (x[i]?).getD 0#w

/-- `_S_popcount` with POPCNT (simd_x86.h:5058-5064): `popcount(movemask(masked k))`, divided by the element
size for integers. -/
def x86PopcountPopcnt (fp : Bool) (n full : Nat) (k : VMask w) : Nat :=
  let kk := toIntrin (masked n full k)
  let bits := sseMovemask fp kk
  if fp then BitMask.popcountWord bits else BitMask.popcountWord bits / (w / 8)

/-- `_S_popcount`, `_Np == 2 && sizeof(_Tp) == 8` (simd_x86.h:5065-5069): `mask - (mask >> 1)`. -/
def x86Popcount8x2 (full : Nat) (k : VMask 64) : Int :=
  let mask := ofBools 32 (signBits (toIntrin (masked 2 full k)))
  (mask - mask.sshiftRight 1).toInt

/-- `_S_popcount`, `_Np <= 4 && sizeof(_Tp) == 8` (simd_x86.h:5070-5074): `x = -(lo128 + hi128)`,
`int(x[0] + x[1])`. -/
def x86Popcount8x4 (n full : Nat) (k : VMask 64) : Int :=
  let kk := masked n full k
  let x0 := -(at' kk 0 + at' kk 2)
  let x1 := -(at' kk 1 + at' kk 3)
  ((x0 + x1).setWidth 32).toInt

/-- `_S_popcount`, `_Np <= 4 && sizeof(_Tp) == 4` with SSE2 (simd_x86.h:5075-5085): two add/shuffle steps;
`_mm_shuffle_epi32(x, _MM_SHUFFLE(0,1,2,3))` reverses the four elements,
`_mm_shufflelo_epi16(x, _MM_SHUFFLE(1,0,3,2))` exchanges the two low 32-bit elements. -/
def x86Popcount4x4 (n full : Nat) (k : VMask 32) : Int :=
  let x := toIntrin (masked n full k)
  let y := [at' x 0 + at' x 3, at' x 1 + at' x 2, at' x 2 + at' x 1, at' x 3 + at' x 0]
  let z := [at' y 0 + at' y 1, at' y 1 + at' y 0, at' y 2 + at' y 2, at' y 3 + at' y 3]
  (-(at' z 0)).toInt

/-- `_mm_shuffle_epi32(x, _MM_SHUFFLE(0,1,2,3))` seen on `128 / w` elements of `w ≤ 32` bits: element `i`
comes from the reversed 32-bit group, same position inside the group (Intel SDM). -/
def shufRev32 (x : VMask w) : VMask w :=
  (List.range x.length).map (fun i => at' x ((3 - i / (32 / w)) * (32 / w) + i % (32 / w)))

/-- `_mm_shufflelo_epi16` with a selector for the four low 16-bit groups, seen on elements of `w ≤ 16`
bits; the upper 64 bits are copied (Intel SDM). -/
def shufLo16 (sel : Nat → Nat) (x : VMask w) : VMask w :=
  (List.range x.length).map (fun i =>
    if i / (16 / w) < 4 then at' x (sel (i / (16 / w)) * (16 / w) + i % (16 / w)) else at' x i)

/-- Element-wise wrapping addition (`_mm_add_epi8/16`). -/
def add (x y : VMask w) : VMask w := List.zipWith (· + ·) x y

/-- The three add/shuffle steps shared by the 2-byte and 1-byte branches (simd_x86.h:5093-5099,
5105-5113). -/
def addTree (x : VMask w) : VMask w :=
  let x := add x (shufRev32 x)
  let x := add x (shufLo16 (fun g => 3 - g) x)
  add x (shufLo16 (fun g => [1, 0, 3, 2].getD g 0) x)

/-- `_S_popcount`, `_Np <= 8 && sizeof(_Tp) == 2` (simd_x86.h:5090-5101). -/
def x86Popcount2x8 (n full : Nat) (k : VMask 16) : Int :=
  -((at' (addTree (toIntrin (masked n full k))) 0).toInt)

/-- `_S_popcount`, `_Np <= 16 && sizeof(_Tp) == 1` (simd_x86.h:5102-5122); both final forms add the two low
bytes of `-x` as unsigned. -/
def x86Popcount1x16 (n full : Nat) (k : VMask 8) : Nat :=
  let x := addTree (toIntrin (masked n full k))
  (-(at' x 0)).toNat + (-(at' x 1)).toNat

end VMask
end StdSimd
