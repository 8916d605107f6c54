import Verif.Model.VMask
/-!
# Model of AVX-512 bit masks: `_SimdWrapper<bool, _Np>` (simd.h:2344-2414), the bit-mask parts of
`_VecBltnBtmsk` (simd_builtin.h:1064-1216) and the `__is_avx512_abi` branches of `_MaskImplX86`
(simd_x86.h:4268-5162) and of the comparisons of `_SimdImplX86` (simd_x86.h:2211-2571, 2825-3180)

The mask of a `_VecBltnBtmsk` ABI with `n` lanes (`2 ≤ n ≤ 64`) is an unsigned integer of `kBits n` bits.
-/
namespace StdSimd

/-- `8 * sizeof(__bool_storage_member_type_t<_Size>)` (simd.h:2189-2222), `2 ≤ _Size ≤ 64`. -/
def kBits (n : Nat) : Nat := max 8 (bitCeil n)

/-- `_MaskMember` of a `_VecBltnBtmsk` ABI (simd_builtin.h:1110). -/
abbrev KMask (n : Nat) := BitVec (kBits n)

namespace KMask
variable {n : Nat}

/-- Abstraction: the lanes, as `_SimdWrapper<bool, N>::operator[]` reads them (simd.h:2371-2377). -/
def lanes (k : KMask n) : List Bool := (List.range n).map (fun i => k.getLsbD i)

/-- No phantom lane: bits at positions `≥ n` are zero. -/
def Clean (k : KMask n) : Prop := ∀ i, n ≤ i → k.getLsbD i = false

/-- `__implicit_mask_n` (simd_builtin.h:1131-1138): `(1ULL << n) - 1` when `n` is smaller than the number of
bits, else all ones. -/
def implicitMask (n : Nat) : KMask n :=
  if n < kBits n then ((1#64 <<< n) - 1#64).setWidth _ else BitVec.allOnes _

/-- `_VecBltnBtmsk::_S_masked` for bit masks (simd_builtin.h:1151-1162). -/
def masked (k : KMask n) : KMask n :=
  if n < 8 ∨ n &&& (n - 1) ≠ 0 then k &&& ((1#64 <<< n) - 1#64).setWidth _ else k

/-- `_SimdWrapper<bool, N>::_M_set` (simd.h:2379-2385), the implementation of `_S_set`. -/
def set (k : KMask n) (i : Nat) (b : Bool) : KMask n :=
  if b then k ||| (1#_ <<< i) else k &&& ~~~(1#_ <<< i)

/-- `_S_broadcast` (simd_x86.h:4268-4276). -/
def broadcast (n : Nat) (b : Bool) : KMask n := if b then masked (-1) else 0

/-- `_S_from_bitmask` (simd_x86.h:4432-4442): `_M_to_bits()`, converted to the mask type. -/
def ofBits (x : BitMask n true) : Option (KMask n) := x.toULL.map (fun v => v.setWidth _)
/-- `_S_to_bits` (simd_x86.h:4119-4120). -/
def toBits (k : KMask n) : BitMask n true := (BitMask.ofULL n false (k.setWidth 64)).sanitized

/-- `_S_logical_and`, `_S_bit_and`: `kand` (simd_x86.h:4715-4733, 4776-4794). -/
def and (x y : KMask n) : KMask n := x &&& y
/-- `_S_logical_or`, `_S_bit_or`: `kor` (simd_x86.h:4735-4753, 4796-4814). -/
def or (x y : KMask n) : KMask n := x ||| y
/-- `_S_bit_xor`: `kxor` (simd_x86.h:4816-4834). -/
def xor (x y : KMask n) : KMask n := x ^^^ y
/-- `_S_bit_not`: `kandn(x, implicit_mask)` (simd_x86.h:4755-4774). -/
def not (x : KMask n) : KMask n := ~~~x &&& implicitMask n
/-- `operator!=` on masks (simd.h:4494-4496). -/
def neq (x y : KMask n) : KMask n := xor x y
/-- `operator==` on masks (simd.h:4490-4492). -/
def eq (x y : KMask n) : KMask n := not (neq x y)
/-- `_S_masked_assign(k, lhs, rhs)` (simd_x86.h:4838-4846). -/
def maskedAssign (k lhs rhs : KMask n) : KMask n := (~~~k &&& lhs) ||| (k &&& rhs)
/-- `_S_masked_assign(k, lhs, bool)` (simd_x86.h:4848-4858). -/
def maskedAssignBool (k lhs : KMask n) (rhs : Bool) : KMask n := if rhs then k ||| lhs else ~~~k &&& lhs

/-- `_S_all_of` (simd_x86.h:4900-4928): carry flag of `kortest`; `wide` is the AVX512F-without-DQ form for
8-bit masks, which uses the 16-bit instruction with `__mmask16(~_Mask)`. -/
def allOf (wide : Bool) (k : KMask n) : Bool :=
  if wide then (k.setWidth 16 ||| ~~~((implicitMask n).setWidth 16)) == BitVec.allOnes 16
  else (k ||| (if implicitMask n == BitVec.allOnes _ then k else ~~~implicitMask n)) == BitVec.allOnes _
/-- `_S_any_of` (simd_x86.h:4961-4963). -/
def anyOf (k : KMask n) : Bool := (k &&& implicitMask n) != 0
/-- `_S_none_of` (simd_x86.h:4996-4998). -/
def noneOf (k : KMask n) : Bool := (k &&& implicitMask n) == 0
/-- `_S_some_of` (simd_x86.h:5036-5037). -/
def someOf (wide : Bool) (k : KMask n) : Bool := anyOf k && !allOf wide k
/-- `_S_popcount` (simd_x86.h:5044-5056): `__builtin_popcount` of the masked word. -/
def popcount (k : KMask n) : Nat := BitMask.popcountWord (masked k)
/-- `_S_find_first_set` (simd_x86.h:5141-5149): the raw word. -/
def findFirstSet (k : KMask n) : Nat := ctz k
/-- `_S_find_last_set` (simd_x86.h:5152-5160): the raw word. -/
def findLastSet (k : KMask n) : Int := (bitWidth k : Int) - 1

/-- `_S_load` with AVX512BW, or AVX512F and `n ≤ 16` (simd_x86.h:4281-4330): `memcpy` of exactly `n` bytes
into a zeroed register, `vptestm` gives one bit per nonzero byte. -/
def load (n : Nat) (mem : Mem Bool) (base : Nat) : Option (KMask n) := do
  let bs ← (List.range n).mapM (fun i => mem.read (base + i))
  pure (VMask.ofBools _ bs)

/-- `_S_masked_load` with AVX512BW+VL (simd_x86.h:4452-4477): masked byte load (only bytes whose mask bit is
set are accessed, Intel SDM), `vptestm`, merge.  The mask is used as is. -/
def maskedLoad (merge mask : KMask n) (mem : Mem Bool) (base : Nat) : Option (KMask n) := do
  let a ← (List.range (kBits n)).mapM (fun i =>
    if mask.getLsbD i then mem.read (base + i) else some false)
  pure ((merge &&& ~~~mask) ||| VMask.ofBools _ a)

/-- `_S_masked_load` without AVX512BW+VL (simd_x86.h:4480-4486): iteration over the set bits. -/
def maskedLoadIter (merge mask : KMask n) (mem : Mem Bool) (base : Nat) : Option (KMask n) :=
  (bitIteration mask).foldlM (fun (r : KMask n) i => do
    let b ← mem.read (base + i)
    pure (set r i b)) merge

/-- `_S_store` (simd_x86.h:4551-4587), AVX512BW+VL form: `maskz_set1(v, 1)` then `_CommonImplX86::_S_store<n>`,
i.e. byte `i` becomes the bit `i` for `i < n`. -/
def store (v : KMask n) (mem : Mem Bool) (base : Nat) : Option (Mem Bool) :=
  (List.range n).foldlM (fun (m : Mem Bool) i => m.write (base + i) (v.getLsbD i)) mem

/-- `_S_masked_store` (simd_x86.h:4685-4712): `mask_storeu(mem, k, maskz_set1(v, 1))`: for every set bit of the
*unmasked* word `k` byte `i` is written. -/
def maskedStore (v : KMask n) (mem : Mem Bool) (base : Nat) (k : KMask n) : Option (Mem Bool) :=
  ((List.range (kBits n)).filter (fun i => k.getLsbD i)).foldlM
    (fun (m : Mem Bool) i => m.write (base + i) (v.getLsbD i)) mem

/-! ## comparisons and classifications that return a mask -/

/-- `_mm*_mask_cmp*_mask(k1, x, y)` and `_mm*_mask_fpclass_*_mask` (Intel SDM): bit `i` is `p xᵢ yᵢ` if bit `i`
of `k1` is set, else zero; zero above the register.  The result is converted to the mask type. `p` is the
element comparison, `x`, `y` are the elements of the intrinsic registers (lanes and padding). -/
def maskCmp {α : Type} (k1 : KMask n) (p : α → α → Bool) (x y : List α) : KMask n :=
  VMask.ofBools _ (List.zipWith p x y) &&& k1

/-- `_S_equal_to`, `_S_less`, `_S_less_equal`, `_S_isunordered`, `_S_isgreater`, ..., and floating-point
`_S_not_equal_to` on AVX-512 (simd_x86.h:2222-2258, 2300-2317, 2363-2423, 2447-2507, 3144-3164, 3180-3200 and
the following `_S_is*`): `mask_cmp` with the implicit mask. -/
def cmp {α : Type} (n : Nat) (p : α → α → Bool) (x y : List α) : KMask n := maskCmp (implicitMask n) p x y

/-- Integer `_S_not_equal_to` on AVX-512 (simd_x86.h:2318-2341): the complement of the masked `==`, with no
further masking. -/
def intNotEqual {α : Type} (n : Nat) (eqv : α → α → Bool) (x y : List α) : KMask n :=
  ~~~ maskCmp (implicitMask n) eqv x y

/-- `_S_isfinite`, `_S_isnormal` with AVX512DQ (simd_x86.h:2981-2998, 3066-3086): `k1 ^ mask_fpclass(k1, x)`. -/
def classifyXor {α : Type} (n : Nat) (p : α → Bool) (x : List α) : KMask n :=
  implicitMask n ^^^ (VMask.ofBools _ (x.map p) &&& implicitMask n)

/-- `_S_isinf` and `_S_signbit` with AVX512DQ, and `_S_signbit` for 16 and 32 bytes without it
(simd_x86.h:2829-2869, 3018-3034): no mask operand, every element of the register contributes. -/
def classifyRaw {α : Type} (n : Nat) (p : α → Bool) (x : List α) : KMask n := VMask.ofBools _ (x.map p)

/-- The constant-folding branch of the comparisons (simd_x86.h:2219-2222, ...): the GNU vector comparison,
converted by `_S_to_bits(__as_wrapper<_Np>(..))` (see `VMask.x86ToBitsSign`), which is sanitised. -/
def cmpConst {α : Type} (n : Nat) (p : α → α → Bool) (x y : List α) : KMask n :=
  ((BitMask.ofULL n false (VMask.ofBools 64 (List.zipWith p x y))).sanitized.toULL.getD 0).setWidth _

end KMask
end StdSimd
