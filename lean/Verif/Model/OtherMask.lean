import Verif.Model.VMask
/-!
# Model of masks on ARM NEON (simd_neon.h:267-530) and PowerPC (simd_ppc.h:120-146)

`simd_mask` objects of `_VecBuiltin<N>`: registers of 2, 4, 8 or 16 bytes (simd.h:1341-1370, `__min_vector_size<_Tp>` is `2 * sizeof(_Tp)`),
`w * full` bits; see `Model/VMask`.  Everything that is not overridden in these files is inherited from `_MaskImplBuiltin` (`Model/VMask`).

The NEON and AltiVec instructions are modelled by their documentation: `vpadd` adds neighbours, `vaddv` adds all elements, `vec_sums` and
`vec_sum4s` add (their saturation is out of reach of sums of sixteen elements 0 or -1; not modelled).
-/
namespace StdSimd.VMask
variable {w : Nat}

/-- The registers of NEON and AltiVec (`simd.h:1341-1370`): two or more elements, a power of two of bytes, more than half of the elements are lanes. -/
structure Reg (w n full : Nat) : Prop where
  ew : w = 8 ∨ w = 16 ∨ w = 32 ∨ w = 64
  size : w * full = 16 ∨ w * full = 32 ∨ w * full = 64 ∨ w * full = 128
  two : 2 ≤ n
  le : n ≤ full
  half : full < 2 * n

/-- The register as one number, first element in the low bits (little endian `__bit_cast`, `__vector_bitcast`). -/
def word (l : VMask w) : Nat := l.foldr (fun (v : BitVec w) r => v.toNat + 2 ^ w * r) 0

/-- `__vector_bitcast<char>(__k._M_data) | ~__vector_bitcast<char>(_S_implicit_mask())` (simd_neon.h:408-410, 427-429, 465-467). -/
def orPadding (n full : Nat) (k : VMask w) : VMask w := List.zipWith (fun a b => a ||| ~~~b) k (implicitMask w n full)

/-- `__x[0]` and `__x[1]` after `__vector_bitcast<long long>` of a register of 16 bytes (simd_neon.h:413, 432, 449). -/
def x0 (k : VMask w) : BitVec 64 := BitVec.ofNat 64 (word (k.take (64 / w)))
def x1 (k : VMask w) : BitVec 64 := BitVec.ofNat 64 (word (k.drop (64 / w)))

/-- `_MaskImplNeon::_S_all_of` (simd_neon.h:404-420); `none` is signed overflow. -/
def neonAllOf (n full : Nat) (k : VMask w) : Option Bool :=
  let kk := orPadding n full k
  if w * full = 128 then
    let s := (x0 kk).toInt + (x1 kk).toInt
    if -(2 ^ 63) ≤ s ∧ s < 2 ^ 63 then some (decide (s = -2)) else none
  else some (BitVec.ofNat (w * full) (word kk) == BitVec.allOnes (w * full))

/-- `_MaskImplNeon::_S_any_of` (simd_neon.h:423-439). -/
def neonAnyOf (n full : Nat) (k : VMask w) : Bool :=
  let kk := orPadding n full k
  if w * full = 128 then (x0 kk ||| x1 kk) != 0#64 else BitVec.ofNat (w * full) (word kk) != 0#(w * full)

/-- `_MaskImplNeon::_S_none_of` (simd_neon.h:442-456). -/
def neonNoneOf (n full : Nat) (k : VMask w) : Bool :=
  let kk := masked n full k
  if w * full = 128 then (x0 kk ||| x1 kk) == 0#64 else BitVec.ofNat (w * full) (word kk) == 0#(w * full)

/-- `vpadd(a, b)`: sums of neighbours of `a`, then of `b`. -/
def pairs : VMask w → VMask w
  | a :: b :: l => (a + b) :: pairs l
  | _ => []
def vpadd (a b : VMask w) : VMask w := pairs a ++ pairs b
/-- `vaddv(a)`. -/
def vaddv (a : VMask w) : BitVec w := a.foldr (· + ·) 0#w

/-- `int8x8_t()` etc. -/
def zeros (w : Nat) : VMask w := List.replicate (64 / w) 0#w

/-- `_MaskImplNeon::_S_popcount` (simd_neon.h:476-505).  `none`: `__lo64` reads 8 bytes of a smaller register (simd.h:2096-2101), or the
function is ill-formed (`static_assert`, 501).  `lp64`: `long` has 64 bits. -/
def neonPopcount (lp64 : Bool) (full : Nat) (k : VMask w) : Option Int :=
  if w * full < 64 then none
  else
    let hi := if w * full = 128 then k.drop (64 / w) else zeros w                                            -- `__hi64z`
    let tmp := List.zipWith (· + ·) (k.take (64 / w)) hi
    if w = 8 then some (-((vpadd (vpadd (vpadd tmp (zeros w)) (zeros w)) (zeros w))[0]?.getD 0#w).toInt)
    else if w = 16 then some (-((vpadd (vpadd tmp (zeros w)) (zeros w))[0]?.getD 0#w).toInt)
    else if w = 32 then some (-((vpadd tmp (zeros w))[0]?.getD 0#w).toInt)
    else if w * full ≠ 128 then none
    else if lp64 then some (-((k[0]?.getD 0#w).toInt + (k[1]?.getD 0#w).toInt))
    else -- elements 0 and 1 of four `long`s
      some (-(((k[0]?.getD 0#w).extractLsb' 0 32).toInt + ((k[0]?.getD 0#w).extractLsb' 32 32).toInt))

/-- `_MaskImplNeon::_S_some_of` (simd_neon.h:459-473).  The sum is computed in `int` if the register has 2 bytes, otherwise in an unsigned type
of the size of the register. -/
def neonSomeOf (lp64 : Bool) (n full : Nat) (k : VMask w) : Option Bool :=
  if w * full ≤ 64 then
    let u := BitVec.ofNat (w * full) (word (orPadding n full k))
    some (if w * full < 32 then decide (1 < u.toNat + 1) else decide (1 < (u + 1).toNat))
  else (neonPopcount lp64 full k).map fun c => decide (0 < c) && decide (c < (n : Int))                              -- `_Base::_S_some_of`

/-- `__bitsel` (simd_neon.h:290-295, 310-314, 326-330, 350-354, 365-369); for one byte elements in 16 bytes the pattern repeats. -/
def bitsel (w n full : Nat) : VMask w :=
  (List.range full).map fun i => if i < n then 1#w <<< (if w = 8 ∧ 8 ≤ i then i - 8 else i) else 0#w

/-- Sign extension of a result of type `int8_t`, `int16_t`, `int32_t` or of a 64-bit lane to the argument type of `_BitMask`. -/
def sext (v : BitVec w) : BitVec 64 := v.signExtend 64

/-- `_MaskImplNeonMixin::_S_to_bits` (simd_neon.h:272-391; the constant-evaluated path, 276-277, is `toBits`); `a64`: `__aarch64__`. -/
def neonToBits (a64 : Bool) (n full : Nat) (k : VMask w) : BitMask n true :=
  if w * full = 128 then
    if w = 64 then
      BitMask.ofULL n true (sext ((k[0]?.getD 0#w &&& 1#w) ||| (k[1]?.getD 0#w &&& 2#w)))
    else
      let m := List.zipWith (· &&& ·) k (bitsel w n full)
      if w = 8 then
        let z := List.replicate (if a64 then 16 else 8) 0#w
        let r := if a64 then vpadd (vpadd (vpadd m z) z) z else vpadd (vpadd (vpadd (m.take 8) (m.drop 8)) z) z
        BitMask.ofULL n true (BitVec.ofNat 64 (word (r.take 2)))                                             -- `__vector_bitcast<_UShort>(...)[0]`
      else if a64 then BitMask.ofULL n true (sext (vaddv m))
      else
        let z := zeros w
        let r := vpadd (m.take (64 / w)) (m.drop (64 / w))
        let r := if w = 16 then vpadd (vpadd r z) z else vpadd r z
        BitMask.ofULL n true (sext (r[0]?.getD 0#w))
  else if w * full = 64 then
    let m := List.zipWith (· &&& ·) k (if w = 32 then [1#w, 2#w] else bitsel w n full)
    if a64 then BitMask.ofULL n true (sext (vaddv m))
    else
      let z := zeros w
      let r := if w = 8 then vpadd (vpadd (vpadd m z) z) z else if w = 16 then vpadd (vpadd m z) z else vpadd m z
      BitMask.ofULL n true (sext (r[0]?.getD 0#w))
  else toBits n k

/-! ## PowerPC -/

/-- `vec_sums(a, {})[3]` of a register of four `int`s. -/
def vecSums (a : List Int) : Int := a.sum

/-- `_MaskImplPpc::_S_popcount` (simd_ppc.h:126-145); `p10`: Power10 (`vec_cntm` counts elements by their most significant bits).  Registers of
less than 16 bytes are filled with zeros (`__to_intrin`, `__intrin_bitcast`: simd.h:1537-1540, 1644-1648). -/
def ppcPopcount (p10 : Bool) (k : VMask w) : Int :=
  if p10 then (k.countP BitVec.msb : Int)
  else if 32 ≤ w then
    -- every element is one or two `int`s
    -vecSums (k.flatMap fun v => (List.range (w / 32)).map fun j => (v.extractLsb' (32 * j) 32).toInt) / (w / 32 : Int)
  else -vecSums (k.map BitVec.toInt)                                                                         -- `vec_sum4s`, then `vec_sums`

/-- `_Base::_S_some_of` with it (simd_builtin.h:2923-2930). -/
def ppcSomeOf (p10 : Bool) (n : Nat) (k : VMask w) : Bool := decide (0 < ppcPopcount p10 k) && decide (ppcPopcount p10 k < n)

end StdSimd.VMask
