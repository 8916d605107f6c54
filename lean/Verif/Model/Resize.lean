import Verif.Model.MaskVec
import Verif.Model.Native
/-!
# Model of `resizing_simd_cast` (simd.h:2953-2995)

Values at element level: a register is the list of its elements (lanes, then padding).  Masks: the conversions of
`_MaskImplBuiltin::_S_convert` (simd_builtin.h:2690-2747) and `_MaskImplFixedSize::_S_convert` (simd_fixed_size.h:1906-1912).
-/
namespace StdSimd.Resize

/-- `_VecBuiltin::_S_masked`, `_VecBltnBtmsk::_S_masked` of values (simd_builtin.h:1022-1031, 1166-1184): padding elements become
zero; `n` is `_S_size`, partial means `n` differs from the number of elements. -/
def maskedReg {α : Type} (z : α) (n : Nat) (x : List α) : List α :=
  if x.length = n then x else x.mapIdx (fun i a => if i < n then a else z)

/-- `resizing_simd_cast` of a `simd` of `n` elements to a `simd` of `m` elements whose register (or contiguous sequence of
registers, for fixed_size: C07, C09) has `mfull` elements.  `sameAbi` is the first `if constexpr`, `fixed` tells that the source
is a fixed_size object.  `none` is a read past the source object. -/
def value {α : Type} (z : α) (sameAbi fixed : Bool) (n m mfull : Nat) (x : List α) : Option (List α) :=
  if sameAbi then some x
  else if n = 1 then (x[0]?).map (fun a => (List.replicate mfull z).set 0 a)      -- `_Tp r{}; r[0] = x[0]`
  else if m = 1 then (x[0]?).map (fun a => List.replicate mfull a)                -- broadcast constructor
  else if mfull = x.length ∧ !fixed then some (maskedReg z n x)
  else do
    let b ← (List.range (min m n)).mapM (fun i => x[i]?)                          -- memcpy(sizeof(_Up) * min(...))
    some (b ++ List.replicate (mfull - min m n) z)

/-- bits to bits: `_SimdWrapper<bool, m>(word)` (simd_builtin.h:2696-2697, 2708-2709, 2735-2741).  The word of the source, of any
width, is converted to the storage type of the target. -/
def bits {W : Nat} (m : Nat) (k : BitVec W) : KMask m := k.setWidth _

/-- anything to fixed_size: `_S_to_bits(x)._M_extract<0, _Np>()` (simd_fixed_size.h:1906-1912), converted to the sanitised member
type (simd.h:852-872). -/
def fixed {n : Nat} (m : Nat) (x : BitMask n true) : Option (BitMask m true) :=
  (x.extract 0 m).map (fun r => r.sanitized)

end StdSimd.Resize
