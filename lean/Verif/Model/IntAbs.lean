import Verif.Model.Compare
/-!
# Model of `abs`, `fabs` and `signbit` of integers

experimental/bits/simd_math.h:863-875, 1352-1365, simd_builtin.h:2087-2117, simd_scalar.h:390-392, simd_fixed_size.h:1645.

`w` is the width of the (signed) element type.
-/
namespace StdSimd.IntAbs
open Spec Native Tuple

variable {w : Nat}

/-- What else decides the code that is used: the width of `int`, whether `_GLIBCXX_SIMD_WORKAROUND_PR91533` is defined (simd_detail.h:304-308), and
the elements of the second half of the register into which a vector of 8 bytes is put. -/
structure Ctx (w : Nat) where
  intWidth : Nat
  pr91533 : Bool
  junk : List (BitVec w)

/-- `std::abs(__x)` for the scalar ABI (simd_scalar.h:390-392): the overload for `int`, `long` or `long long` after integral promotion, whose
result is converted to the element type; the negation of the smallest value of the overload's type overflows. -/
def stdAbs (intWidth : Nat) (x : BitVec w) : Option (BitVec w) :=
  let v : BitVec (max w intWidth) := x.signExtend _
  if v = BitVec.intMin _ then none else some ((if v.slt 0 then -v else v).setWidth w)

/-- One element of `PABSB`, `PABSW`, `PABSD` (Intel SDM): the magnitude as unsigned number. -/
def pabs (x : BitVec w) : BitVec w := BitVec.ofNat w x.toInt.natAbs

/-- One element of `__x._M_data < 0 ? -__x._M_data : __x._M_data` (simd_builtin.h:2115) for GNU vectors; the negation wraps around. -/
def select (x : BitVec w) : BitVec w := if x.slt 0 then -x else x

/-- `_S_abs` (simd_scalar.h:390-392, simd_builtin.h:2087-2117).  In the branch for vectors smaller than 16 bytes, 64-bit elements would be taken
for bytes; this case is `none`. -/
def abs (c : Ctx w) : Geo → List (BitVec w) → Option (List (BitVec w))
  | .scalar, [x] => (stdAbs c.intWidth x).map fun r => [r]
  | .scalar, _ => none
  | g, x =>
    if c.pr91533 ∧ w * g.full < 128 then
      if w = 32 ∨ w = 16 ∨ w = 8 then some (((x ++ c.junk).map pabs).take g.full) else none
    else some (x.map select)

/-- `_S_abs` of `fixed_size` (simd_fixed_size.h:1645, `_GLIBCXX_SIMD_APPLY_ON_TUPLE` 1575-1594). -/
def fixedAbs (c : Geo → Ctx w) (gs : List Geo) (x : Tup (BitVec w)) : Option (Tup (BitVec w)) :=
  applyPerChunk1 (fun g => abs (c g) g) gs x

/-- `simd_mask{}` (simd.h:4303: value-initialisation of the member). -/
def zeroMask : (g : Geo) → MaskM g
  | .scalar => false
  | .vec w _ f => (List.replicate f 0#w : VMask w)
  | .bitmask n _ => (0 : KMask n)

/-- `signbit` of integers (simd_math.h:1352-1365): `simd_mask{}` for unsigned types, else `__x < 0`. -/
def signbit (s : Bool) (c : Compare.Ctx (.int s w)) (g : Geo) (x : List (BitVec w)) : Option (MaskM g) :=
  if s then Compare.operator (.int s w) c .lt g x (Native.broadcast g (0 : BitVec w)) else some (zeroMask g)

/-- `signbit` of `fixed_size` objects. -/
def fixedSignbit (s : Bool) (c : Geo → Compare.Ctx (.int s w)) (gs : List Geo) (x : Tup (BitVec w)) : Option (BitMask (total gs) true) :=
  if s then Compare.fixedOperator (.int s w) c .lt gs x (Tuple.broadcast gs (0 : BitVec w)) else some (BitMask.zero _ true)

end StdSimd.IntAbs
