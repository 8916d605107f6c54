import Verif.Spec.IntExpr
/-!
# Model of the operators of `_SimdImplScalar` for integer elements (experimental/bits/simd_scalar.h:36-49, 200-291, 557-564)

`simd<T, simd_abi::scalar>` holds one object of type `T`.  The operators are written with the built-in operators of C++, so integral
promotion, the usual arithmetic conversions and undefined behaviour of signed overflow matter; these rules are in `Spec/CTypes` and
`Spec/IntExpr`.  A platform `p` gives the widths and signedness of the types.
-/
namespace StdSimd.Scalar
open Spec

variable (p : Platform) (t : CType)

/-- The type `__promote_preserving_unsigned` returns (simd_scalar.h:40-48): `unsigned int` if the type is unsigned and promotes to a
signed type, else the type itself. -/
def ppuType : CType := if p.isSigned (p.promote t) && p.isUnsigned t then .uint else t

/-- `__promote_preserving_unsigned(__x)` (simd_scalar.h:40-48). -/
def ppu (x : p.Elem t) : p.Elem (ppuType p t) := p.convert t (ppuType p t) x

/-- `static_cast<_Tp>(__promote_preserving_unsigned(__x) op __promote_preserving_unsigned(__y))`: `_S_plus`, `_S_minus`,
`_S_multiplies`, `_S_divides`, `_S_modulus`, `_S_bit_and`, `_S_bit_or`, `_S_bit_xor` (simd_scalar.h:210-283). -/
def binary (op : IOp) (x y : p.Elem t) : Option (p.Elem t) :=
  let u := ppuType p t
  let c := p.common u u
  (op.eval (p.isSigned c) (p.convert u c (ppu p t x)) (p.convert u c (ppu p t y))).map (p.convert c t)

/-- `_S_bit_shift_left` (simd_scalar.h:285-287): the type of a shift is the promoted type of the left operand. -/
def shiftLeft (x : p.Elem t) (n : Int) : Option (p.Elem t) :=
  let u := ppuType p t
  let c := p.promote u
  (shlE (p.isSigned c) (p.convert u c (ppu p t x)) n).map (p.convert c t)

/-- `_S_bit_shift_right` (simd_scalar.h:289-291). -/
def shiftRight (x : p.Elem t) (n : Int) : Option (p.Elem t) :=
  let u := ppuType p t
  let c := p.promote u
  (shrE (p.isSigned c) (p.convert u c (ppu p t x)) n).map (p.convert c t)

/-- `_S_unary_minus` (simd_scalar.h:205-208). -/
def unaryMinus (x : p.Elem t) : Option (p.Elem t) :=
  let c := p.promote t
  (negE (p.isSigned c) (p.convert t c x)).map (p.convert c t)

/-- `_S_complement` (simd_scalar.h:200-203). -/
def complement (x : p.Elem t) : Option (p.Elem t) :=
  let c := p.promote t
  (complE (p.convert t c x)).map (p.convert c t)

/-- `_S_increment` (simd_scalar.h:557-560): `++__x`, which is `__x = __x + 1` ([expr.pre.incr], [expr.ass]). -/
def increment (x : p.Elem t) : Option (p.Elem t) :=
  let c := p.common t .int
  (IOp.eval (p.isSigned c) .add (p.convert t c x) (BitVec.ofInt _ 1)).map (p.convert c t)

/-- `_S_decrement` (simd_scalar.h:562-564). -/
def decrement (x : p.Elem t) : Option (p.Elem t) :=
  let c := p.common t .int
  (IOp.eval (p.isSigned c) .sub (p.convert t c x) (BitVec.ofInt _ 1)).map (p.convert c t)

end StdSimd.Scalar
