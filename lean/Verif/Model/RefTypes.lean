import Verif.Model.Narrowing
import Verif.Spec.RefTypes
/-!
# Model: which operands an element reference accepts

The constraints of the member functions of `_SmartReference` (simd.h:4018-4042).
-/
namespace StdSimd.RefTypes
open Spec Spec.RefTypes

variable (p : Platform)

/-- `_ValuePreservingOrInt<_From, b>` is well-formed (simd.h:935-943).  For a class `_From` that converts to an arithmetic type, and so to every
one, `__is_narrowing_conversion<_From, b>` is `negation<is_convertible<_From, b>>` (simd.h:763-765), false. -/
def valuePreservingOrInt (x : Operand) (b : CType) : Bool :=
  match x with
  | .arith a => Narrowing.valuePreservingOrInt p a b
  | .convertible _ => true

/-- `v[i] = x` compiles for elements of type `t` (simd.h:4018-4021). -/
def assign (t : CType) (x : Operand) : Bool := valuePreservingOrInt p x t

/-- `v[i] op= x` compiles for elements of type `t` (simd.h:4027-4042); `_TT` is the type of `e op x`. -/
def compound (o : Op) (t : CType) (x : Operand) : Bool :=
  match exprType p o t x.type with
  | none => false
  | some r => valuePreservingOrInt p x r && valuePreservingOrInt p (.arith r) t

/-- The broadcast constructor `simd(x)` (simd.h:4922-4928), for `x` of class type too: not `bool`. -/
def broadcast (t : CType) (x : Operand) : Bool := decide (x ≠ .arith .bool) && valuePreservingOrInt p x t

/-- The generator constructor `simd(gen)` compiles (simd.h:4953-4959): `gen(integral_constant<size_t, i>())` is of type `ret i`; only index 0 is looked
at, the other results go through the `static_cast` of `__generate_vector_impl` (simd.h:1686-1687). -/
def generator (t : CType) (ret : Nat → Operand) : Bool := valuePreservingOrInt p (ret 0) t

end StdSimd.RefTypes
