import Verif.Model.MixedOps
import Verif.Spec.WhereTypes
/-!
# Model: which operands a where expression accepts

`where_expression<_M, _Tp>::operator=` and `operator op=` (simd.h:3203-3229) pass the operand to `__to_value_type_or_member_type<_Tp>`
(simd.h:811-820), whose overloads decide what compiles.
-/
namespace StdSimd.WhereTypes
open Spec Spec.MixedCall Spec.WhereTypes MixedCall MixedOps

variable (p : Platform)

/-- What the operand is taken as: an object of the type of `v`, or a single value of the element type (for masks, a `bool`). -/
inductive Taken where
  | object
  | element
  deriving DecidableEq

/-- Overload resolution of `__to_value_type_or_member_type<_Tp>(x)` (simd.h:811-820), `_Tp` = `simd<t, a>` resp. `simd_mask<t, a>` (`v`).  The overload for
`const _Tp&` is viable if `x` is of this type or converts implicitly (simd.h:4922-4943, 4346-4353; the `simd_mask` constructor from `bool` is explicit,
4331-4333); the one for `const value_type&` for every arithmetic type.  A standard conversion is better than a user-defined one. -/
def resolve (v x : Ty) : Option Taken :=
  match v, x with
  | .simd _ _, .scalar _ => some .element
  | .simd t a, .simd u b => if convertible p t a (.simd u b) then some .object else none
  | .mask _ _, .scalar _ => some .element
  | .mask t a, .mask u b => if maskConvertible t a u b then some .object else none
  | _, _ => none

/-- `where(k, v) = x` compiles (simd.h:3203-3209; `_S_masked_assign` takes both forms of operands). -/
def assign (v x : Ty) : Bool := (resolve p v x).isSome

/-- `where(k, v) op= x` compiles (simd.h:3211-3229), `op` one of `+ - * / % & | ^`; for masks it never does (see C62), and the implementation of
`% & | ^` needs integral elements. -/
def compound (o : Family) (v x : Ty) : Bool :=
  match v with
  | .simd t _ => has p o t && (resolve p v x).isSome
  | _ => false

end StdSimd.WhereTypes
