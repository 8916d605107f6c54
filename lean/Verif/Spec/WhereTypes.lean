import Verif.Spec.MixedOps
/-!
# Specification: operands of where expressions

[simd.whereexpr] of the Parallelism TS: `where(k, v) = x` takes part in overload resolution if `x` is (implicitly) convertible to the type of `v`;
`where(k, v) op= x` if the type of `v op x` is.  `v` is a `simd` or a `simd_mask` object.  Nothing here refers to the model.
-/
namespace StdSimd.Spec.WhereTypes
open Spec Spec.MixedCall Spec.MixedOps

/-- The type of `v`, or of an operand: an arithmetic type, `simd<t, a>`, or `simd_mask<t, a>`. -/
inductive Ty where
  | scalar (t : CType)
  | simd (t : CType) (a : AbiTag)
  | mask (t : CType) (a : AbiTag)
  deriving DecidableEq

/-- `x` is implicitly convertible to `simd<t, a>`. -/
def ToSimd (p : Platform) (t : CType) (a : AbiTag) : Ty → Prop
  | .scalar u => ConvertsTo p t a (.scalar u)
  | .simd u b => ConvertsTo p t a (.simd u b)
  | .mask _ _ => False

/-- `x` is implicitly convertible to `simd_mask<t, a>` ([simd.mask.ctor]): the same type, or `fixed_size` of the same size; the constructor from `bool`
is explicit. -/
def ToMask (t : CType) (a : AbiTag) : Ty → Prop
  | .mask u b => (u = t ∧ b = a) ∨ ∃ n, a = .fixed n ∧ b = .fixed n
  | _ => False

/-- `where(k, v) = x` compiles for `v` of type `simd<t, a>`. -/
def AssignOk (p : Platform) (t : CType) (a : AbiTag) (x : Ty) : Prop := ToSimd p t a x
/-- `where(k, v) = x` compiles for `v` of type `simd_mask<t, a>`. -/
def MaskAssignOk (t : CType) (a : AbiTag) (x : Ty) : Prop := ToMask t a x

/-- `where(k, v) op= x` compiles for `v` of type `simd<t, a>` (`integral`: `op` is one of `% & | ^`): `v op x` is of a type that converts to that of `v`. -/
def CompoundOk (p : Platform) (integral : Bool) (t : CType) (a : AbiTag) (x : Arg) : Prop :=
  ∃ u b, Typed p (.simd t a) x u b ∧ (integral = true → p.isFloat u = false) ∧ ConvertsTo p t a (.simd u b)

end StdSimd.Spec.WhereTypes
