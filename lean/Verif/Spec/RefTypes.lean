import Verif.Spec.CTypes
/-!
# Specification: operands of assignments to an element

[expr.ass], [expr.add], [expr.mul], [expr.shift], [expr.bit.and]: an object of arithmetic type can be assigned a value of every arithmetic type;
`e op= x` is defined if `e op x` is.  [simd.reference] of the Parallelism TS requires the same of element references `v[i]`.
Nothing here refers to the model.
-/
namespace StdSimd.Spec.RefTypes
open Spec

/-- The kinds of operators: `+ - * /`; `% & | ^`; `<< >>`. -/
inductive Op where
  | any | integral | shift
  deriving DecidableEq

/-- An operand: of an arithmetic type, or of a class with one conversion function, to an arithmetic type (an element reference, for example). -/
inductive Operand where
  | arith (t : CType)
  | convertible (t : CType)
  deriving DecidableEq

/-- The arithmetic type whose value takes part in the operation. -/
def Operand.type : Operand → CType
  | .arith t => t
  | .convertible t => t

/-- The type of `e op x` for `e` of type `t` and `x` of type `u`; `none`: the expression is ill-formed. -/
def exprType (p : Platform) (o : Op) (t u : CType) : Option CType :=
  match o with
  | .any => some (p.common t u)
  | .integral => if p.isFloat t || p.isFloat u then none else some (p.common t u)
  | .shift => if p.isFloat t || p.isFloat u then none else some (p.promote t)

/-- `e = x` compiles for an object `e` of type `t`: always. -/
def AssignOk (_ : Platform) (_ : CType) (_ : Operand) : Prop := True
/-- `e op= x` compiles for an object `e` of type `t`. -/
def CompoundOk (p : Platform) (o : Op) (t : CType) (x : Operand) : Prop := (exprType p o t x.type).isSome = true

/-- Every value of type `u` is a value of type `t`. -/
def Keeps (p : Platform) (u t : CType) : Prop := ∀ v, p.HasValue u v → p.HasValue t v

/-- The rule of [simd.ctor] for implicit conversions of values: the values are kept; or `int`, or `unsigned int` to an unsigned type. -/
def Offered (p : Platform) (u t : CType) : Prop := u = .int ∨ (u = .uint ∧ p.isUnsigned t = true) ∨ Keeps p u t

/-- [simd.ctor]: the broadcast constructor takes part for vectorizable types (not `bool`) by the rule above, and for other types that convert to the
element type. -/
def BroadcastOk (p : Platform) (t : CType) : Operand → Prop
  | .arith u => u ≠ .bool ∧ Offered p u t
  | .convertible _ => True

/-- [simd.ctor]: the generator constructor of `n` elements takes part if `simd(gen(i))` is well-formed for every index `i`. -/
def GeneratorOk (p : Platform) (t : CType) (n : Nat) (ret : Nat → Operand) : Prop := ∀ i < n, BroadcastOk p t (ret i)

end StdSimd.Spec.RefTypes
