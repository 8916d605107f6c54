import Verif.Spec.MixedCall
/-!
# Specification: operators on operands of different types

[simd.binary], [simd.cassign], [simd.mask.binary] of the Parallelism TS: every operator of `simd<T, Abi>` takes two objects of this type; an
operand of another type takes part if it is implicitly convertible ([simd.ctor]).
-/
namespace StdSimd.Spec.MixedOps
open Spec Spec.MixedCall

/-- The element types whose order of ranks the TS refers to: the floating-point types, and the integer types without `wchar_t` and the
`charN_t` (see C45 for those). -/
def Ranked (p : Platform) (t : CType) : Prop := p.isFloat t = true ∨ (Platform.stdRank t).isSome

/-- The element type of an argument. -/
def Plain (p : Platform) : Arg → Prop
  | .scalar _ => True
  | .simd t _ => Ranked p t

/-- `t` has a greater rank than `u`, if both are integer types or both are floating-point types; `t` is a floating-point type, otherwise. -/
def GreaterRank (p : Platform) (u t : CType) : Prop :=
  (p.isFloat t = true ∧ fpRank u < fpRank t) ∨ ∃ m n, Platform.stdRank u = some m ∧ Platform.stdRank t = some n ∧ m < n

/-- The implicit conversions to `simd<t, a>` ([simd.ctor]). -/
def ConvertsTo (p : Platform) (t : CType) (a : AbiTag) : Arg → Prop
  | .scalar u => u ≠ .bool ∧ (u = .int ∨ (u = .uint ∧ p.isUnsigned t = true) ∨ Keeps p u t)
  | .simd u b => (u = t ∧ b = a) ∨ ∃ n, a = .fixed n ∧ b = .fixed n ∧ Keeps p u t ∧ GreaterRank p u t

/-- `x op y` is an expression on `simd<t, a>` objects. -/
def Typed (p : Platform) (x y : Arg) (t : CType) (a : AbiTag) : Prop :=
  (x = .simd t a ∨ y = .simd t a) ∧ ConvertsTo p t a x ∧ ConvertsTo p t a y

end StdSimd.Spec.MixedOps
