import Verif.Spec.CTypes
/-!
# Specification: calls of math functions with arguments of different types

[parallel.simd.math] of the Parallelism TS: if an argument of the call corresponding to a floating-point parameter has type `simd<T, Abi>`
with a floating-point type `T`, and every argument can be converted implicitly to `simd<T, Abi>`, then the call is well-formed and the
function is evaluated in `simd<T, Abi>`.
-/
namespace StdSimd.Spec.MixedCall
open Spec

/-- A class template argument `Abi`: a `fixed_size` tag, or one of the others. -/
inductive AbiTag where
  | fixed (n : Nat)
  | other (k : Nat)
  deriving DecidableEq

/-- The type of an argument: an arithmetic type, or `simd<t, a>`. -/
inductive Arg where
  | scalar (t : CType)
  | simd (t : CType) (a : AbiTag)
  deriving DecidableEq

/-- There is no `simd<bool, Abi>`. -/
def Arg.Exists : Arg → Prop
  | .scalar _ => True
  | .simd t _ => t ≠ .bool

/-- The order of the floating-point types ([conv.rank]). -/
def fpRank : CType → Nat
  | .float => 1 | .double => 2 | .ldouble => 3
  | _ => 0

/-- Every value of the one type is a value of the other. -/
def Keeps (p : Platform) (u t : CType) : Prop := ∀ v, p.HasValue u v → p.HasValue t v

/-- The implicit conversions to `simd<t, a>` for a floating-point type `t`: an arithmetic value other than `bool` is broadcast if it is an
`int` or if every value of its type is kept; `fixed_size` objects of the same size are converted if every value is kept and (between two
floating-point types) the type converted to has the greater rank. -/
def Converts (p : Platform) (t : CType) (a : AbiTag) : Arg → Prop
  | .scalar u => u ≠ .bool ∧ (u = .int ∨ Keeps p u t)
  | .simd u b => (u = t ∧ b = a) ∨ ∃ n, a = .fixed n ∧ b = .fixed n ∧ Keeps p u t ∧ fpRank u < fpRank t

/-- The call has to be well-formed, and the function to be evaluated in `simd<t, a>`. -/
def Evaluates (p : Platform) (args : List Arg) (t : CType) (a : AbiTag) : Prop :=
  p.isFloat t = true ∧ .simd t a ∈ args ∧ ∀ x ∈ args, Converts p t a x

end StdSimd.Spec.MixedCall
