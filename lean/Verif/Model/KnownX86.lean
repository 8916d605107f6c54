import Verif.Model.ArithX86
/-!
# Model: operators whose operands the compiler knows (x86)

`_SimdImplX86` asks the compiler whether it knows the value of an operand (`_M_is_constprop`, `__builtin_constant_p`) and uses the operators
of the vector type if it does.  Whether the compiler knows a value depends on optimization, inlining and the code around, so here it
is an arbitrary predicate.  `__builtin_is_constant_evaluated()` is false in these functions for programs on `simd` objects at run time; the shifts are not even `constexpr`.
-/
namespace StdSimd.SimdClass
open StdSimd Spec Spec.Program Spec.Multi Native

/-- What the compiler knows about the left (`x`) and the right (`y`) operand when it compiles an operator; it may depend on the operator, the register
and the values. -/
structure Known (w : Nat) where
  x : BOp → Geo → List (BitVec w) → List (BitVec w) → Bool
  y : BOp → Geo → List (BitVec w) → List (BitVec w) → Bool

/-- The operators of integers with the branches for known operands: `_S_multiplies` if one operand is known (simd_x86.h:1309-1311), `_S_divides` and `_S_modulus` if the divisor
is known (1388-1389, 1491-1493), `_S_bit_shift_right` by a vector if both are known (1862-1864) are the operators of the base class (simd_builtin.h:1646-1686) or of the vector type.
`junk` is the result of a vector shift with a count that is too large for the element type.  `R`: the other branches (`x86Byte` etc.).
`_S_bit_shift_left` has no such branch; a known count of `v << s` and `v >> s` is a choice of `X86Byte` (1552-1588, 1813-1816). -/
def x86Known {signed : Bool} {w : Nat} (k : Known w) (junk : BitVec w → Nat → BitVec w) (R : RegImpl (.int signed w)) : RegImpl (.int signed w) where
  un := R.un
  bin o g x y := match g with
    | .scalar => R.bin o .scalar x y
    | g => match o with
      | .mul => if k.x .mul g x y || k.y .mul g x y then (builtinInt signed w junk).bin .mul g x y else R.bin .mul g x y
      | .div => if k.y .div g x y then (builtinInt signed w junk).bin .div g x y else R.bin .div g x y
      | .mod => if k.y .mod g x y then (builtinInt signed w junk).bin .mod g x y else R.bin .mod g x y
      | .shr => if k.x .shr g x y && k.y .shr g x y then (builtinInt signed w junk).bin .shr g x y else R.bin .shr g x y
      | o => R.bin o g x y
  shift := R.shift
  fn := R.fn

/-- The operators and functions of one register on x86, by element type, with what the compiler knows (simd_x86.h:1300-2208).  Operators of floating-point types do not ask. -/
def x86KnownReg (k : ∀ w, Known w) (c : X86Codes) (W : FloatSem) (X : ArithCtx) : (y : ArithTy) → RegImpl y.kind
  | .int s w => (x86Known (k w) (X.junk w) (x86IntReg c X.junk s w)).withFuns (intRegFuns s w (X.abs w) (X.cmp s w))
  | .float f h _ => floatReg (W.env f h) (X.flt f h)

end StdSimd.SimdClass
