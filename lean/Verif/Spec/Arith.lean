/-!
# Specification: element-wise integer arithmetic

The C++ value of the operators on one element of an integer type with `w` bits, after integral promotion and conversion
back to the element type.  An element is a bit pattern; `toNat` is its value as unsigned, `toInt` its value as signed
(two's complement) number.  Nothing here refers to the model.
-/
namespace StdSimd.Spec

/-- `T(a * b)`: the product modulo `2^w`, for signed and unsigned element types. -/
def mul {w : Nat} (a b : BitVec w) : BitVec w := BitVec.ofNat w (a.toNat * b.toNat)

/-- `T(a << s)`: "the unique value congruent to a * 2^s modulo 2^N". -/
def shl {w : Nat} (a : BitVec w) (s : Nat) : BitVec w := BitVec.ofNat w (a.toNat * 2 ^ s)

/-- `T(a >> s)`: "a / 2^s, rounded down", where the value of `a` depends on the signedness of the type. -/
def shr (signed : Bool) {w : Nat} (a : BitVec w) (s : Nat) : BitVec w :=
  if signed then BitVec.ofInt w (a.toInt / 2 ^ s) else BitVec.ofNat w (a.toNat / 2 ^ s)

/-- The value of an element. -/
def value (signed : Bool) {w : Nat} (a : BitVec w) : Int := if signed then a.toInt else (a.toNat : Int)

/-- A number is representable in the integer type with `w` bits. -/
def InRange (signed : Bool) (w : Nat) (v : Int) : Prop :=
  if signed then -2 ^ (w - 1) ≤ v ∧ v < 2 ^ (w - 1) else 0 ≤ v ∧ v < 2 ^ w

instance (signed : Bool) (w : Nat) (v : Int) : Decidable (InRange signed w v) := by unfold InRange; infer_instance

/-- [expr.mul] `a / b`: undefined if `b` is zero or the quotient is not representable; else "the algebraic quotient with any
fractional part discarded". -/
def div (signed : Bool) {w : Nat} (a b : BitVec w) : Option (BitVec w) :=
  let q := (value signed a).tdiv (value signed b)
  if b = 0#w ∨ ¬ InRange signed w q then none else some (BitVec.ofInt w q)

/-- [expr.mul] `a % b`: undefined where `a / b` is; else `(a / b) * b + a % b == a`. -/
def mod (signed : Bool) {w : Nat} (a b : BitVec w) : Option (BitVec w) :=
  let q := (value signed a).tdiv (value signed b)
  if b = 0#w ∨ ¬ InRange signed w q then none else some (BitVec.ofInt w (value signed a - q * value signed b))

example : div true 0xf9#8 2#8 = some 0xfd#8 ∧ mod true 0xf9#8 2#8 = some 0xff#8 := by decide
example : div true 0x80#8 0xff#8 = none ∧ div false 0x80#8 0xff#8 = some 0#8 ∧ div true 5#8 0#8 = none := by decide
example : shr true 0xf0#8 2 = 0xfc#8 := by decide
example : shr false 0xf0#8 2 = 0x3c#8 := by decide
example : shr true 0x80#8 9 = 0xff#8 := by decide

end StdSimd.Spec
