/-!
# Specification: integers in registers and conversions between them

A register is a function from byte positions to bytes; element `i` of size `w` occupies the bytes `i * w, ..., i * w + w - 1`, least
significant byte first.  `static_cast` to an integer type of `N` bits gives the value congruent to the operand modulo `2 ^ N`
([conv.integral]); two integers of the same type are equal exactly if their bits are equal, so that it suffices to say which non-negative
number the bits of the result are.
-/
namespace StdSimd.Spec

/-- The number whose little-endian bytes are `f 0, ..., f (w - 1)`. -/
def leNat (f : Nat → BitVec 8) : Nat → Nat
  | 0 => 0
  | w + 1 => leNat f w + (f w).toNat * 2 ^ (8 * w)

/-- Element `i` of a register, elements of `w` bytes, read as an unsigned number. -/
def elemBits (w : Nat) (reg : Nat → BitVec 8) (i : Nat) : Nat := leNat (fun (j : Nat) => reg (i * w + j)) w

/-- The value of an element with the bits `n` of an integer type of `w` bytes, signed (two's complement) or not. -/
def intValue (sgn : Bool) (w : Nat) (n : Nat) : Int := if sgn = true ∧ 2 ^ (8 * w - 1) ≤ n then (n : Int) - 2 ^ (8 * w) else n

/-- The bits of `static_cast<To>(x)` for a type `To` of `d` bytes. -/
def castBits (d : Nat) (x : Int) : Nat := (x % 2 ^ (8 * d)).toNat

end StdSimd.Spec
