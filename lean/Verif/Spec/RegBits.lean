/-!
# Specification of bit operations (C80)

A register is the string of its bits, least significant bit of the first element first.
-/
namespace StdSimd.Spec.Bits

/-- Element number `i` (of `w` bits) of the register `r`. -/
def lane {N : Nat} (w i : Nat) (r : BitVec N) : BitVec w := BitVec.extractLsb' (i * w) w r

/-- `r` holds, in each of its `N / w` elements, `op` of the elements of `a` and `b`. -/
def Lanewise {N : Nat} (w : Nat) (op : BitVec w → BitVec w → BitVec w) (a b r : BitVec N) : Prop :=
  ∀ i, i < N / w → lane w i r = op (lane w i a) (lane w i b)

/-- The same for one operand. -/
def Lanewise1 {N : Nat} (w : Nat) (op : BitVec w → BitVec w) (a r : BitVec N) : Prop :=
  ∀ i, i < N / w → lane w i r = op (lane w i a)

end StdSimd.Spec.Bits
