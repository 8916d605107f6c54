import Verif.Spec.FpExc
/-!
# Specification: numeric traits

What `std::numeric_limits` and P1841 (numeric traits) say about these numbers.
-/
namespace StdSimd.Spec
namespace Fmt
variable (f : Fmt)

/-- `x` is the smallest positive number whose reciprocal does not overflow (IEEE 754 7.4), in rounding direction `m`. -/
structure IsReciprocalThreshold (m : RMode) (x : f.Bits) : Prop where
  finite : f.isFinite x
  pos : 0 < f.ratValue x
  noOverflow : (f.roundExc m (1 / f.ratValue x)).overflow = false
  smallest : ∀ y : f.Bits, f.isFinite y → 0 < f.ratValue y → f.ratValue y < f.ratValue x → (f.roundExc m (1 / f.ratValue y)).overflow = true

end Fmt

/-- `digits10` of a type with `d` binary digits: the greatest `k` such that all decimal numbers of `k` digits are below `2 ^ d`. -/
def IsDigits10 (d k : Nat) : Prop := 10 ^ k ≤ 2 ^ d ∧ 2 ^ d < 10 ^ (k + 1)

/-- `max_digits10` of a floating-point type of precision `p` (C 5.2.4.2.2): the smallest `k` with `1 + p * log10 2 ≤ k`. -/
def IsMaxDigits10 (p k : Nat) : Prop := ∃ j, k = j + 1 ∧ 2 ^ p ≤ 10 ^ j ∧ ∀ i, 2 ^ p ≤ 10 ^ i → j ≤ i

/-- `n` is a value of the integer type of `w` bits. -/
def IntValue (signed : Bool) (w : Nat) (n : Int) : Prop := ∃ x : BitVec w, n = if signed then x.toInt else x.toNat

end StdSimd.Spec
