/-!
# Bit primitives and `_BitOps::_S_bit_iteration`
-/
namespace StdSimd

/-- `std::__countr_zero` (library function of <bit>; used e.g. at simd.h:893): index of the lowest set
bit, the width if there is none. -/
def ctz {w : Nat} (x : BitVec w) : Nat := ((List.range w).find? (fun i => x.getLsbD i)).getD w

/-- `std::__bit_width` (library function of <bit>; used e.g. at simd_fixed_size.h:2059): one plus the index
of the highest set bit, `0` for `0`. -/
def bitWidth {w : Nat} (x : BitVec w) : Nat := if x = 0 then 0 else Nat.log2 x.toNat + 1

theorem and_pred_lt {w : Nat} (k : BitVec w) (h : k ≠ 0) : (k &&& (k - 1)).toNat < k.toNat := by
  have hk : 0 < k.toNat := by
    rcases Nat.eq_zero_or_pos k.toNat with h0 | h0
    · exact absurd (BitVec.eq_of_toNat_eq (by simpa using h0)) h
    · exact h0
  have hlt := k.isLt
  have hw : 0 < w := by
    rcases Nat.eq_zero_or_pos w with h0 | h0
    · subst h0; simp at hlt; omega
    · exact h0
  have h1 : (k - 1).toNat = k.toNat - 1 := by
    have h1lt : 1 < 2 ^ w := Nat.one_lt_two_pow (by omega)
    rw [BitVec.toNat_sub]
    simp only [show ((1 : BitVec w).toNat) = 1 by simp [Nat.mod_eq_of_lt h1lt]]
    have : 2 ^ w - 1 + k.toNat = 2 ^ w + (k.toNat - 1) := by omega
    rw [this, Nat.add_mod_left]
    exact Nat.mod_eq_of_lt (by omega)
  rw [BitVec.toNat_and]
  have := Nat.and_le_right (n := k.toNat) (m := (k - 1).toNat)
  omega

/-- `_BitOps::_S_bit_iteration` (simd.h:877-898): `while (k) { f(countr_zero(k)); k &= k - 1; }`.
The model returns the sequence of arguments `f` is called with. -/
def bitIteration {w : Nat} (k : BitVec w) : List Nat :=
  if h : k = 0 then [] else ctz k :: bitIteration (k &&& (k - 1))
termination_by k.toNat
decreasing_by exact and_pred_lt k h

end StdSimd
