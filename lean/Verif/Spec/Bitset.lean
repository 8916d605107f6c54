/-!
# Specification: a `std::bitset<N>` as a sequence

`test i` of a bitset with value `b` is bit `i` of `b` ([bitset.members]); element `i` of a mask or simd object corresponds to `test i`.
-/
namespace StdSimd.Spec.Bitset

/-- `test 0`, ..., `test (n - 1)`. -/
def tests {n : Nat} (b : BitVec n) : List Bool := (List.range n).map (fun i => b.getLsbD i)

/-- The integer elements `simd(__bitset_init, b)` has: all bits set where the bit is set, zero elsewhere. -/
def elems (w : Nat) {n : Nat} (b : BitVec n) : List (BitVec w) := (tests b).map (fun t => if t then BitVec.allOnes w else 0#w)

end StdSimd.Spec.Bitset
