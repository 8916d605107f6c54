import Verif.Model.Bitset
import Verif.Proofs.MaskSplit
import Verif.Props.FixedSize
import Verif.Props.NativeValues
import Verif.Spec.Bitset
/-!
# Property theorems about conversions from and to `std::bitset`  (C69)
-/
namespace StdSimd.Props
open StdSimd Native MaskSplit Spec.Bitset
open _root_.StdSimd.VMask (bit)

private theorem bit_tests {n : Nat} (b : BitVec n) (i : Nat) : bit (tests b) i = b.getLsbD i := by
  by_cases h : i < n
  · simp [bit, tests, List.getElem?_map, List.getElem?_range h]
  · simp [bit, tests, List.getElem?_eq_none, BitVec.getLsbD_of_ge b i (by omega), Nat.le_of_not_lt h]

private theorem tests_length {n : Nat} (b : BitVec n) : (tests b).length = n := by simp [tests]

/-- C69. `simd_mask::__from_bitset(b)`: lane `i` is `b.test(i)`, for every ABI. -/
theorem C69_from_bitset {a : MAbi} (h : a.Ok) (b : BitVec a.size) :
    ∃ k, Bitset.fromBitset a b = some k ∧ MOk a k ∧ lanes a k = tests b := by
  refine ofBitset_spec h _ _ (tests_length b) (fun i hi => ?_)
  have := h.bounds.2
  rw [BitVec.getLsbD_setWidth, bit_tests]
  simp [show i < 64 by omega]

/-- C69. `__to_bitset()`: `test(i)` is lane `i`, for every ABI. -/
theorem C69_to_bitset {a : MAbi} (h : a.Ok) (k : Data a) (hk : MOk a k) :
    ∃ b, Bitset.toBitset a k = some b ∧ tests b = lanes a k := by
  obtain ⟨v, hv, hb⟩ := toBitset_spec h k hk
  refine ⟨v, hv, List.ext_getElem? fun i => ?_⟩
  have hl := length_lanes h k hk
  by_cases hi : i < a.size
  · have := hb i
    have hi2 : i < (lanes a k).length := by omega
    simp only [bit, List.getElem?_eq_getElem hi2, Option.getD_some] at this
    simp [tests, List.getElem?_map, List.getElem?_range hi, List.getElem?_eq_getElem hi2, this]
  · rw [List.getElem?_eq_none (by rw [tests_length]; omega), List.getElem?_eq_none (by omega)]

private theorem tests_inj {n : Nat} {b c : BitVec n} (h : tests b = tests c) : b = c :=
  BitVec.eq_of_getLsbD_eq fun i _ => by rw [← bit_tests, ← bit_tests, h]

/-- C69. A bitset converted to a mask and back is unchanged. -/
theorem C69_bitset_round_trip {a : MAbi} (h : a.Ok) (b : BitVec a.size) :
    (Bitset.fromBitset a b).bind (Bitset.toBitset a) = some b := by
  obtain ⟨k, h1, h2, h3⟩ := C69_from_bitset h b
  obtain ⟨c, h4, h5⟩ := C69_to_bitset h k h2
  rw [h1, Option.bind_some, h4, tests_inj (h5.trans h3)]

/-- C69. A mask converted to a bitset and to a mask of another ABI with the same number of lanes (with `a' = a`: and back) has the lanes of the original. -/
theorem C69_mask_round_trip {a a' : MAbi} (h : a.Ok) (h' : a'.Ok) (hs : a'.size = a.size) (k : Data a) (hk : MOk a k) :
    ∃ b k', Bitset.toBitset a k = some b ∧ Bitset.fromBitset a' (b.cast hs.symm) = some k' ∧ MOk a' k' ∧ lanes a' k' = lanes a k := by
  obtain ⟨b, h1, h2⟩ := C69_to_bitset h k hk
  obtain ⟨k', h3, h4, h5⟩ := C69_from_bitset h' (b.cast hs.symm)
  refine ⟨b, k', h1, h3, h4, ?_⟩
  rw [h5, ← h2]
  simp [tests, hs]

private theorem select_zero (w : Nat) (l : List Bool) {n : Nat} (h : l.length = n) :
    Spec.select l (List.replicate n (BitVec.allOnes w)) (List.replicate n 0#w) = l.map (fun t => if t then BitVec.allOnes w else 0#w) := by
  subst h
  induction l with
  | nil => rfl
  | cons b l ih =>
    have : Spec.select (b :: l) (List.replicate (b :: l).length (BitVec.allOnes w)) (List.replicate (b :: l).length 0#w)
      = (if b then BitVec.allOnes w else 0#w) :: Spec.select l (List.replicate l.length (BitVec.allOnes w)) (List.replicate l.length 0#w) := rfl
    rw [this, ih]
    rfl

/-- C69. `simd(__bitset_init, b)` of a native ABI and an integer type of `w` bits: all bits of element `i` are set if `b.test(i)`, otherwise it is zero,
whether or not the compiler knows `b` (`c`). -/
theorem C69_simd_native {g : Geo} (h : g.Ok) (w : Nat) (c : Bool) (b : BitVec g.size) :
    ∃ r, Bitset.simdNative w c g b = some r ∧ r.length = g.full ∧ r.take g.size = elems w b := by
  obtain ⟨k, h1, h2, h3⟩ := C69_from_bitset (a := .native g) h b
  have hlen : (broadcast g 0#w).length = g.full := length_broadcast g _
  obtain ⟨h4, h5⟩ := C15_native_assign h c k h2 (broadcast g 0#w) ((broadcast g 0#w).map (~~~ ·)) hlen (by simpa using hlen)
  refine ⟨_, by simp only [Bitset.simdNative, h1]; rfl, h4, ?_⟩
  have hs := h.size_le
  rw [h5]
  have e1 : (broadcast g 0#w).take g.size = List.replicate g.size 0#w := by simp [broadcast, List.take_replicate, Nat.min_eq_left hs]
  have e2 : ((broadcast g 0#w).map (~~~ ·)).take g.size = List.replicate g.size (BitVec.allOnes w) := by
    simp [broadcast, List.take_replicate, Nat.min_eq_left hs]
  have e3 : maskLanes g k = tests b := h3
  rw [e1, e2, e3, select_zero w _ (tests_length b)]
  rfl

/-- C69. The same with `fixed_size<n>`, whatever the compiler knows about the parts of the mask (`c`). -/
theorem C69_simd_fixed {t : Abi.Target} {T : Abi.Elem} {n : Nat} (ht : t.Consistent) (hT : T.Ok) (h1 : 1 ≤ n) (h64 : n ≤ 64) (w : Nat) (c : Nat → Bool)
    (b : BitVec n) :
    ∃ r, Bitset.simdFixed w c (Tuple.regs t T n) n b = some r ∧ Tuple.Wf (Tuple.regs t T n) r ∧
      Tuple.lanes (Tuple.regs t T n) r = elems w b := by
  obtain ⟨k, k1, k2, k3⟩ := C69_from_bitset (a := .fixed n) ⟨h1, h64⟩ b
  obtain ⟨b1, b2⟩ := C01_broadcast ht hT h1 0#w
  obtain ⟨x, x1, x2, x3⟩ := C01_unary ht hT h1 (fun (a : BitVec w) => ~~~a) b1
  obtain ⟨r, r1, r2, r3⟩ := C15_assign ht hT h1 h64 c k k2 b1 x2
  refine ⟨r, by simp only [Bitset.simdFixed, k1, x1]; exact r1, r2, ?_⟩
  have e3 : BitMask.lanes k = tests b := k3
  rw [r3, x3, b2, e3, List.map_replicate]
  have : (~~~0#w) = BitVec.allOnes w := by simp
  rw [this, select_zero w _ (tests_length b)]
  rfl

/-- A bitset of 6 bits, masks in 8 elements of a vector, in an AVX-512 mask, and of `fixed_size<6>`. -/
example : (MAbi.native (.vec 32 6 8)).Ok ∧ (MAbi.native (.bitmask 6 8)).Ok ∧ (MAbi.fixed 6).Ok := by
  refine ⟨?_, ?_, ?_⟩
  · show (Geo.vec 32 6 8).Ok
    simp [Geo.Ok]
  · show (Geo.bitmask 6 8).Ok
    simp [Geo.Ok]
  · exact ⟨by omega, by omega⟩
example : tests 0b101100#6 = [false, false, true, true, false, true] := by decide +kernel
example : (Bitset.fromBitset (.native (.vec 32 6 8)) 0b101100#6).map (lanes _) = some [false, false, true, true, false, true] := by decide +kernel
example : (Bitset.simdNative 8 false (.vec 8 3 4) 0b101#3).map (List.take 3) = some [255#8, 0#8, 255#8] := by decide +kernel

end StdSimd.Props
