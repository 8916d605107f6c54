import Verif.Proofs.Resize
/-!
# Property theorems about x86 mask conversions (C30) and `resizing_simd_cast` (C43)
-/
namespace StdSimd.Props
open MaskVec

/-- Element sizes of vectorizable types. -/
abbrev ElemSize (e : Nat) : Prop := e = 1 ∨ e = 2 ∨ e = 4 ∨ e = 8

/-! ## C30: the x86 instruction sequences -/

/-- C30. Bit mask to vector mask on x86, every instruction set, element size `e`, register of `w` bytes, target of `toN` lanes:
lane `i` of the result is all ones when bit `i` is set and all zeros otherwise.  `k` is the word of a sanitised mask of `np` lanes.
256-bit registers of bytes or shorts exist with AVX2 only. -/
theorem C30_x86_bits_to_vec (ft : Feat) {e w uv np toN : Nat} (he : ElemSize e) (hw : w = 16 ∨ w = 32 ∨ w = 64) (hn : toN * e ≤ w)
    (hu : toN * e ≤ uv) (h2 : w = 32 → e ≤ 2 → ft.avx2 = true) (k : BitVec 64) (hk : ∀ i, np ≤ i → k.getLsbD i = false) :
    Spec.HoldsMask e toN (fun i => k.getLsbD i) (bitsToVec ft e w uv np toN k) :=
  (rep_iff (by unfold ElemSize at he; omega)).1 (bitsToVec_spec ft he hw hn hu h2 k hk)

/-- C30. The same, in the branch for constants. -/
theorem C30_x86_bits_to_vec_const {e np toN : Nat} (he : ElemSize e) (k : BitVec 64) (hk : ∀ i, np ≤ i → k.getLsbD i = false) :
    Spec.HoldsMask e toN (fun i => k.getLsbD i) (bitsToVecConst e np toN k) :=
  have h0 : 0 < e := by unfold ElemSize at he; omega
  (rep_iff h0).1 (bitsToVecConst_spec h0 k hk)

/-- C30. Vector mask of `n` lanes to a vector mask with elements of any other size, between registers of 16 and 32 bytes, on every
instruction set; the padding of the source and undefined register halves may hold anything. -/
theorem C30_x86_vec_to_vec (ft : Feat) (junk : Reg) {s s' e e' n toN : Nat} (hs : s = 16 ∨ s = 32) (hs' : s' = 16 ∨ s' = 32)
    (he : ElemSize e) (he' : ElemSize e') {b : Nat → Bool} {k : Reg} (h : Spec.HoldsMask e n b k) (hn : n * e ≤ s) (hn' : n * e' ≤ s') :
    ∃ r, vecToVec ft junk s s' e e' n toN k = some r ∧ Spec.HoldsMask e' n b r := by
  have h0 : 0 < e := by unfold ElemSize at he; omega
  have h0' : 0 < e' := by unfold ElemSize at he'; omega
  obtain ⟨r, hr, hR⟩ := vecToVec_spec (toN := toN) ft junk hs hs' he he' ((rep_iff h0).2 h) hn hn'
  exact ⟨r, hr, (rep_iff h0').1 hR⟩

-- non-vacuity: SSE2 only, 5 lanes `10110` as bytes; 3 lanes of ints, with garbage in the padding, as shorts
private def sse2Only : Feat := ⟨true, false, false, false, false, false, false, false⟩
private def avxOnly : Feat := ⟨true, true, true, false, false, false, false, false⟩
example : ∀ i < 5, bitsToVec sse2Only 1 16 16 5 5 0b01101#64 i = [0xff#8, 0#8, 0xff#8, 0xff#8, 0#8].getD i 0#8 := by decide
example : ∃ r, vecToVec sse2Only zero 16 16 4 2 3 3 (fun i => if i < 4 ∨ 8 ≤ i then 0xff#8 else 0#8) = some r ∧
    Spec.HoldsMask 2 3 (fun i => i != 1) r :=
  C30_x86_vec_to_vec sse2Only zero (by decide) (by decide) (by decide) (by decide) (by decide) (by decide) (by decide)

/-! ## C43: `resizing_simd_cast` -/

/-- C43. Values: the first elements are copied, the others are value-initialised, and no element outside the source object is
read.  `x` is the source register (or sequence of registers) with `n` lanes, `m` the number of lanes of the target and `mfull` the
size of its register. -/
theorem C43_values {α : Type} (z : α) (sameAbi fixed : Bool) {n m mfull : Nat} {x : List α} (hn : 1 ≤ n) (hm : 1 ≤ m)
    (hx : n ≤ x.length) (hmf : m ≤ mfull) (hs : sameAbi = true → n = m ∧ mfull = x.length) :
    ∃ r, Resize.value z sameAbi fixed n m mfull x = some r ∧ r.length = mfull ∧ r.take m = Spec.resize z m (x.take n) :=
  Resize.value_spec z sameAbi fixed hn hm hx hmf hs

-- non-vacuity: 3 floats in a 4-element register with garbage padding, to 4 and to 5 lanes
example : Resize.value 0 false false 3 4 4 [7, 8, 9, 1000] = some [7, 8, 9, 0] ∧
    Resize.value 0 false false 3 5 8 [7, 8, 9, 1000] = some [7, 8, 9, 0, 0, 0, 0, 0] ∧
    Resize.value 0 false false 4 2 2 [7, 8, 9, 1000] = some [7, 8] ∧ Spec.resize 0 4 [7, 8, 9] = [7, 8, 9, 0] := by decide

/-- C43. Masks, any representation to fixed_size: the lanes are as specified and there are no phantom bits. -/
theorem C43_mask_to_fixed_size {n m : Nat} (h1 : 1 ≤ n) (hm : 1 ≤ m) (h64 : m ≤ 64) (x : BitMask n true) (hx : x.Clean) :
    ∃ r, Resize.fixed m x = some r ∧ r.Clean ∧ r.lanes = Spec.resize false m x.lanes := Resize.fixed_spec h1 hm h64 x hx

/-- C43. Masks, bits (AVX-512 or fixed_size) to vector mask on x86: all `toN` lanes are as specified, also when `toN` is larger
than the number `np` of lanes of the source. -/
theorem C43_bits_to_vec (ft : Feat) {e w uv np toN : Nat} (he : ElemSize e) (hw : w = 16 ∨ w = 32 ∨ w = 64) (hn : toN * e ≤ w)
    (hu : toN * e ≤ uv) (h2 : w = 32 → e ≤ 2 → ft.avx2 = true) (k : BitVec 64) (hk : ∀ i, np ≤ i → k.getLsbD i = false) :
    Spec.HoldsMask e toN (fun i => (Spec.resize false toN ((List.range np).map (fun i => k.getLsbD i))).getD i false)
      (bitsToVec ft e w uv np toN k) := by
  intro i hi t ht
  rw [C30_x86_bits_to_vec ft he hw hn hu h2 k hk i hi t ht]
  have : (Spec.resize false toN ((List.range np).map (fun i => k.getLsbD i))).getD i false = k.getLsbD i := by
    unfold Spec.resize
    by_cases h : i < np
    · simp [hi, h]
    · simp [hi, h, hk i (by omega)]
  simp only [this]

/-- C43 (partial). Masks, bits to bits (AVX-512 and fixed_size sources): every lane of the target is as specified when the source
has no phantom bits, and if the target is not smaller the result has none either.
Missing: sources with phantom bits (`C43_bits_grow_leak`), and cleanness when the target is smaller (`C43_bits_shrink_phantom`). -/
theorem C43_bits_to_bits_partial {W n m : Nat} (k : BitVec W) (hk : ∀ i, n ≤ i → k.getLsbD i = false) (hm : m ≤ 64) :
    (Resize.bits m k).lanes = Spec.resize false m ((List.range n).map (fun i => k.getLsbD i)) ∧
      (n ≤ m → (Resize.bits m k).Clean) := by
  refine ⟨Resize.bits_lanes k hk hm, fun hnm i hi => ?_⟩
  unfold Resize.bits
  rw [BitVec.getLsbD_setWidth, hk i (by omega), Bool.and_false]

/-- C43, negation. A 4-lane mask whose word has phantom bits (as `a != b` of integers gives, `C32_int_not_equal_phantom`) cast to 8
lanes: lanes 4 to 7 are true although they must be false. -/
theorem C43_bits_grow_leak :
    KMask.lanes (Resize.bits 8 (KMask.intNotEqual 4 (· == ·) [1, 2, 3, 4] [1, 0, 3, 4])) =
      [false, true, false, false, true, true, true, true] ∧
    Spec.resize false 8 (KMask.lanes (KMask.intNotEqual 4 (· == ·) [1, 2, 3, 4] [1, 0, 3, 4])) =
      [false, true, false, false, false, false, false, false] := by decide

/-- C43, negation. A cast to fewer lanes keeps the dropped lanes as phantom bits, even though the source has none: casting the 8-lane
mask `10000001` to 5 lanes gives a mask for which `find_last_set` returns 7. -/
theorem C43_bits_shrink_phantom :
    KMask.Clean (n := 8) 0b10000001#8 ∧
    KMask.lanes (Resize.bits 5 0b10000001#8) = [true, false, false, false, false] ∧
    ¬ (Resize.bits 5 0b10000001#8).Clean ∧ KMask.findLastSet (Resize.bits 5 0b10000001#8) = 7 := by
  refine ⟨fun i hi => BitVec.getLsbD_of_ge _ _ hi, by decide, fun h => ?_, by decide⟩
  have := h 7 (by decide)
  exact absurd this (by decide)

/-- C43 (partial). Masks, vector to vector on x86: every lane of the target, including added ones, is as specified if the padding of
the source is zero and neither (a) both registers have 32 bytes and the element size shrinks nor (b) the element size is the same, the
register grows and AVX is used.  Missing: garbage padding (`C43_vec_padding_leak`), (a) and (b) (`C43_vec_undefined`). -/
theorem C43_vec_to_vec_partial (ft : Feat) (junk : Reg) {s s' e e' n toN : Nat} (hs : s = 16 ∨ s = 32) (hs' : s' = 16 ∨ s' = 32)
    (he : ElemSize e) (he' : ElemSize e') {b : Nat → Bool} {k : Reg} (h : Spec.HoldsMask e n b k) (hn : n * e ≤ s) (ht : toN * e' ≤ s')
    (hpad : ∀ j, n * e ≤ j → j < s → k j = 0#8)
    (hu1 : s = 32 → s' = 32 → e ≤ e') (hu2 : s = 16 → s' = 32 → e = e' → ft.avx = false) :
    ∃ r, vecToVec ft junk s s' e e' n toN k = some r ∧ Spec.HoldsMask e' toN (fun i => decide (i < n) && b i) r := by
  have h0 : 0 < e := by unfold ElemSize at he; omega
  have h0' : 0 < e' := by unfold ElemSize at he'; omega
  have hne : n ≤ s / e := (Nat.le_div_iff_mul_le h0).2 hn
  have hrep : Rep e (s / e) (fun i => decide (i < n) && b i) k := by
    intro j hj
    have hjs : j < s := Nat.lt_of_lt_of_le hj (Nat.div_mul_le_self s e)
    by_cases hjn : j < n * e
    · have : j / e < n := Nat.div_lt_of_lt_mul (by rwa [Nat.mul_comm])
      rw [(rep_iff h0).2 h j hjn]; simp [this]
    · have : ¬ j / e < n := by
        rw [Nat.not_lt]; exact (Nat.le_div_iff_mul_le h0).2 (by omega)
      rw [hpad j (by omega) hjs]; simp [this, BoolArray.ones]
  obtain ⟨r, hr, hR⟩ := vecToVec_clean (n := n) (toN := toN) ft junk hs hs' he he' hrep ht
    (fun i hi => by simp; omega) hu1 hu2 hne (fun i hi => by simp; omega)
  exact ⟨r, hr, (rep_iff h0').1 hR⟩

-- non-vacuity: 4 lanes of ints to 16 lanes of bytes
example : ∃ r, vecToVec sse2Only zero 16 16 4 1 4 16 (fun i => if i < 8 then 0xff#8 else 0#8) = some r ∧
    Spec.HoldsMask 1 16 (fun i => decide (i < 4) && decide (i < 2)) r :=
  C43_vec_to_vec_partial sse2Only zero (by decide) (by decide) (by decide) (by decide) (by decide) (by decide) (by decide) (by omega)
    (by decide) (by decide)

/-- C43. With equal element and register sizes the padding of the source does not matter. -/
theorem C43_vec_same_size (ft : Feat) (junk : Reg) {s e n toN : Nat} (he : ElemSize e) {b : Nat → Bool} {k : Reg}
    (h : Spec.HoldsMask e n b k) :
    ∃ r, vecToVec ft junk s s e e n toN k = some r ∧ Spec.HoldsMask e toN (fun i => decide (i < n) && b i) r := by
  have h0 : 0 < e := by unfold ElemSize at he; omega
  unfold vecToVec
  rw [if_pos ⟨rfl, rfl⟩]
  refine ⟨_, rfl, ?_⟩
  intro i hi t ht
  split
  · rw [h i (by omega) t ht]; simp [show i < n by omega]
  · dsimp only
    by_cases hin : i < n
    · have h1 : e * i + t < n * e := by
        have := Nat.mul_le_mul_left e (show i + 1 ≤ n from hin)
        rw [Nat.mul_comm n e]; rw [Nat.mul_succ] at this; omega
      rw [if_pos h1, h i hin t ht]; simp [hin]
    · have h1 : ¬ e * i + t < n * e := by
        have := Nat.mul_le_mul_left e (show n ≤ i by omega)
        rw [Nat.mul_comm n e]; omega
      rw [if_neg h1]; simp [hin]

/-- C43, negation. SSE2: a mask of 3 ints, all false, whose padding element is set (as after any operation on the whole register),
cast to 4 lanes of shorts: lane 3 is true. -/
theorem C43_vec_padding_leak :
    ∃ k : Reg, Spec.HoldsMask 4 3 (fun _ => false) k ∧
      ∃ r, vecToVec sse2Only zero 16 16 4 2 3 4 k = some r ∧ Spec.HoldsMask 2 4 (fun i => i == 3) r :=
  ⟨fun i => if 12 ≤ i then 0xff#8 else 0#8, by decide, _, rfl, by decide⟩

/-- C43, negation. AVX, sources without set padding: casting a mask of 4 doubles to 8 floats (both in 32-byte registers), or of 4
floats to 8 floats (16 to 32 bytes), leaves lanes 4 to 7 undefined: whatever the processor left in the upper half becomes visible. -/
theorem C43_vec_undefined (c : Nat → Bool) :
    ∃ junk : Reg,
      (∃ r, vecToVec avxOnly junk 32 32 8 4 4 8 zero = some r ∧ Spec.HoldsMask 4 8 (fun i => decide (4 ≤ i) && c i) r) ∧
      (∃ r, vecToVec avxOnly junk 16 32 4 4 4 8 zero = some r ∧ Spec.HoldsMask 4 8 (fun i => decide (4 ≤ i) && c i) r) := by
  refine ⟨fun j => if c (j / 4) then 0xff#8 else 0#8, ⟨_, rfl, ?_⟩, ⟨_, rfl, ?_⟩⟩
  · intro i hi t ht
    unfold cast256
    by_cases h : 4 ≤ i
    · rw [if_neg (by omega)]
      have : (4 * i + t) / 4 = i := by omega
      simp [this, h]
    · rw [if_pos (by omega)]
      have hz : ∀ j < 16, packs16 zero (MaskVec.hi 16 zero) j = 0#8 := by decide
      have := hz (4 * i + t) (by omega)
      simp only [h, decide_false, Bool.false_and]
      exact this
  · intro i hi t ht
    have hx : (if (16 : Nat) < 32 then
        if avxOnly.avx = true then cast256 (fun j => if c (j / 4) = true then 255#8 else 0#8) zero else zeroExtend zero
      else zero) = cast256 (fun j => if c (j / 4) = true then 255#8 else 0#8) zero := rfl
    rw [hx]
    unfold cast256
    by_cases h : 4 ≤ i
    · rw [if_neg (by omega)]
      have : (4 * i + t) / 4 = i := by omega
      simp [this, h]
    · rw [if_pos (by omega)]
      simp [h, zero]

end StdSimd.Props
