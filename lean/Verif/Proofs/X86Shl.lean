import Verif.Proofs.X86Lane
/-! Left shifts: every code path acts lane-wise. -/
namespace StdSimd.X86

set_option hygiene false in
/-- Proves an equation of lanes bit by bit; the lane index is `i`. -/
macro "lane_bits" : tactic => `(tactic| (
  apply BitVec.eq_of_getLsbD_eq
  intro j hj
  simp only [getLsbD_lane, BitVec.getLsbD_and, BitVec.getLsbD_or, BitVec.getLsbD_shiftLeft, BitVec.getLsbD_ushiftRight,
    BitVec.getLsbD_sshiftRight, BitVec.getLsbD_setWidth]
  interval_cases i <;> interval_cases j <;> simp))

theorem lane_shl4 (x : BitVec 16) (i : Nat) (hi : i < 2) : lane 8 (x <<< 4) i &&& 0xf0#8 = lane 8 x i <<< 4 := by lane_bits
theorem lane_shl2 (x : BitVec 16) (i : Nat) (hi : i < 2) : lane 8 (x <<< 2) i &&& 0xfc#8 = lane 8 x i <<< 2 := by lane_bits

theorem lane_mask2 (y : BitVec 16) (i : Nat) (hi : i < 2) : (lane 8 (y <<< 5) i).msb = (lane 8 y i).getLsbD 2 := by
  simp only [BitVec.msb_eq_getLsbD_last, getLsbD_lane, BitVec.getLsbD_shiftLeft]
  interval_cases i <;> simp
theorem lane_mask1 (y : BitVec 16) (i : Nat) (hi : i < 2) : (lane 8 (y <<< 5) i).getLsbD 6 = (lane 8 y i).getLsbD 1 := by
  simp only [getLsbD_lane, BitVec.getLsbD_shiftLeft]
  interval_cases i <;> simp
theorem lane_mask0 (y : BitVec 16) (i : Nat) (hi : i < 2) : (lane 8 (y <<< 5) i).getLsbD 5 = (lane 8 y i).getLsbD 0 := by
  simp only [getLsbD_lane, BitVec.getLsbD_shiftLeft]
  interval_cases i <;> simp

theorem dbl_msb (m : BitVec 8) : (m + m).msb = m.getLsbD 6 := by revert m; decide +kernel
theorem dbl_6 (m : BitVec 8) : (m + m).getLsbD 6 = m.getLsbD 5 := by revert m; decide +kernel
theorem dbl_shl (m : BitVec 8) : m + m = m <<< 1 := by revert m; decide +kernel

/-- The shift amount from its three low bits. -/
def amount3 (y : BitVec 8) : Nat := (if y.getLsbD 2 then 4 else 0) + (if y.getLsbD 1 then 2 else 0) + (if y.getLsbD 0 then 1 else 0)

theorem amount3_eq (y : BitVec 8) (h : y &&& 0xf8#8 = 0#8) : y.toNat = amount3 y := by revert y; decide +kernel
theorem ge8 (y : BitVec 8) (h : ¬ y &&& 0xf8#8 = 0#8) : 8 ≤ y.toNat := by revert y; decide +kernel

theorem shl8vSse_lane (x y : BitVec 16) (i : Nat) (hi : i < 2) :
    lane 8 (shl8vSse x y) i = lane 8 x i <<< (lane 8 y i).toNat := by
  unfold shl8vSse
  simp only [lane_bytes2 _ _ _ i hi, lane_bytes1 _ _ i hi, lane_blendBytes _ _ _ i hi, lane_shl4 _ i hi, lane_shl2 _ i hi,
    dbl_msb, dbl_6, lane_mask2 _ i hi, lane_mask1 _ i hi, lane_mask0 _ i hi]
  simp only [dbl_shl]
  generalize lane 8 x i = a
  generalize lane 8 y i = b
  by_cases h : b &&& 0xf8#8 = 0#8
  · rw [amount3_eq b h, amount3]
    rw [if_pos h, BitVec.and_allOnes]
    cases b.getLsbD 2 <;> cases b.getLsbD 1 <;> cases b.getLsbD 0 <;> simp [← BitVec.shiftLeft_add]
  · rw [if_neg h]
    have := ge8 b h
    rw [BitVec.shiftLeft_eq_zero (n := b.toNat) (by omega)]
    simp

theorem shl8vAvx512_eq (x y : BitVec 8) : shl8vAvx512 x y = x <<< y.toNat := by
  unfold shl8vAvx512
  apply BitVec.eq_of_getLsbD_eq
  intro j hj
  have : (y.setWidth 16).toNat = y.toNat := by simp; omega
  rw [this]
  simp only [BitVec.getLsbD_setWidth, BitVec.getLsbD_shiftLeft]
  by_cases h : j < y.toNat
  · simp [h]
  · simp [h, hj, show j < 16 by omega, show j - y.toNat < 16 by omega]

theorem shl8Avx512_eq (y : Nat) (x : BitVec 8) : shl8Avx512 y x = x <<< y := by
  unfold shl8Avx512
  apply BitVec.eq_of_getLsbD_eq
  intro j hj
  simp only [BitVec.getLsbD_setWidth, BitVec.getLsbD_shiftLeft, BitVec.getLsbD_signExtend]
  by_cases h : j < y
  · simp [h]
  · simp [h, hj, show j < 16 by omega, show j - y < 16 by omega, show j - y < 8 by omega]

theorem getLsbD_shl8K (y j : Nat) (hj : j < 16) : (shl8K y).getLsbD j = decide (y ≤ j % 8) := by
  unfold shl8K
  simp only [BitVec.getLsbD_or, BitVec.getLsbD_shiftLeft, BitVec.getLsbD_ushiftRight, BitVec.getLsbD_allOnes]
  by_cases h8 : j < 8
  · have : j % 8 = j := Nat.mod_eq_of_lt h8
    by_cases hy : y ≤ j
    · simp [this, hj, hy, h8]; omega
    · simp [this, hj, hy]; omega
  · have : j % 8 = j - 8 := by omega
    by_cases hy : y ≤ j - 8
    · simp [this, hj, hy]; omega
    · simp [this, hj, hy]; omega

theorem shl8Sse_lane (n : Nat) (x : BitVec 16) (i : Nat) (hi : i < 2) : lane 8 (shl8Sse n x) i = lane 8 x i <<< n := by
  unfold shl8Sse
  apply BitVec.eq_of_getLsbD_eq
  intro j hj
  rw [lane_and, BitVec.getLsbD_and, getLsbD_lane, getLsbD_lane, getLsbD_shl8K _ _ (by omega)]
  simp only [BitVec.getLsbD_shiftLeft, getLsbD_lane]
  have e : (8 * i + j) % 8 = j := by omega
  by_cases h : j < n
  · simp [h, e]
  · simp [h, e, hj, show 8 * i + j < 16 by omega, show j - n < 8 by omega, show 8 * i + j - n = 8 * i + (j - n) by omega,
      show ¬ 8 * i + j < n by omega, show n ≤ j by omega]

theorem shl8Avx2_lane (n : Nat) (x : BitVec 32) (i : Nat) (hi : i < 4) : lane 8 (shl8Avx2 n x) i = lane 8 x i <<< n := by
  unfold shl8Avx2
  apply BitVec.eq_of_getLsbD_eq
  intro j hj
  rw [lane_and, BitVec.getLsbD_and, getLsbD_lane, getLsbD_lane, getLsbD_join (by omega), getLsbD_shl8K _ _ (by omega)]
  simp only [BitVec.getLsbD_shiftLeft, getLsbD_lane]
  have e : (8 * i + j) % 16 % 8 = j := by omega
  by_cases h : j < n
  · simp [h, e]
  · simp [h, e, hj, show 8 * i + j < 32 by omega, show j - n < 8 by omega, show 8 * i + j - n = 8 * i + (j - n) by omega,
      show ¬ 8 * i + j < n by omega, show n ≤ j by omega]

theorem shl8Const_lane (n : Nat) (x : BitVec 32) (i : Nat) (hi : i < 4) : lane 8 (shl8Const n x) i = lane 8 x i <<< n := by
  unfold shl8Const
  apply BitVec.eq_of_getLsbD_eq
  intro j hj
  rw [lane_and, lane_join (by omega) 4 _ i hi (by omega), BitVec.getLsbD_and, getLsbD_lane]
  simp only [BitVec.getLsbD_shiftLeft, getLsbD_lane]
  have ff : ∀ k < 8, (0xff#8).getLsbD k = true := by decide
  by_cases h : j < n
  · simp [h]
  · simp [h, hj, show 8 * i + j < 32 by omega, show j - n < 8 by omega, show 8 * i + j - n = 8 * i + (j - n) by omega,
      show ¬ 8 * i + j < n by omega, ff (j - n) (by omega)]

theorem shl8Const4_lane (n : Nat) (hn : n < 8) (x : BitVec 32) (i : Nat) (hi : i < 4) :
    lane 8 (shl8Const4 n x) i = lane 8 x i <<< n := by
  have e : (0xff#32 &&& (0xff#32 <<< n)) * 0x01010101#32 = join 32 4 (fun _ => (0xff#8 <<< n)) := by
    interval_cases n <;> decide +kernel
  unfold shl8Const4
  rw [e]
  exact shl8Const_lane n x i hi

theorem shl8Const2_lane (n : Nat) (hn : n < 8) (x : BitVec 16) (i : Nat) (hi : i < 2) :
    lane 8 (shl8Const2 n x) i = lane 8 x i <<< n := by
  have h := shl8Const4_lane n hn (x.signExtend 32) i (by omega)
  have e1 : lane 8 (x.signExtend 32) i = lane 8 x i := by
    apply BitVec.eq_of_getLsbD_eq
    intro j hj
    simp only [getLsbD_lane, BitVec.getLsbD_signExtend]
    simp [hj, show 8 * i + j < 32 by omega, show 8 * i + j < 16 by omega]
  rw [e1] at h
  rw [← h]
  unfold shl8Const2 shl8Const4
  apply BitVec.eq_of_getLsbD_eq
  intro j hj
  simp only [getLsbD_lane, BitVec.getLsbD_setWidth]
  simp [hj, show 8 * i + j < 16 by omega]

theorem lane_blendAA (a b : BitVec 32) (i : Nat) (hi : i < 2) :
    lane 16 (blendAA a b) i = if i = 1 then lane 16 b i else lane 16 a i := by
  unfold blendAA
  rw [lane_join (by omega) 2 _ i hi (by omega)]
  interval_cases i <;> simp

theorem toNat_lo16 (y : BitVec 32) : (y &&& 0x0000ffff#32).toNat = (lane 16 y 0).toNat := by
  simp [lane]
  rw [show (65535 : Nat) = 2 ^ 16 - 1 from rfl, Nat.and_two_pow_sub_one_eq_mod]
theorem toNat_hi16 (y : BitVec 32) : (y >>> 16).toNat = (lane 16 y 1).toNat := by
  simp [lane, Nat.shiftRight_eq_div_pow]; omega

theorem shl16vAvx2_lane (x y : BitVec 32) (i : Nat) (hi : i < 2) :
    lane 16 (shl16vAvx2 x y) i = lane 16 x i <<< (lane 16 y i).toNat := by
  unfold shl16vAvx2
  rw [lane_blendAA _ _ i hi, toNat_lo16, toNat_hi16]
  have hm : ∀ k < 32, (0xffff0000#32).getLsbD k = decide (16 ≤ k) := by decide +kernel
  by_cases h1 : i = 1
  · rw [if_pos h1]; subst h1
    generalize (lane 16 y 1).toNat = n
    apply BitVec.eq_of_getLsbD_eq
    intro j hj
    simp only [getLsbD_lane, BitVec.getLsbD_shiftLeft, BitVec.getLsbD_and]
    by_cases h : j < n
    · rw [hm _ (by omega)]
      simp [h]; intros; omega
    · rw [hm _ (by omega)]
      simp [h, hj, show 16 + j < 32 by omega, show j - n < 16 by omega, show 16 + j - n = 16 + (j - n) by omega,
        show ¬ 16 + j < n by omega]
  · rw [if_neg h1]; obtain rfl : i = 0 := by omega
    generalize (lane 16 y 0).toNat = n
    apply BitVec.eq_of_getLsbD_eq
    intro j hj
    simp only [getLsbD_lane, BitVec.getLsbD_shiftLeft]
    by_cases h : j < n
    · simp [h]
    · simp [h, hj, show j < 32 by omega, show j - n < 16 by omega]

/-- The float with exponent `127 + n` is `2^n`; `2^31` becomes the integer indefinite value `0x80000000`. -/
theorem cvttps_pow (n : Nat) (hn : n < 32) : cvttps (BitVec.ofNat 32 (127 + n) <<< 23) = 1#32 <<< n := by
  interval_cases n <;> decide +kernel

theorem shl32vSse_eq (x y : BitVec 32) (hy : y.toNat < 32) : shl32vSse x y = x <<< y.toNat := by
  have e : (y <<< 23) + 0x3f800000#32 = BitVec.ofNat 32 (127 + y.toNat) <<< 23 := by
    have : y = BitVec.ofNat 32 y.toNat := by simp
    rw [this]; simp only [BitVec.toNat_ofNat]
    rw [Nat.mod_eq_of_lt (show y.toNat < 2 ^ 32 by omega)]
    generalize y.toNat = n at hy
    interval_cases n <;> decide +kernel
  unfold shl32vSse
  rw [e, cvttps_pow _ hy]
  rw [BitVec.shiftLeft_eq_mul_twoPow x, BitVec.twoPow_eq]

theorem shl16vSse_factor (x y : BitVec 32) (i : Nat) (hi : i < 2) (hy : ∀ i < 2, (lane 16 y i).toNat < 32) :
    lane 16 (shl16vSse x y) i =
      lane 16 x i * lane 16 (1#32 <<< (lane 16 y 0).toNat ||| (1#32 <<< (lane 16 y 1).toNat) <<< 16) i := by
  unfold shl16vSse
  have h0 := hy 0 (by omega)
  have h1 := hy 1 (by omega)
  rw [lane_join (by omega) 2 _ i hi (by omega)]
  generalize hl : (fun i => lane 16 y i + (0x3f8#16 >>> 3)) = f
  have f0 : (f 0).toNat = 127 + (lane 16 y 0).toNat := by rw [← hl]; simp; omega
  have f1 : (f 1).toNat = 127 + (lane 16 y 1).toNat := by rw [← hl]; simp; omega
  have e0 : (join 32 2 f) <<< 23 = BitVec.ofNat 32 (127 + (lane 16 y 0).toNat) <<< 23 := by
    have fl := (f 0).isLt
    rw [← f0]
    apply BitVec.eq_of_getLsbD_eq
    intro j hj
    rw [BitVec.getLsbD_shiftLeft, BitVec.getLsbD_shiftLeft, getLsbD_join (by omega)]
    by_cases h : j < 23
    · simp [h]
    · have d : (j - 23) / 16 = 0 := by omega
      have m : (j - 23) % 16 = j - 23 := by omega
      simp [h, d, m, hj, show j - 23 < 32 by omega, BitVec.getLsbD, BitVec.toNat_ofNat]
      rw [Nat.mod_eq_of_lt (by omega)]
  have e1 : (join 32 2 f >>> 16) <<< 23 = BitVec.ofNat 32 (127 + (lane 16 y 1).toNat) <<< 23 := by
    have fl := (f 1).isLt
    rw [← f1]
    apply BitVec.eq_of_getLsbD_eq
    intro j hj
    rw [BitVec.getLsbD_shiftLeft, BitVec.getLsbD_shiftLeft, BitVec.getLsbD_ushiftRight, getLsbD_join (by omega)]
    by_cases h : j < 23
    · simp [h]
    · have d : (16 + (j - 23)) / 16 = 1 := by omega
      have m : (16 + (j - 23)) % 16 = j - 23 := by omega
      simp [h, d, m, hj, show j - 23 < 32 by omega, show 16 + (j - 23) < 32 by omega, BitVec.getLsbD, BitVec.toNat_ofNat]
      rw [Nat.mod_eq_of_lt (by omega)]
  rw [e0, e1, cvttps_pow _ (by omega), cvttps_pow _ (by omega)]

theorem shl16vSse_lane (x y : BitVec 32) (i : Nat) (hi : i < 2) (hy : ∀ i < 2, (lane 16 y i).toNat < 16) :
    lane 16 (shl16vSse x y) i = lane 16 x i <<< (lane 16 y i).toNat := by
  rw [shl16vSse_factor x y i hi (fun k hk => by have := hy k hk; omega)]
  have h0 := hy 0 (by omega)
  have h1 := hy 1 (by omega)
  have : lane 16 (1#32 <<< (lane 16 y 0).toNat ||| (1#32 <<< (lane 16 y 1).toNat) <<< 16) i = BitVec.twoPow 16 (lane 16 y i).toNat := by
    generalize ha : (lane 16 y 0).toNat = a at *
    generalize hb : (lane 16 y 1).toNat = b at *
    apply BitVec.eq_of_getLsbD_eq
    intro j hj
    simp only [getLsbD_lane, BitVec.getLsbD_or, BitVec.getLsbD_shiftLeft, BitVec.getLsbD_one, BitVec.getLsbD_twoPow]
    by_cases hi1 : i = 1
    · subst hi1
      rw [hb]
      rw [Bool.eq_iff_iff]
      simp [hj, show 16 + j < 32 by omega]
      omega
    · obtain rfl : i = 0 := by omega
      rw [ha]
      rw [Bool.eq_iff_iff]
      simp [hj, show j < 32 by omega]
      omega
  rw [this, BitVec.shiftLeft_eq_mul_twoPow]

end StdSimd.X86
