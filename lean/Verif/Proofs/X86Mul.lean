import Verif.Proofs.X86Lane
/-! 8-bit multiplication: every code path acts lane-wise. -/
namespace StdSimd.X86

theorem lane_shl_same {W : Nat} (c : BitVec W) (i : Nat) (h : 8 * i + 8 ≤ W) :
    lane 8 (c <<< (8 * i)) i = c.setWidth 8 := by
  apply BitVec.eq_of_getLsbD_eq
  intro j hj
  simp only [getLsbD_lane, BitVec.getLsbD_shiftLeft, BitVec.getLsbD_setWidth]
  simp [hj]; omega

theorem lane_shl_below {W : Nat} (c : BitVec W) (i k : Nat) (h : k < i) : lane 8 (c <<< (8 * i)) k = 0#8 := by
  apply BitVec.eq_of_getLsbD_eq
  intro j hj
  simp only [getLsbD_lane, BitVec.getLsbD_shiftLeft]
  simp [show 8 * k + j < 8 * i by omega]

theorem setWidth_sshr {W : Nat} (x : BitVec W) (i : Nat) (h : 8 * i + 8 ≤ W) :
    (x.sshiftRight (8 * i)).setWidth 8 = lane 8 x i := by
  apply BitVec.eq_of_getLsbD_eq
  intro j hj
  simp only [getLsbD_lane, BitVec.getLsbD_sshiftRight, BitVec.getLsbD_setWidth]
  simp [hj, show ¬ W ≤ j by omega, show 8 * i + j < W by omega]

theorem setWidth_lane {W : Nat} (a : BitVec 8) (h : 8 ≤ W) : (a.setWidth W).setWidth 8 = a := by
  apply BitVec.eq_of_getLsbD_eq
  intro j hj
  simp only [BitVec.getLsbD_setWidth]
  simp [hj]; omega

/-- `y & (0xff << 8i)` is byte `i` of `y` shifted to its place. -/
theorem and_mask {W : Nat} (y m : BitVec W) (i : Nat) (h : 8 * i + 8 ≤ W)
    (hm : ∀ k < W, m.getLsbD k = (decide (8 * i ≤ k) && decide (k < 8 * i + 8))) :
    y &&& m = (lane 8 y i).setWidth W <<< (8 * i) := by
  apply BitVec.eq_of_getLsbD_eq
  intro j hj
  rw [BitVec.getLsbD_and, hm j hj, BitVec.getLsbD_shiftLeft, BitVec.getLsbD_setWidth, getLsbD_lane]
  by_cases h1 : 8 * i ≤ j
  · by_cases h2 : j < 8 * i + 8
    · simp [h1, h2, hj, show ¬ j < 8 * i by omega, show j - 8 * i < W by omega, show j - 8 * i < 8 by omega,
        show 8 * i + (j - 8 * i) = j by omega]
    · simp [h1, h2, show ¬ j - 8 * i < 8 by omega]
  · simp [h1, show j < 8 * i by omega]

theorem mul_shl {W : Nat} (a b : BitVec W) (n : Nat) : a * (b <<< n) = (a * b) <<< n := by
  rw [BitVec.shiftLeft_eq_mul_twoPow b, BitVec.shiftLeft_eq_mul_twoPow (a * b), BitVec.mul_assoc]

/-- Byte `i` of the product of the shifted and the masked operand. -/
theorem lane_partial {W : Nat} (x y m : BitVec W) (i : Nat) (h : 8 * i + 8 ≤ W)
    (hm : ∀ k < W, m.getLsbD k = (decide (8 * i ≤ k) && decide (k < 8 * i + 8))) :
    lane 8 (x.sshiftRight (8 * i) * (y &&& m)) i = lane 8 x i * lane 8 y i := by
  rw [and_mask y m i h hm, mul_shl, lane_shl_same _ i h, BitVec.setWidth_mul _ _ (by omega), setWidth_sshr x i h,
    setWidth_lane _ (by omega)]

theorem lane_partial_below {W : Nat} (x y m : BitVec W) (i k : Nat) (h : 8 * i + 8 ≤ W) (hk : k < i)
    (hm : ∀ k < W, m.getLsbD k = (decide (8 * i ≤ k) && decide (k < 8 * i + 8))) :
    lane 8 (x.sshiftRight (8 * i) * (y &&& m)) k = 0#8 := by
  rw [and_mask y m i h hm, mul_shl, lane_shl_below _ i k hk]

theorem lane_zero_eq {W : Nat} (x : BitVec W) : lane 8 x 0 = x.setWidth 8 := by
  apply BitVec.eq_of_getLsbD_eq
  intro j hj
  simp only [getLsbD_lane, BitVec.getLsbD_setWidth]
  simp

theorem lane_low {W : Nat} (hW : 8 ≤ W) (x y : BitVec W) : lane 8 (x * y) 0 = lane 8 x 0 * lane 8 y 0 := by
  rw [lane_zero_eq, lane_zero_eq, lane_zero_eq, BitVec.setWidth_mul _ _ hW]

theorem mask16_1 : ∀ k < 16, (0#16 - 256#16).getLsbD k = (decide (8 * 1 ≤ k) && decide (k < 8 * 1 + 8)) := by decide +kernel
theorem mask32_1 : ∀ k < 32, (0xff00#32).getLsbD k = (decide (8 * 1 ≤ k) && decide (k < 8 * 1 + 8)) := by decide +kernel
theorem mask32_2 : ∀ k < 32, (0xff0000#32).getLsbD k = (decide (8 * 2 ≤ k) && decide (k < 8 * 2 + 8)) := by decide +kernel
theorem mask32_3 : ∀ k < 32, (0xff000000#32).getLsbD k = (decide (8 * 3 ≤ k) && decide (k < 8 * 3 + 8)) := by decide +kernel

theorem lane_signExtend (x : BitVec 16) (i : Nat) (hi : i < 2) : lane 8 (x.signExtend 32) i = lane 8 x i := by
  apply BitVec.eq_of_getLsbD_eq
  intro j hj
  simp only [getLsbD_lane, BitVec.getLsbD_signExtend]
  simp [hj, show 8 * i + j < 32 by omega, show 8 * i + j < 16 by omega]

theorem lane_trunc (x : BitVec 32) (i : Nat) (hi : i < 2) : lane 8 (x.setWidth 16) i = lane 8 x i := by
  apply BitVec.eq_of_getLsbD_eq
  intro j hj
  simp only [getLsbD_lane, BitVec.getLsbD_setWidth]
  simp [show 8 * i + j < 16 by omega]

theorem and_ff (a : BitVec 8) : a &&& 0xff#8 = a := by revert a; decide +kernel
theorem and_00 (a : BitVec 8) : a &&& 0#8 = 0#8 := by revert a; decide +kernel
theorem or_00 (a : BitVec 8) : a ||| 0#8 = a := by revert a; decide +kernel
theorem or_00' (a : BitVec 8) : 0#8 ||| a = a := by revert a; decide +kernel

theorem mul2_lane (x y : BitVec 16) (i : Nat) (hi : i < 2) : lane 8 (mul2 x y) i = lane 8 x i * lane 8 y i := by
  unfold mul2
  simp only [lane_trunc _ i hi, lane_or, lane_and]
  match i, hi with
  | 0, _ =>
    rw [lane_low (by omega), lane_partial_below _ _ _ 1 0 (by omega) (by omega) mask32_1, lane_signExtend x 0 (by omega),
      lane_signExtend y 0 (by omega), or_00, show lane 8 0xff#32 0 = 0xff#8 by decide, and_ff]
  | 1, _ =>
    rw [lane_partial _ _ _ 1 (by omega) mask32_1, lane_signExtend x 1 (by omega), lane_signExtend y 1 (by omega),
      show lane 8 0xff#32 1 = 0#8 by decide, and_00, or_00']

theorem mul4_lane (x y : BitVec 32) (i : Nat) (hi : i < 4) : lane 8 (mul4 x y) i = lane 8 x i * lane 8 y i := by
  unfold mul4
  simp only [lane_or]
  rw [lane_and 8 (x * y), lane_and 8 (x.sshiftRight 8 * (y &&& 0xff00#32)),
    lane_and 8 (x.sshiftRight 16 * (y &&& 0xff0000#32))]
  match i, hi with
  | 0, _ =>
    rw [lane_low (by omega), lane_partial_below x y 0xff000000#32 3 0 (by omega) (by omega) mask32_3,
      show lane 8 0xff#32 0 = 0xff#8 by decide, show lane 8 0xff00#32 0 = 0#8 by decide,
      show lane 8 0xff0000#32 0 = 0#8 by decide, and_ff, and_00, and_00, or_00, or_00, or_00]
  | 1, _ =>
    rw [lane_partial x y 0xff00#32 1 (by omega) mask32_1,
      lane_partial_below x y 0xff000000#32 3 1 (by omega) (by omega) mask32_3,
      show lane 8 0xff#32 1 = 0#8 by decide, show lane 8 0xff00#32 1 = 0xff#8 by decide,
      show lane 8 0xff0000#32 1 = 0#8 by decide, and_ff, and_00, and_00, or_00, or_00, or_00']
  | 2, _ =>
    rw [lane_partial x y 0xff0000#32 2 (by omega) mask32_2,
      lane_partial_below x y 0xff000000#32 3 2 (by omega) (by omega) mask32_3,
      show lane 8 0xff#32 2 = 0#8 by decide, show lane 8 0xff00#32 2 = 0#8 by decide,
      show lane 8 0xff0000#32 2 = 0xff#8 by decide, and_ff, and_00, and_00, or_00, or_00', or_00']
  | 3, _ =>
    rw [lane_partial x y 0xff000000#32 3 (by omega) mask32_3,
      show lane 8 0xff#32 3 = 0#8 by decide, show lane 8 0xff00#32 3 = 0#8 by decide,
      show lane 8 0xff0000#32 3 = 0#8 by decide, and_00, and_00, and_00, or_00', or_00', or_00']

theorem mul3_lane (x y : BitVec 32) (i : Nat) (hi : i < 3) : lane 8 (mul3 x y) i = lane 8 x i * lane 8 y i := by
  unfold mul3
  simp only [lane_or]
  rw [lane_and 8 (x * y), lane_and 8 (x.sshiftRight 8 * (y &&& 0xff00#32))]
  match i, hi with
  | 0, _ =>
    rw [lane_low (by omega), lane_partial_below x y 0xff0000#32 2 0 (by omega) (by omega) mask32_2,
      show lane 8 0xff#32 0 = 0xff#8 by decide, show lane 8 0xff00#32 0 = 0#8 by decide, and_ff, and_00, or_00, or_00]
  | 1, _ =>
    rw [lane_partial x y 0xff00#32 1 (by omega) mask32_1,
      lane_partial_below x y 0xff0000#32 2 1 (by omega) (by omega) mask32_2,
      show lane 8 0xff#32 1 = 0#8 by decide, show lane 8 0xff00#32 1 = 0xff#8 by decide, and_ff, and_00, or_00, or_00']
  | 2, _ =>
    rw [lane_partial x y 0xff0000#32 2 (by omega) mask32_2,
      show lane 8 0xff#32 2 = 0#8 by decide, show lane 8 0xff00#32 2 = 0#8 by decide, and_00, and_00, or_00', or_00']

theorem mulWideS_eq (x y : BitVec 8) : mulWideS x y = x * y := by
  unfold mulWideS
  rw [BitVec.setWidth_mul _ _ (by omega)]
  have : ∀ a : BitVec 8, (a.signExtend 16).setWidth 8 = a := by decide +kernel
  rw [this, this]

theorem mulWideU_eq (x y : BitVec 8) : mulWideU x y = x * y := by
  unfold mulWideU
  rw [BitVec.setWidth_mul _ _ (by omega)]
  have : ∀ a : BitVec 8, (a.setWidth 16).setWidth 8 = a := by decide +kernel
  rw [this, this]

theorem mulEven_lane (x y : BitVec 16) : lane 8 (mulEven x y) 0 = lane 8 x 0 * lane 8 y 0 := lane_low (by omega) x y
theorem mulOdd_lane (x y : BitVec 16) : lane 8 (mulOdd x y) 1 = lane 8 x 1 * lane 8 y 1 :=
  lane_partial x y _ 1 (by omega) mask16_1
theorem mulOdd_lane0 (x y : BitVec 16) : lane 8 (mulOdd x y) 0 = 0#8 :=
  lane_partial_below x y _ 1 0 (by omega) (by omega) mask16_1

theorem mulBlendK_lane (x y : BitVec 16) (i : Nat) (hi : i < 2) : lane 8 (mulBlendK x y) i = lane 8 x i * lane 8 y i := by
  unfold mulBlendK
  rw [lane_join (by omega) 2 _ i hi (by omega)]
  match i, hi with
  | 0, _ => exact mulEven_lane x y
  | 1, _ => exact mulOdd_lane x y

theorem mulBlendV_lane (x y : BitVec 16) (i : Nat) (hi : i < 2) : lane 8 (mulBlendV x y) i = lane 8 x i * lane 8 y i := by
  unfold mulBlendV
  rw [lane_blendBytes _ _ _ i hi]
  match i, hi with
  | 0, _ => exact mulEven_lane x y
  | 1, _ => exact mulOdd_lane x y

theorem mulOr_lane (x y : BitVec 16) (i : Nat) (hi : i < 2) : lane 8 (mulOr x y) i = lane 8 x i * lane 8 y i := by
  unfold mulOr
  rw [lane_or, lane_and]
  match i, hi with
  | 0, _ =>
    rw [mulEven_lane, mulOdd_lane0, or_00, show lane 8 (~~~(0#16 - 256#16)) 0 = 0xff#8 by decide, BitVec.and_comm, and_ff]
  | 1, _ =>
    rw [mulOdd_lane, show lane 8 (~~~(0#16 - 256#16)) 1 = 0#8 by decide, BitVec.and_comm, and_00, or_00']

private theorem overGroups2_lane {w : Nat} (W k : Nat) (hw : 0 < w) (hW : w * k ≤ W)
    (F : BitVec W → BitVec W → BitVec W) (xs ys : List (BitVec w)) (j : Nat) (hk : 0 < k) (a b r : BitVec w)
    (ha : xs[j]? = some a) (hb : ys[j]? = some b)
    (h : ∀ g y, lane w g (j % k) = a → lane w y (j % k) = b → lane w (F g y) (j % k) = r) :
    (overGroups2 W k F xs ys)[j]? = some r := by
  obtain ⟨hj, hja⟩ := List.getElem?_eq_some_iff.1 ha
  have hm := Nat.mod_lt j hk
  have hd := Nat.div_add_mod j k
  simp only [overGroups2, List.getElem?_map, List.getElem?_range hj, Option.map_some]
  rw [h]
  · rw [group, lane_join hw k _ _ hm hW, hd, List.getD_eq_getElem?_getD, ha]; rfl
  · rw [group, lane_join hw k _ _ hm hW, hd, List.getD_eq_getElem?_getD, hb]; rfl

/-- Every code path multiplies lane `j`. -/
theorem mulBytes_lane (p : MulPath) (xs ys : List (BitVec 8)) (hl : xs.length = ys.length) (j : Nat) (a b : BitVec 8)
    (h3 : p = .three → j < 3 ∧ xs.length ≤ 4) (ha : xs[j]? = some a) (hb : ys[j]? = some b) :
    (mulBytes p xs ys)[j]? = some (a * b) := by
  have g16 : ∀ F : BitVec 16 → BitVec 16 → BitVec 16,
      (∀ x y i, i < 2 → lane 8 (F x y) i = lane 8 x i * lane 8 y i) → (overGroups2 16 2 F xs ys)[j]? = some (a * b) := by
    intro F hF
    refine overGroups2_lane 16 2 (by omega) (by omega) F xs ys j (by omega) a b _ ha hb ?_
    intro g y h1 h2
    rw [hF _ _ _ (Nat.mod_lt _ (by omega)), h1, h2]
  cases p
  · exact g16 mul2 mul2_lane
  · refine overGroups2_lane 32 4 (by omega) (by omega) mul3 xs ys j (by omega) a b _ ha hb ?_
    intro g y h1 h2
    have := (h3 rfl).1
    rw [mul3_lane _ _ _ (by rw [Nat.mod_eq_of_lt (by omega)]; omega), h1, h2]
  · refine overGroups2_lane 32 4 (by omega) (by omega) mul4 xs ys j (by omega) a b _ ha hb ?_
    intro g y h1 h2
    rw [mul4_lane _ _ _ (Nat.mod_lt _ (by omega)), h1, h2]
  · simp only [mulBytes]; rw [List.getElem?_zipWith, ha, hb]; simp [mulWideS_eq]
  · simp only [mulBytes]; rw [List.getElem?_zipWith, ha, hb]; simp [mulWideU_eq]
  · exact g16 mulBlendK mulBlendK_lane
  · exact g16 mulBlendV mulBlendV_lane
  · exact g16 mulOr mulOr_lane

end StdSimd.X86
