import Verif.Proofs.X86Mul
import Verif.Proofs.X86Shr
/-!
# x86 shifts in one element

What the shifts compute in element `j` depends on the counts of the elements up to `j` only: padding, which comes last, may hold any counts.
-/
namespace StdSimd.X86

/-- `overGroups2_eq` for one element. -/
theorem overGroups2_prefix {w : Nat} (W k : Nat) (hw : 0 < w) (hk : 0 < k) (hW : w * k ≤ W)
    (F : BitVec W → BitVec W → BitVec W) (f : BitVec w → BitVec w → BitVec w) (P : BitVec w → Prop)
    (h : ∀ g y i, (∀ l ≤ i, P (lane w y l)) → i < k → lane w (F g y) i = f (lane w g i) (lane w y i))
    (xs ys : List (BitVec w)) (j : Nat) (a b : BitVec w) (ha : xs[j]? = some a) (hb : ys[j]? = some b)
    (hy : ∀ l ≤ j, ∃ c, ys[l]? = some c ∧ P c) : (overGroups2 W k F xs ys)[j]? = some (f a b) := by
  obtain ⟨hj, hja⟩ := List.getElem?_eq_some_iff.1 ha
  have hm := Nat.mod_lt j hk
  have hd := Nat.div_add_mod j k
  simp only [overGroups2, List.getElem?_map, List.getElem?_range hj, Option.map_some]
  rw [h _ _ _ ?_ hm, group, group, lane_join hw k _ _ hm hW, lane_join hw k _ _ hm hW, hd,
    List.getD_eq_getElem?_getD, List.getD_eq_getElem?_getD, ha, hb]
  · rfl
  · intro l hl
    rw [group, lane_join hw k _ _ (by omega) hW, List.getD_eq_getElem?_getD]
    obtain ⟨c, hc, hp⟩ := hy (k * (j / k) + l) (by omega)
    rw [hc]; exact hp

theorem length_overGroups2 {w : Nat} (W k : Nat) (F : BitVec W → BitVec W → BitVec W) (xs ys : List (BitVec w)) :
    (overGroups2 W k F xs ys).length = xs.length := by simp [overGroups2]
theorem length_overGroups1 {w : Nat} (W k : Nat) (F : BitVec W → BitVec W) (xs : List (BitVec w)) :
    (overGroups1 W k F xs).length = xs.length := by simp [overGroups1]

theorem shr8vZmmS_own (x y : BitVec 16) (i : Nat) (hi : i < 2) (hy : ∀ l ≤ i, (lane 8 y l).toNat < 32) :
    lane 8 (shr8vZmmS x y) i = (lane 8 x i).sshiftRight (lane 8 y i).toNat := by
  match i, hi with
  | 1, _ => exact shr8vZmmS_lane x y 1 (by omega) (fun k hk => by have := hy k (by omega); omega)
  | 0, _ =>
    have h0 := hy 0 (by omega)
    unfold shr8vZmmS
    rw [lane_mov55 _ _ 0 (by omega), if_pos rfl]
    have e : (mov55 0#16 (bytes2 (fun a b => a + b) y 8#16)).toNat = (lane 8 y 0).toNat + 8 := by
      rw [toNat_of_lanes, lane_mov55 _ _ 0 (by omega), lane_mov55 _ _ 1 (by omega), if_pos rfl, if_neg (by omega),
        lane_bytes2 _ _ _ 0 (by omega), lane_zero16]
      have : lane 8 8#16 0 = 8#8 := by decide
      rw [this, BitVec.toNat_add]; simp; omega
    rw [e]
    generalize (lane 8 y 0).toNat = n
    apply BitVec.eq_of_getLsbD_eq
    intro j hj
    simp only [getLsbD_lane, BitVec.getLsbD_sshiftRight, BitVec.msb_eq_getLsbD_last, BitVec.getLsbD_shiftLeft]
    by_cases h : n + j < 8
    · simp [hj, h, show ¬ 16 ≤ j by omega, show ¬ 8 ≤ j by omega, show n + 8 + j < 16 by omega,
        show n + 8 + j - 8 = n + j by omega, -BitVec.getLsbD_eq_getElem]; omega
    · simp [hj, h, show ¬ 16 ≤ j by omega, show ¬ 8 ≤ j by omega, show ¬ n + 8 + j < 16 by omega]

theorem shr16vAvx2S_own (x y : BitVec 32) (i : Nat) (hi : i < 2) (hy : ∀ l ≤ i, (lane 16 y l).toNat < 32) :
    lane 16 (shr16vAvx2S x y) i = (lane 16 x i).sshiftRight (lane 16 y i).toNat := by
  match i, hi with
  | 1, _ => exact shr16vAvx2S_lane x y 1 (by omega) (fun k hk => by have := hy k (by omega); omega)
  | 0, _ =>
    unfold shr16vAvx2S
    rw [lane_blendAA _ _ 0 (by omega), toNat_lo16, if_neg (by omega), low16_sshr, top16_sshr, top16_shl]

theorem lane_or_shl {W : Nat} (w : Nat) (hw : w ≤ W) (a b : BitVec W) : lane w (a ||| b <<< w) 0 = lane w a 0 := by
  apply BitVec.eq_of_getLsbD_eq
  intro j hj
  simp only [getLsbD_lane, BitVec.getLsbD_or, BitVec.getLsbD_shiftLeft]
  simp [hj]

/-- The register of exponents. -/
def yu (y : BitVec 32) : BitVec 32 := join 32 2 (fun i => lane 16 y i + (0x3f8#16 >>> 3))

theorem shl16vSse_zero (x y : BitVec 32) : lane 16 (shl16vSse x y) 0 = lane 16 x 0 * lane 16 (cvttps (yu y <<< 23)) 0 := by
  unfold shl16vSse
  rw [lane_join (by omega) 2 _ 0 (by omega) (by omega), lane_or_shl 16 (by omega)]
  rfl

theorem yu_shl (y y' : BitVec 32) (h : lane 16 y 0 = lane 16 y' 0) : yu y <<< 23 = yu y' <<< 23 := by
  unfold yu
  apply BitVec.eq_of_getLsbD_eq
  intro j hj
  rw [BitVec.getLsbD_shiftLeft, BitVec.getLsbD_shiftLeft, getLsbD_join (by omega), getLsbD_join (by omega)]
  have d : (j - 23) / 16 = 0 := by omega
  rw [d, h]

theorem shl16vSse_own (x y : BitVec 32) (i : Nat) (hi : i < 2) (hy : ∀ l ≤ i, (lane 16 y l).toNat < 16) :
    lane 16 (shl16vSse x y) i = lane 16 x i <<< (lane 16 y i).toNat := by
  match i, hi with
  | 1, _ => exact shl16vSse_lane x y 1 (by omega) (fun k hk => hy k (by omega))
  | 0, _ =>
    have h0 := hy 0 (by omega)
    let y' : BitVec 32 := y &&& 0xffff#32
    have m : ∀ k < 32, (0xffff#32).getLsbD k = decide (k < 16) := by decide +kernel
    have l0 : lane 16 y' 0 = lane 16 y 0 := by
      apply BitVec.eq_of_getLsbD_eq
      intro j hj
      simp only [y', getLsbD_lane, BitVec.getLsbD_and]
      rw [m _ (by omega)]; simp [hj]
    have l1 : lane 16 y' 1 = 0#16 := by
      apply BitVec.eq_of_getLsbD_eq
      intro j hj
      simp only [y', getLsbD_lane, BitVec.getLsbD_and]
      rw [m _ (by omega)]; simp
    have key := shl16vSse_lane x y' 0 (by omega) (fun k hk => by
      match k, hk with
      | 0, _ => rw [l0]; exact h0
      | 1, _ => rw [l1]; decide)
    rw [l0] at key
    rw [← key]
    rw [shl16vSse_zero, shl16vSse_zero]
    exact congrArg (fun z => lane 16 x 0 * lane 16 (cvttps z) 0) (yu_shl y y' l0.symm)

theorem shr32vU_own (sse41 : Bool) (x y : BitVec 64) (i : Nat) (hi : i < 2) (hy : ∀ l ≤ i, (lane 32 y l).toNat < 32) :
    lane 32 (shr32vU sse41 x y) i = lane 32 x i >>> (lane 32 y i).toNat := by
  match i, hi with
  | 1, _ => exact shr32vU_lane sse41 x y 1 (by omega) (fun k hk => hy k (by omega))
  | 0, _ =>
    have h0 := hy 0 (by omega)
    let y' : BitVec 64 := y &&& 0xffffffff#64
    have m : ∀ k < 64, (0xffffffff#64).getLsbD k = decide (k < 32) := by decide +kernel
    have l0 : lane 32 y' 0 = lane 32 y 0 := by
      apply BitVec.eq_of_getLsbD_eq
      intro j hj
      simp only [y', getLsbD_lane, BitVec.getLsbD_and]
      rw [m _ (by omega)]; simp [hj]
    have l1 : lane 32 y' 1 = 0#32 := by
      apply BitVec.eq_of_getLsbD_eq
      intro j hj
      simp only [y', getLsbD_lane, BitVec.getLsbD_and]
      rw [m _ (by omega)]; simp
    have key := shr32vU_lane sse41 x y' 0 (by omega) (fun k hk => by
      match k, hk with
      | 0, _ => rw [l0]; exact h0
      | 1, _ => rw [l1]; decide)
    rw [l0] at key
    rw [← key]
    have mul0 : mulEpu32 x (join 64 2 (fun i => cvttps (0x4f000000#32 - (lane 32 y i <<< 23)))) =
        mulEpu32 x (join 64 2 (fun i => cvttps (0x4f000000#32 - (lane 32 y' i <<< 23)))) := by
      unfold mulEpu32
      rw [lane_join (by omega) 2 _ 0 (by omega) (by omega), lane_join (by omega) 2 _ 0 (by omega) (by omega), l0]
    unfold shr32vU
    dsimp only
    rw [mul0]
    cases sse41
    · simp only [Bool.false_eq_true, if_false]
      rw [lane_or_shl 32 (by omega), lane_or_shl 32 (by omega)]
    · simp only [if_true]
      rw [lane_join (by omega) 2 _ 0 (by omega) (by omega), lane_join (by omega) 2 _ 0 (by omega) (by omega), if_pos rfl, if_pos rfl]

end StdSimd.X86
