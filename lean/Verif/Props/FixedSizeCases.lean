import Verif.Props.FixedSize
import Verif.Props.NativeMasks
/-!
# Concrete cases for the theorems of `FixedSize.lean` and `NativeMasks.lean`

Each case instantiates a theorem at an object with padding (eleven `float` elements in an 8-element and a partial
3-element register of an AVX2 target, or a partial mask), so that its hypotheses are met by a non-trivial object,
and computes what the theorem says about it.
-/
namespace StdSimd.Props
open StdSimd Native Tuple

section FixedSize
variable {α : Type}

theorem exLanes : lanes (regs exAvx2 ⟨4, true⟩ 11) exTup = [1, 2, 3, 4, 5, 6, 7, 8, 9, 10, 11] := by rw [exRegs_avx2]; rfl

/-- An 11-lane mask: lanes 0, 7, 8 and 10. -/
def exMask : BitMask 11 true := BitMask.ofULL 11 true 0x581#64

theorem exMask_lanes : exMask.lanes = [true, false, false, false, false, false, false, true, true, false, true] := by decide

theorem exMask_clean : exMask.Clean := fun i hi => by
  by_cases h : i < 16
  · have : ∀ j < 16, 11 ≤ j → exMask.lane j = false := by decide
    exact this i h hi
  · exact BitMask.lane_oob _ (by rw [show arraySize 11 = 1 by decide, show wordBits 11 = 16 by decide]; omega)

-- C01_size
example : (lanes (regs exAvx2 ⟨4, true⟩ 11) exTup).length = 11 :=
  C01_size exAvx2_ok (by decide) (by decide) exTup_wf

-- C01_unary, C01_increment
example : ∃ r, Tuple.unary (fun a => some (2 * a)) (regs exAvx2 ⟨4, true⟩ 11) exTup = some r ∧
    lanes (regs exAvx2 ⟨4, true⟩ 11) r = [2, 4, 6, 8, 10, 12, 14, 16, 18, 20, 22] := by
  obtain ⟨r, e, _, h⟩ := C01_unary exAvx2_ok (T := ⟨4, true⟩) (n := 11) (by decide) (by decide) (2 * ·) exTup_wf
  exact ⟨r, e, by rw [h, exLanes]; rfl⟩
example : ∃ r, Tuple.incr (fun a => some (a + 1)) (regs exAvx2 ⟨4, true⟩ 11) exTup = some r ∧
    lanes (regs exAvx2 ⟨4, true⟩ 11) r = [2, 3, 4, 5, 6, 7, 8, 9, 10, 11, 12] := by
  obtain ⟨r, e, _, h⟩ := C01_increment exAvx2_ok (T := ⟨4, true⟩) (n := 11) (by decide) (by decide) (· + 1) exTup_wf
  exact ⟨r, e, by rw [h, exLanes]; rfl⟩

-- C01_ternary
example : ∃ r, Tuple.ternary (fun a b c => some (a * b + c)) (regs exAvx2 ⟨4, true⟩ 11) exTup exTup exTup = some r ∧
    lanes (regs exAvx2 ⟨4, true⟩ 11) r = [2, 6, 12, 20, 30, 42, 56, 72, 90, 110, 132] := by
  obtain ⟨r, e, _, h⟩ := C01_ternary exAvx2_ok (T := ⟨4, true⟩) (n := 11) (by decide) (by decide) (fun a b c => a * b + c)
    exTup_wf exTup_wf exTup_wf
  exact ⟨r, e, by rw [h, exLanes]; rfl⟩

-- C02_not_equal, C02_classify, C02_classify_raw, C02_negate
example : ∃ b, Tuple.cmpNe (regs exAvx2 ⟨4, true⟩ 11) exTup (Tuple.broadcast (regs exAvx2 ⟨4, true⟩ 11) 9) = some b ∧ b.Clean ∧
    b.lanes = [true, true, true, true, true, true, true, true, false, true, true] := by
  obtain ⟨hw, hl⟩ := C01_broadcast exAvx2_ok (T := ⟨4, true⟩) (n := 11) (by decide) (by decide) 9
  obtain ⟨b, e, hc, hb⟩ := C02_not_equal exAvx2_ok (T := ⟨4, true⟩) (n := 11) (by decide) (by decide) (by decide) exTup_wf hw
  exact ⟨b, e, hc, by rw [hb, hl, exLanes]; rfl⟩
example : ∃ b, Tuple.classify (fun a : Nat => a % 2 == 0) (regs exAvx2 ⟨4, true⟩ 11) exTup = some b ∧ b.Clean ∧
    b.lanes = [false, true, false, true, false, true, false, true, false, true, false] := by
  obtain ⟨b, e, hc, hb⟩ := C02_classify exAvx2_ok (T := ⟨4, true⟩) (n := 11) (by decide) (by decide) (by decide)
    (fun a : Nat => a % 2 == 0) exTup_wf
  exact ⟨b, e, hc, by rw [hb, exLanes]; rfl⟩
example : ∃ b, Tuple.classifyRaw (fun a : Nat => a % 3 == 0) (regs exAvx2 ⟨4, true⟩ 11) exTup = some b ∧ b.Clean ∧
    b.lanes = [false, false, true, false, false, true, false, false, true, false, false] := by
  obtain ⟨b, e, hc, hb⟩ := C02_classify_raw exAvx2_ok (T := ⟨4, true⟩) (n := 11) (by decide) (by decide) (by decide)
    (fun a : Nat => a % 3 == 0) exTup_wf
  exact ⟨b, e, hc, by rw [hb, exLanes]; rfl⟩
example : ∃ b, Tuple.negate (fun a : Nat => a == 11) (regs exAvx2 ⟨4, true⟩ 11) exTup = some b ∧ b.Clean ∧
    b.lanes = [false, false, false, false, false, false, false, false, false, false, true] := by
  obtain ⟨b, e, hc, hb⟩ := C02_negate exAvx2_ok (T := ⟨4, true⟩) (n := 11) (by decide) (by decide) (by decide)
    (fun a : Nat => a == 11) exTup_wf
  exact ⟨b, e, hc, by rw [hb, exLanes]; rfl⟩

-- C09_read, C09_write_history
example : Tuple.get (regs exAvx2 ⟨4, true⟩ 11) exTup 10 = some 11 := by
  rw [(C09_read exAvx2_ok (T := ⟨4, true⟩) (n := 11) (by decide) (by decide) exTup_wf (i := 10) (by decide)).1, exLanes]; rfl
example : lanes (regs exAvx2 ⟨4, true⟩ 11)
    ([(8, 0), (3, 7), (8, 5)].foldl (fun v (w : Nat × Nat) => Tuple.set (regs exAvx2 ⟨4, true⟩ 11) v w.1 w.2) exTup)
    = [1, 2, 3, 7, 5, 6, 7, 8, 5, 10, 11] := by
  rw [(C09_write_history exAvx2_ok (T := ⟨4, true⟩) (n := 11) (by decide) (by decide) exTup_wf [(8, 0), (3, 7), (8, 5)] (by decide)).2,
    exLanes]; rfl
-- C09_native
example : (Native.set [1, 2, 3, 99] 2 5).take 3 = ([1, 2, 3] : List Nat).set 2 5 :=
  (C09_native (g := .vec 32 3 4) (by decide) (x := [1, 2, 3, 99]) rfl (i := 2) (by decide) 5).2.2

-- C10_calls
example : ∃ r, Tuple.generator (m := StateM (List Nat)) (regs exAvx2 ⟨4, true⟩ 11) 0 (fun i log => (i * i, log ++ [i])) [] =
      (r, [0, 1, 2, 3, 4, 5, 6, 7, 8, 9, 10]) ∧
    lanes (regs exAvx2 ⟨4, true⟩ 11) r = [0, 1, 4, 9, 16, 25, 36, 49, 64, 81, 100] := by
  obtain ⟨r, e, _, h⟩ := C10_calls exAvx2_ok (T := ⟨4, true⟩) (n := 11) (by decide) (by decide) 0 (fun i => i * i)
  exact ⟨r, e, h⟩

-- C12_store: only the eleven cells are mapped
example : ∃ m, Tuple.store (Xfer.of exAvx2 ⟨2, false⟩ false) (fun a : Nat => a + 1) (regs exAvx2 ⟨4, true⟩ 11) exTup
    (fun a => if 100 ≤ a ∧ a < 111 then some 0 else none) 100 = some m ∧ m 110 = some 12 ∧ m 111 = none := by
  obtain ⟨m, e, h1, h2⟩ := C12_store exAvx2_ok (T := ⟨4, true⟩) (n := 11) (by decide) (by decide) (U := ⟨2, false⟩) (by decide) false
    (fun a : Nat => a + 1) exTup_wf (fun a => if 100 ≤ a ∧ a < 111 then some 0 else none) 100 (fun i hi => by
      rw [if_pos (by omega)]; rfl)
  exact ⟨m, e, by rw [h1 10 (by decide), exLanes]; rfl, by rw [h2 111 (.inr (by decide))]; rfl⟩

-- C14_masked_store: only the cells of the selected lanes are mapped
example : ∃ m, Tuple.maskedStore (fun _ => .raw) (fun a : Nat => a) 0 (regs exAvx2 ⟨4, true⟩ 11) exTup
    (fun a => if a ∈ [100, 107, 108, 110] then some 0 else none) 100 exMask = some m ∧
    m 100 = some 1 ∧ m 107 = some 8 ∧ m 108 = some 9 ∧ m 110 = some 11 ∧ m 101 = none := by
  obtain ⟨m, e, h1, h2⟩ := C14_masked_store exAvx2_ok (T := ⟨4, true⟩) (n := 11) (by decide) (by decide) (by decide) (fun _ => .raw)
    (fun a : Nat => a) 0 exTup_wf exMask exMask_clean (fun a => if a ∈ [100, 107, 108, 110] then some 0 else none) 100
    (by rw [exMask_lanes]; decide)
  rw [exLanes, exMask_lanes] at h1
  refine ⟨m, e, h1 0 (by decide) rfl, h1 7 (by decide) rfl, h1 8 (by decide) rfl, h1 10 (by decide) rfl, ?_⟩
  rw [h2 101 (by rw [exMask_lanes]; decide)]; rfl

-- C15_assign, C15_assign_scalar_partial, C15_compound_partial, C15_compound_scalar_partial, C15_unary
example : ∃ r, Tuple.maskedAssign (fun _ => false) (regs exAvx2 ⟨4, true⟩ 11) exMask exTup
    (Tuple.broadcast (regs exAvx2 ⟨4, true⟩ 11) 0) = some r ∧
    lanes (regs exAvx2 ⟨4, true⟩ 11) r = [0, 2, 3, 4, 5, 6, 7, 0, 0, 10, 0] := by
  obtain ⟨hw, hl⟩ := C01_broadcast exAvx2_ok (T := ⟨4, true⟩) (n := 11) (by decide) (by decide) 0
  obtain ⟨r, e, _, h⟩ := C15_assign exAvx2_ok (T := ⟨4, true⟩) (n := 11) (by decide) (by decide) (by decide) (fun _ => false)
    exMask exMask_clean exTup_wf hw
  exact ⟨r, e, by rw [h, hl, exLanes, exMask_lanes]; rfl⟩
example : ∃ r, Tuple.maskedAssignScalar (fun _ => false) (· == 0) 0 (regs exAvx2 ⟨4, true⟩ 11) exMask exTup 50 = some r ∧
    lanes (regs exAvx2 ⟨4, true⟩ 11) r = [50, 2, 3, 4, 5, 6, 7, 50, 50, 10, 50] := by
  obtain ⟨r, e, _, h⟩ := C15_assign_scalar_partial exAvx2_ok (T := ⟨4, true⟩) (n := 11) (by decide) (by decide) (by decide)
    (fun _ => false) (· == 0) 0 exMask exMask_clean exTup_wf 50 (by decide)
  exact ⟨r, e, by rw [h, exLanes, exMask_lanes]; rfl⟩
example : ∃ r, Tuple.maskedCassign (fun _ => false) (regs exAvx2 ⟨4, true⟩ 11) exMask exTup exTup
      (fun _ l r => map2 (fun a b => some (a * b)) l r) = some r ∧
    lanes (regs exAvx2 ⟨4, true⟩ 11) r = [1, 2, 3, 4, 5, 6, 7, 64, 81, 10, 121] := by
  obtain ⟨r, e, _, h⟩ := C15_compound_partial exAvx2_ok (T := ⟨4, true⟩) (n := 11) (by decide) (by decide) (by decide)
    (fun _ => false) (· * ·) exMask exMask_clean exTup_wf exTup_wf
  exact ⟨r, e, by rw [h, exLanes, exMask_lanes]; rfl⟩
example : ∃ r, Tuple.maskedCassignScalar (fun _ => false) (regs exAvx2 ⟨4, true⟩ 11) exMask exTup 3
      (fun _ l r => map2 (fun a b => some (a - b)) l r) = some r ∧
    lanes (regs exAvx2 ⟨4, true⟩ 11) r = [0, 2, 3, 4, 5, 6, 7, 5, 6, 10, 8] := by
  obtain ⟨r, e, _, h⟩ := C15_compound_scalar_partial exAvx2_ok (T := ⟨4, true⟩) (n := 11) (by decide) (by decide) (by decide)
    (fun _ => false) (· - ·) exMask exMask_clean exTup_wf 3
  exact ⟨r, e, by rw [h, exLanes, exMask_lanes]; rfl⟩
example : ∃ r, Tuple.maskedUnary (fun _ => false) (regs exAvx2 ⟨4, true⟩ 11) exMask exTup
      (fun _ l => map1 (fun a => some (a + 100)) l) = some r ∧
    lanes (regs exAvx2 ⟨4, true⟩ 11) r = [101, 2, 3, 4, 5, 6, 7, 108, 109, 10, 111] := by
  obtain ⟨r, e, _, h⟩ := C15_unary exAvx2_ok (T := ⟨4, true⟩) (n := 11) (by decide) (by decide) (by decide)
    (fun _ => false) (· + 100) exMask exMask_clean exTup_wf
  exact ⟨r, e, by rw [h, exLanes, exMask_lanes]; rfl⟩
end FixedSize

section Masks
open VMask

/-- Two 3-lane masks in registers of four elements of 16 bits whose padding elements hold anything. -/
def exV : VMask 16 := [-1#16, 0#16, -1#16, 0x1234#16]
def exU : VMask 16 := [0#16, 0#16, -1#16, 7#16]

theorem exV_wf : Wf 3 4 exV := ⟨rfl, by simp [exV]⟩
theorem exU_wf : Wf 3 4 exU := ⟨rfl, by simp [exU]⟩

example : VMask.lanes 3 (VMask.and exV exU) = [false, false, true] :=
  (C41_vec_and (by decide) (by decide) exV_wf exU_wf).2.trans (by decide)
example : VMask.lanes 3 (VMask.or exV exU) = [true, false, true] :=
  (C41_vec_or (by decide) (by decide) exV_wf exU_wf).2.trans (by decide)
example : VMask.lanes 3 (VMask.xor exV exU) = [true, false, false] :=
  (C41_vec_xor (by decide) (by decide) exV_wf exU_wf).2.trans (by decide)
example : VMask.lanes 3 (VMask.neq exV exU) = [true, false, false] :=
  (C41_vec_neq (by decide) (by decide) exV_wf exU_wf).2.trans (by decide)
example : VMask.lanes 3 (VMask.set exV 1 true) = [true, true, true] :=
  (C41_vec_set (by decide) (by decide) exV_wf (i := 1) (by decide) true).2.trans (by decide)
example : VMask.lanes 3 (VMask.maskedAssign exU exV (VMask.broadcast 16 3 4 false)) = [true, false, false] :=
  (C41_vec_masked_assign (by decide) (by decide) exU_wf exV_wf (C41_vec_broadcast (by decide) (by decide) false).1).2.trans (by decide)
example : VMask.lanes 3 (VMask.maskedAssignBool 3 4 true exU exV false) = [true, false, false] :=
  (C41_vec_masked_assign_bool (by decide) (by decide) true exU_wf exV_wf false).2.trans (by decide)
example : (VMask.toBits 3 exV).lanes = [true, false, true] ∧ (VMask.toBits 3 exV).Clean :=
  have h := C30_vec_to_bits (by decide) (by decide) (by decide) (by decide) (by decide) exV_wf
  ⟨h.1.trans (by decide), h.2⟩
example : (VMask.x86ToBits16 3 exV).lanes = [true, false, true] :=
  (C30_x86_to_bits_16 (by decide) (by decide) (by decide) (by decide) exV_wf).1.trans (by decide)
example : VMask.lanes 3 (VMask.ofVector 64 4 3 exV) = [true, false, true] :=
  (C30_vec_to_vec (w' := 64) (full' := 4) (by decide) (by decide) (by decide) (by decide) exV_wf).2.trans (by decide)
example : VMask.popcount 3 exV = 2 := (C31_vec_popcount (by decide) (by decide) (by decide) exV_wf).trans (by decide)
example : VMask.someOf 3 exV = true := (C31_vec_some_of (by decide) (by decide) (by decide) exV_wf).2 ⟨by decide, by decide⟩
example : VMask.x86Popcount2x8 3 4 exV = 2 := (C31_x86_popcount_2x8 (by decide) (by decide) exV_wf).trans (by decide)
example : VMask.x86AnyOf false false false 3 4 exU = true :=
  (C31_x86_reductions (w := 16) (by decide) (by decide) (by decide) false false false (by decide) exU_wf).2.1.2 ⟨true, by decide, rfl⟩
example : ∃ i : Nat, VMask.findLastSet 3 (VMask.toBits 3 exV) = some (i : Int) ∧ Spec.IsLastSet (VMask.lanes 3 exV) i :=
  (C31_vec_find (by decide) (by decide) (by decide) (by decide) (by decide) exV_wf ⟨true, by decide, rfl⟩).2

/-- Two clean 5-lane masks in an 8-bit mask register, and one with phantom lanes. -/
def exK : KMask 5 := 0b01101#8
def exJ : KMask 5 := 0b10100#8

theorem clean5 (k : KMask 5) (h : ∀ j < 8, 5 ≤ j → k.getLsbD j = false) : KMask.Clean k := fun i hi => by
  rcases Nat.lt_or_ge i 8 with h' | h'
  · exact h i h' hi
  · exact BitVec.getLsbD_of_ge _ _ h'

theorem exK_clean : KMask.Clean exK := clean5 _ (by decide)
theorem exJ_clean : KMask.Clean exJ := clean5 _ (by decide)

example : KMask.lanes (KMask.and exK exJ) = [false, false, true, false, false] :=
  (C41_k_and exK exJ (.inl exK_clean)).2.trans (by decide)
example : KMask.lanes (KMask.or exK exJ) = [true, false, true, true, true] := (C41_k_or _ _ exK_clean exJ_clean).2.trans (by decide)
example : KMask.lanes (KMask.xor exK exJ) = [true, false, false, true, true] := (C41_k_xor _ _ exK_clean exJ_clean).2.trans (by decide)
example : KMask.lanes (KMask.eq exK exJ) = [false, true, true, false, false] :=
  (C41_k_eq (by decide) _ _ exK_clean exJ_clean).2.trans (by decide)
example : KMask.lanes (KMask.set exK 4 true) = [true, false, true, true, true] :=
  (C41_k_set _ exK_clean (i := 4) (by decide) true).2.trans (by decide)
example : KMask.lanes (KMask.maskedAssign exJ exK exJ) = [true, false, true, true, true] :=
  (C41_k_masked_assign _ _ _ exJ_clean exK_clean exJ_clean).2.trans (by decide)
example : KMask.lanes (KMask.maskedAssignBool exJ exK false) = [true, false, false, true, false] :=
  (C41_k_masked_assign_bool _ _ exJ_clean exK_clean false).2.trans (by decide)
example : (KMask.toBits exK).lanes = [true, false, true, true, false] := (C30_k_to_bits (by decide) (by decide) exK).1.trans (by decide)
example : KMask.popcount exK = 3 ∧ KMask.findLastSet exK = 3 := by decide
example : Spec.IsFirstSet (KMask.lanes exK) (KMask.findFirstSet exK) := C31_k_find_first_set exK ⟨true, by decide, rfl⟩
example : ∃ i : Nat, KMask.findLastSet exK = i ∧ Spec.IsLastSet (KMask.lanes exK) i :=
  C31_k_find_last_set_partial exK exK_clean ⟨true, by decide, rfl⟩
-- C13_k_mask_masked_load_partial: only the cells of the lanes of `exJ` are mapped
example : ∃ r, KMask.maskedLoad exK exJ (fun a => if a ∈ [102, 104] then some true else none) 100 = some r ∧ r.Clean ∧
    KMask.lanes r = [true, false, true, true, true] := by
  obtain ⟨r, e, hc, h⟩ := C13_k_mask_masked_load_partial exK exJ exK_clean exJ_clean
    (fun a => if a ∈ [102, 104] then some true else none) 100 (fun _ => true) (by decide)
  exact ⟨r, e, hc, h.trans (by decide)⟩
-- C14_k_mask_masked_store_partial
example : ∃ m, KMask.maskedStore exK (fun a => if a ∈ [102, 104] then some true else none) 100 exJ = some m ∧
    m 102 = some true ∧ m 104 = some false ∧ m 105 = none := by
  obtain ⟨m, e, h1, h2⟩ := C14_k_mask_masked_store_partial exK exJ exJ_clean
    (fun a => if a ∈ [102, 104] then some true else none) 100 (by decide)
  exact ⟨m, e, h1 2 (by decide) (by decide), h1 4 (by decide) (by decide), (h2 105 (by decide)).trans (by decide)⟩
-- C12_k_mask_store, C12_vec_mask_store: the cells after the array are not mapped
example : ∃ m, KMask.store exK (fun a => if a < 5 then some true else none) 0 = some m ∧ m 4 = some false ∧ m 5 = none := by
  obtain ⟨m, e, h1, h2⟩ := C12_k_mask_store exK (fun a => if a < 5 then some true else none) 0 (by decide)
  exact ⟨m, e, h1 4 (by decide), (h2 5 (.inr (by decide))).trans (by decide)⟩
example : ∃ m, VMask.store 3 exV (fun a => if a < 3 then some true else none) 0 = some m ∧ m 1 = some false ∧ m 3 = none := by
  obtain ⟨m, e, h1, h2⟩ := C12_vec_mask_store (by decide) (by decide) exV_wf (fun a => if a < 3 then some true else none) 0 (by decide)
  exact ⟨m, e, h1 1 (by decide), (h2 3 (.inr (by decide))).trans (by decide)⟩
-- C13_vec_mask_masked_load
example : ∃ r, VMask.maskedLoad 3 exV (VMask.toBits 3 exU) (fun a => if a = 102 then some false else none) 100 = some r ∧
    VMask.lanes 3 r = [true, false, false] := by
  obtain ⟨r, e, _, h⟩ := C13_vec_mask_masked_load (w := 16) (n := 3) (full := 4) (by decide) (by decide) (by decide) (by decide)
    (by decide) exV_wf exU_wf (fun a => if a = 102 then some false else none) 100 (fun _ => false) (by decide)
  exact ⟨r, e, h.trans (by decide)⟩
end Masks

end StdSimd.Props
