import Verif.Proofs.OtherMask
import Verif.Model.Compare
import Verif.Props.Masks
/-!
# C52: masks on ARM NEON and PowerPC

`VMask.Reg w n full`: a register of `full` elements of `w` bits, `n` of which are lanes.  `VMask.Wf n full k`: every lane is all zeros or all ones, the
padding is arbitrary.  `VMask.lanes n k` is what `operator[]` shows.
-/
namespace StdSimd.Props
open StdSimd VMask

variable {w n full : Nat} {k : VMask w}

private theorem repOf (hr : Reg w n full) (hk : Wf n full k) : Rep n full k (lanes n k) := hk.rep (by have := hr.pos; omega) hr.le

/-- C52. The conversion of a NEON mask to bits (64-bit and 32-bit ARM) keeps every lane and leaves all other bits zero, whatever the padding is. -/
theorem C52_neon_to_bits (a64 : Bool) (hr : Reg w n full) (hk : Wf n full k) :
    (neonToBits a64 n full k).lanes = lanes n k ∧ (neonToBits a64 n full k).Clean :=
  neonToBits_spec a64 hr (repOf hr hk)

/-- C52. `find_first_set` and `find_last_set` of NEON masks. -/
theorem C52_neon_find (a64 : Bool) (hr : Reg w n full) (hk : Wf n full k) (hne : Spec.anyOf (lanes n k)) :
    (∃ i, findFirstSet n (neonToBits a64 n full k) = some i ∧ Spec.IsFirstSet (lanes n k) i) ∧
    (∃ i : Nat, findLastSet n (neonToBits a64 n full k) = some (i : Int) ∧ Spec.IsLastSet (lanes n k) i) := by
  have hb := C52_neon_to_bits a64 hr hk
  have h2 := hr.two
  have h64 : n ≤ 64 := by have := hr.le; rcases hr.cases with h | h | h | h | h | h | h | h | h | h <;> omega
  rw [← hb.1] at hne ⊢
  exact ⟨C03_find_first_set (by omega) h64 _ hb.2 hne, C03_find_last_set (by omega) h64 _ hb.2 hne⟩

/-- C52. `all_of` of NEON masks: no signed overflow and the right answer, whatever the padding is. -/
theorem C52_neon_all_of (hr : Reg w n full) (hk : Wf n full k) :
    ∃ r, neonAllOf n full k = some r ∧ (r = true ↔ Spec.allOf (lanes n k)) := neonAllOf_spec hr (repOf hr hk)

/-- C52. `none_of` of NEON masks, whatever the padding is. -/
theorem C52_neon_none_of (hr : Reg w n full) (hk : Wf n full k) : neonNoneOf n full k = true ↔ Spec.noneOf (lanes n k) :=
  neonNoneOf_spec hr (repOf hr hk)

/-- C52 (partial). `any_of` of NEON masks *without padding*.  Missing: masks with padding, for which it is wrong (`C52_neon_any_of_wrong`). -/
theorem C52_neon_any_of_partial (hr : Reg w n n) (hk : Wf n n k) : neonAnyOf n n k = true ↔ Spec.anyOf (lanes n k) :=
  neonAnyOf_spec hr (repOf hr hk)

/-- C52 is wrong for `any_of` of NEON masks with padding: it is true for every mask, even if no lane is set. -/
theorem C52_neon_any_of_wrong (hr : Reg w n full) (hp : n < full) (hk : Wf n full k) : neonAnyOf n full k = true :=
  neonAnyOf_padding hr hp (repOf hr hk)

/-- C52 (partial). `popcount` of NEON masks in registers of at least 8 bytes *whose padding is zero*; with 64-bit lanes if `long` has 64 bits.
Missing: other contents of the padding, smaller registers, and 64-bit lanes with 32-bit `long`; `C52_neon_popcount_*_wrong`. -/
theorem C52_neon_popcount_partial (hr : Reg w n full) (h8 : 64 ≤ w * full) (lp64 : Bool) (hl : w = 64 → lp64 = true) (hk : Wf n full k)
    (hp : ∀ v ∈ k.drop n, v = 0#w) : neonPopcount lp64 full k = some (Spec.popcount (lanes n k) : Int) :=
  neonPopcount_spec hr h8 lp64 hl (repOf hr hk) hp

/-- C52 (partial). `some_of` of NEON masks without padding in registers of 4 or 8 bytes, and with zero padding in registers of 16 bytes (64-bit
lanes if `long` has 64 bits).  Missing: the rest; `C52_neon_some_of_*_wrong`. -/
theorem C52_neon_some_of_partial (hr : Reg w n full) (lp64 : Bool) (hl : w = 64 → lp64 = true) (hk : Wf n full k)
    (hp : (n = full ∧ 32 ≤ w * full ∧ w * full ≤ 64) ∨ (w * full = 128 ∧ ∀ v ∈ k.drop n, v = 0#w)) :
    ∃ r, neonSomeOf lp64 n full k = some r ∧ (r = true ↔ Spec.someOf (lanes n k)) := by
  rcases hp with ⟨rfl, h1, h2⟩ | ⟨h1, h2⟩
  · exact neonSomeOf_small hr h1 h2 lp64 (repOf hr hk)
  · exact neonSomeOf_large hr h1 lp64 hl (repOf hr hk) h2

/-- The mask `x == y` of two `simd<int>` of three lanes without an equal pair; the fourth elements of the registers are both zero. -/
private abbrev eq3 : VMask 32 := [0#32, 0#32, 0#32, BitVec.allOnes 32]
example : Compare.operator (.int true 32) ⟨false, false, [], []⟩ .eq (.vec 32 3 4) ([1#32, 2#32, 3#32, 0#32] : List (BitVec 32)) ([4#32, 5#32, 6#32, 0#32] : List (BitVec 32)) =
    some eq3 := rfl
private theorem eq3_wf : Wf 3 4 eq3 := ⟨rfl, by simp⟩
private theorem reg3 : Reg 32 3 4 := by constructor <;> omega
example : lanes 3 eq3 = [false, false, false] := by decide
/-- The instance of `any_of`, `popcount` and `some_of` being wrong: no lane is set, `any_of` and `some_of` are true, one lane is counted. -/
theorem C52_neon_popcount_padding_wrong : lanes 3 eq3 = [false, false, false] ∧ neonAnyOf 3 4 eq3 = true ∧ (∀ lp64, neonPopcount lp64 4 eq3 = some 1) ∧
    ∀ lp64, neonSomeOf lp64 3 4 eq3 = some true := by
  refine ⟨by decide, C52_neon_any_of_wrong reg3 (by omega) eq3_wf, ?_, ?_⟩ <;> intro lp64 <;> cases lp64 <;> decide

/-- C52 is wrong for `popcount` of NEON masks in registers of 2 or 4 bytes: 8 bytes are read. -/
theorem C52_neon_popcount_small_wrong (h : w * full < 64) (lp64 : Bool) : neonPopcount lp64 full k = none := if_pos h

/-- C52 is wrong for `popcount` and `some_of` of two lanes of 64 bits if `long` has 32 bits: the mask `{true, false}` has two lanes set,
`{false, true}` none. -/
theorem C52_neon_popcount_long_wrong :
    neonPopcount false 2 [BitVec.allOnes 64, 0#64] = some 2 ∧ neonPopcount false 2 [0#64, BitVec.allOnes 64] = some 0 ∧
    neonSomeOf false 2 2 [BitVec.allOnes 64, 0#64] = some false := by decide

/-- C52 is wrong for `some_of` of two lanes of 8 bits on NEON: it is true if both are set. -/
theorem C52_neon_some_of_small_wrong (lp64 : Bool) : neonSomeOf lp64 2 2 [0xff#8, 0xff#8] = some true := by cases lp64 <;> decide

/-- C52 is wrong for `some_of` of three lanes of 16 bits on NEON: it is true if none is set. -/
theorem C52_neon_some_of_padding_wrong (lp64 : Bool) : neonSomeOf lp64 3 4 [0#16, 0#16, 0#16, 0#16] = some true := by cases lp64 <;> decide

/-- C52 (partial). `popcount` and `some_of` of PowerPC masks *whose padding is zero*.  Missing: other contents of the padding;
`C52_ppc_popcount_wrong`. -/
theorem C52_ppc_popcount_partial (p10 : Bool) (hr : Reg w n full) (hk : Wf n full k) (hp : ∀ v ∈ k.drop n, v = 0#w) :
    ppcPopcount p10 k = (Spec.popcount (lanes n k) : Int) ∧ (ppcSomeOf p10 n k = true ↔ Spec.someOf (lanes n k)) :=
  ⟨ppcPopcount_spec hr p10 (repOf hr hk) hp, ppcSomeOf_spec hr p10 (repOf hr hk) hp⟩

/-- C52 is wrong for PowerPC: the padding of the result of a comparison is counted. -/
theorem C52_ppc_popcount_wrong (p10 : Bool) : lanes 3 eq3 = [false, false, false] ∧ ppcPopcount p10 eq3 = 1 ∧ ppcSomeOf p10 3 eq3 = true := by
  cases p10 <;> decide

/-! ## Instances -/

private abbrev k12 : VMask 8 := [0xff, 0, 0xff, 0xff, 0, 0, 0, 0, 0xff, 0, 0, 0xff, 0xff, 0x12, 0, 0xff]
example : Reg 8 12 16 ∧ Wf 12 16 k12 := ⟨by constructor <;> omega, rfl, by decide⟩
example : lanes 12 k12 = [true, false, true, true, false, false, false, false, true, false, false, true] := by decide
example : (neonToBits true 12 16 k12).words = [0b100100001101] ∧ (neonToBits false 12 16 k12).words = [0b100100001101] := by decide
example : neonAllOf 12 16 k12 = some false ∧ neonNoneOf 12 16 k12 = false := by decide
private abbrev k3 : VMask 32 := [0#32, BitVec.allOnes 32, BitVec.allOnes 32, 0#32]
example : Reg 32 3 4 ∧ Wf 3 4 k3 ∧ ∀ v ∈ k3.drop 3, v = 0#32 := ⟨reg3, ⟨rfl, by simp⟩, by simp⟩
example : neonPopcount false 4 k3 = some 2 ∧ neonSomeOf true 3 4 k3 = some true ∧ ppcPopcount false k3 = 2 ∧ ppcPopcount true k3 = 2 := by decide
example : neonAllOf 3 4 [BitVec.allOnes 32, BitVec.allOnes 32, BitVec.allOnes 32, 7#32] = some true := by decide
example : Reg 8 4 4 ∧ Wf 4 4 ([0xff#8, 0#8, 0#8, 0#8] : VMask 8) ∧ neonSomeOf true 4 4 ([0xff#8, 0#8, 0#8, 0#8] : VMask 8) = some true :=
  ⟨by constructor <;> omega, ⟨rfl, by decide⟩, by decide⟩

end StdSimd.Props
