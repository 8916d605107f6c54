import Verif.Props.Narrowing
import Verif.Props.Resize
import Verif.Props.CastType
import Verif.Props.UninitMask
import Verif.Props.FixedSizeCases
/-!
# Concrete cases of the theorems about conversions and casts  (C22, C30, C43, C45, C70, C71)

Each theorem applied to a case that meets its hypotheses.
-/
namespace StdSimd.Props
open StdSimd Spec Narrowing
open _root_.StdSimd.Abi (Tag)

private theorem lp64 : Platform.lp64.Ok := by constructor <;> decide
private theorem lp64c : CharSizes .lp64 := by decide

/-! ## C22, C45 -/

-- C22_value_preserving: `unsigned int` has values `long` has, and not the other way round
example : valuePreserving .lp64 .uint .long = true ∧ valuePreserving .lp64 .long .uint = false := by
  have h1 : narrowing .lp64 .uint .long = false := (narrowing_int lp64 (by simp) (by simp) (by simp) rfl rfl).2 (by decide)
  have h2 : ¬ narrowing .lp64 .long .uint = false := by
    rw [narrowing_int lp64 (by simp) (by simp) (by simp) rfl rfl]; decide
  simp [valuePreserving, h1, h2]
example : ∀ v, Platform.lp64.HasValue .uint v → Platform.lp64.HasValue .long v := by
  refine (C22_value_preserving .lp64 lp64 .uint .long (by simp)).1 ?_
  have h1 : narrowing .lp64 .uint .long = false := (narrowing_int lp64 (by simp) (by simp) (by simp) rfl rfl).2 (by decide)
  simp [valuePreserving, h1]
-- C22_value_preserving_bool, C22_or_int
example : ∀ v, Platform.lp64.HasValue .bool v → Platform.lp64.HasValue .uchar v :=
  C22_value_preserving_bool .lp64 lp64 .uchar (by rfl)
example : ∀ v, Platform.lp64.HasValue .short v → Platform.lp64.HasValue .float v := by
  refine C22_or_int .lp64 lp64 .short .float ?_ (by simp) (by simp)
  have h1 : narrowing .lp64 .short .float = false := (narrowing_int_float lp64 (by simp) rfl rfl).2 (by decide)
  simp [valuePreservingOrInt, h1]
-- C22_broadcast, C22_int_exception
example : broadcastFrom .lp64 .bool .int = false := by
  rw [← Bool.not_eq_true, C22_broadcast .lp64 lp64 .bool .int (by simp) (by simp)]
  simp
example : broadcastFrom .lp64 .int .schar = true ∧ broadcastFrom .lp64 .uint .uchar = true :=
  ⟨(C22_int_exception .lp64 .schar).1, (C22_int_exception .lp64 .uchar).2 (by decide)⟩
-- C45_not_both, C45_integers_partial, C45_floating_point
example : ¬ (implicitConvert .lp64 .int .long = true ∧ implicitConvert .lp64 .long .int = true) :=
  C45_not_both .lp64 lp64 .int .long (by simp) (by simp) (by simp)
example : implicitConvert .lp64 .long .llong = true := by
  refine (C45_integers_partial .lp64 lp64 .long .llong (by simp) _ _ rfl rfl).2 ⟨?_, by decide⟩
  exact (narrowing_iff lp64 (by simp)).1 ((narrowing_int lp64 (by simp) (by simp) (by simp) rfl rfl).2 (by decide))
example : implicitConvert .lp64 .int .double = true ∧ ∀ v, Platform.lp64.HasValue .int v → Platform.lp64.HasValue .double v := by
  have h := (narrowing_iff lp64 (a := .int) (b := .double) (by simp)).1 ((narrowing_int_float lp64 (by simp) rfl rfl).2 (by decide))
  exact ⟨(C45_floating_point .lp64 lp64 .int .double (by simp) (.inr rfl) (by simp [show Platform.lp64.isFloat .int = false from rfl])).2 h, h⟩

/-! ## C30, C43 -/
section
open MaskVec

private def sse2 : Feat := ⟨true, false, false, false, false, false, false, false⟩

-- C30_x86_bits_to_vec, C30_x86_bits_to_vec_const: three ints
example : Spec.HoldsMask 4 3 (fun i => (0b101#64).getLsbD i) (bitsToVec sse2 4 16 16 3 3 0b101#64) :=
  C30_x86_bits_to_vec sse2 (by decide) (by decide) (by decide) (by decide) (by decide) _ (fun i hi => by
    by_cases h : i < 64
    · have : ∀ i < 64, 3 ≤ i → (0b101#64).getLsbD i = false := by decide
      exact this i h hi
    · exact BitVec.getLsbD_of_ge _ _ (by omega))
example : Spec.HoldsMask 4 3 (fun i => (0b101#64).getLsbD i) (bitsToVecConst 4 3 3 0b101#64) :=
  C30_x86_bits_to_vec_const (by decide) _ (fun i hi => by
    by_cases h : i < 64
    · have : ∀ i < 64, 3 ≤ i → (0b101#64).getLsbD i = false := by decide
      exact this i h hi
    · exact BitVec.getLsbD_of_ge _ _ (by omega))
-- C43_values: three floats to five
example : ∃ r, Resize.value 0 false false 3 5 8 [7, 8, 9, 1000] = some r ∧ r.length = 8 ∧ r.take 5 = [7, 8, 9, 0, 0] :=
  C43_values 0 false false (by decide) (by decide) (by decide) (by decide) (by decide)
-- C43_mask_to_fixed_size: three lanes to five
example : ∃ r : BitMask 5 true, Resize.fixed 5 (BitMask.ofULL 3 false 0b101#64).sanitized = some r ∧ r.Clean ∧
    r.lanes = [true, false, true, false, false] := by
  obtain ⟨r, h1, h2, h3⟩ := C43_mask_to_fixed_size (n := 3) (m := 5) (by decide) (by decide) (by decide) (BitMask.ofULL 3 false 0b101#64).sanitized
    (BitMask.clean_sanitized (by decide) _)
  exact ⟨r, h1, h2, h3.trans (by decide)⟩
-- C43_bits_to_bits_partial: three lanes to eight
example : (Resize.bits 8 0b101#8).lanes = [true, false, true, false, false, false, false, false] ∧ (Resize.bits 8 0b101#8).Clean := by
  have h := C43_bits_to_bits_partial (n := 3) (m := 8) 0b101#8 (fun i hi => by
    by_cases h : i < 8
    · have : ∀ i < 8, 3 ≤ i → (0b101#8).getLsbD i = false := by decide
      exact this i h hi
    · exact BitVec.getLsbD_of_ge _ _ (by omega)) (by decide)
  exact ⟨by decide, h.2 (by decide)⟩
-- C43_vec_same_size: three ints with garbage in the padding, to four
example : ∃ r, vecToVec sse2 zero 16 16 4 4 3 4 (fun i => if i < 4 ∨ 8 ≤ i then 0xff#8 else 0#8) = some r ∧
    Spec.HoldsMask 4 4 (fun i => decide (i < 3) && (i != 1)) r :=
  C43_vec_same_size sse2 zero (by decide) (by decide)
end

/-! ## C70 -/
section
private def sse2T : Abi.Target := { sse := true, sse2 := true, x86_64 := true }
open Spec.CastType
open _root_.StdSimd.CastType hiding makeSigned

example : Returns .lp64 (sizeV .lp64) Tag.fixed .int (.builtin 16) (.elem .float) .float (.fixed 4) :=
  (C70_static_cast lp64 lp64c .int (by simp) (.builtin 16) (.elem .float) (by simp) _ _).1 (by decide)
example : sizeV .lp64 .float (.fixed 4) = sizeV .lp64 .int (.builtin 16) :=
  (C70_same_size lp64 lp64c .int (by simp) (.builtin 16) (.elem .float) _ _).1 (by decide)
example : simdCast .lp64 (.elem .long) .int (.builtin 16) = some (.long, .fixed 4) ∧ simdCast .lp64 (.elem .float) .int (.builtin 16) = none := by
  have h1 := (narrowing_iff lp64 (a := .int) (b := .long) (by simp)).1 ((narrowing_int lp64 (by simp) (by simp) (by simp) rfl rfl).2 (by decide))
  refine ⟨(C70_simd_cast lp64 .int (by simp) _ _ (by simp) _ _).2 ⟨by decide, h1⟩, ?_⟩
  have h2 : ¬ narrowing .lp64 .int .float = false := by rw [narrowing_int_float lp64 (by simp) rfl rfl]; decide
  simp [simdCast, valuePreserving, valueTypeOrIdentity, h2]
example : (CType.float : CType) = .float ∧ Abi.valid sse2T (elemOf .lp64 .float) (.fixed 4) = true :=
  C70_valid_partial lp64 lp64c sse2T .int (by simp) (.builtin 16) (by decide) (by decide) (by decide) .float .float _ (by decide)
example : staticCastMask .lp64 (.mask .float (.builtin 16)) .int (.builtin 16) = some (.float, .builtin 16) ∧
    Returns .lp64 (sizeV .lp64) Tag.fixed .int (.builtin 16) (.simd .float (.builtin 16)) .float (.builtin 16) :=
  ⟨by decide, (C70_static_cast_mask lp64 lp64c .int (by simp) (.builtin 16) .float (.builtin 16) _ _).1.1 (by decide)⟩
example : toNative .lp64 sse2T .float 4 = some (.float, .builtin 16) ∧ toNative .lp64 sse2T .float 8 = none := by
  rw [C70_to_native, C70_to_native]; decide
-- eleven elements between a register of sixteen and the registers of `fixed_size<11>`
example (a b c d e : Nat) : ∃ r, toFixedSizeV exAvx2 ⟨4, true⟩ 11 0 [1, 2, 3, 4, 5, 6, 7, 8, 9, 10, 11, a, b, c, d, e] = some r ∧
    Tuple.lanes (Tuple.regs exAvx2 ⟨4, true⟩ 11) r = [1, 2, 3, 4, 5, 6, 7, 8, 9, 10, 11] := by
  obtain ⟨r, h1, _, h3⟩ := C70_to_fixed_size_values exAvx2_ok (T := ⟨4, true⟩) (by decide) (g := .vec 32 11 16) (by decide) (by decide) 0
    [1, 2, 3, 4, 5, 6, 7, 8, 9, 10, 11, a, b, c, d, e] rfl
  exact ⟨r, h1, h3⟩
example (junk : Nat → Nat) : ∃ r, toNativeV exAvx2 ⟨4, true⟩ (.vec 32 11 16) 0 junk exTup = some r ∧
    r.take 11 = [1, 2, 3, 4, 5, 6, 7, 8, 9, 10, 11] := by
  obtain ⟨r, h1, _, h3⟩ := C70_to_native_values exAvx2_ok (T := ⟨4, true⟩) (by decide) (g := .vec 32 11 16) (by decide) (by decide) 0 junk exTup_wf
  exact ⟨r, h1, h3.trans exLanes⟩
end

/-! ## C71 -/
section
open _root_.StdSimd.UninitMask

private def ws : List (Nat × Bool) := [(1, false), (0, true), (1, true), (2, false)]
private theorem ws_all : AllWritten 3 ws := by
  refine ⟨by decide, fun i hi => ?_⟩
  have : i = 0 ∨ i = 1 ∨ i = 2 := by omega
  rcases this with rfl | rfl | rfl
  · exact ⟨true, by decide⟩
  · exact ⟨true, by decide⟩
  · exact ⟨false, by decide⟩
private def ws8 : List (Nat × Bool) := (List.range 8).map fun i => (i, i % 2 == 0)
private theorem ws8_all : AllWritten 8 ws8 := by
  refine ⟨by decide, fun i hi => ⟨i % 2 == 0, List.mem_map.2 ⟨i, List.mem_range.2 hi, rfl⟩⟩⟩

-- whatever the uninitialised mask holds
example (k : FixedMask.Member 3) : (assign FixedMask.set k ws).lanes = [true, true, false] :=
  (C71_fixed_lanes (by decide) k ws_all).trans (by decide)
example (k : FixedMask.Member 8) : FixedMask.popcount (assign FixedMask.set k ws8) = 4 :=
  (C71_fixed_partial (by decide) (.inr (by decide)) k ws8_all).2.2.2.2.trans (by decide)
example : ∃ k : FixedMask.Member 3, FixedMask.noneOf (assign FixedMask.set k [(0, false), (1, false), (2, false)]) = false := by
  obtain ⟨k, h⟩ := C71_fixed_wrong (n := 3) (by decide) (by decide)
  refine ⟨k, (h [(0, false), (1, false), (2, false)] ⟨by decide, fun i hi => ⟨false, ?_⟩⟩).2.1⟩
  have : i = 0 ∨ i = 1 ∨ i = 2 := by omega
  rcases this with rfl | rfl | rfl <;> decide
example (k : KMask 3) : KMask.popcount (assign KMask.set k ws) = 2 :=
  (C71_k (by decide) (by decide) true (by decide) k ws_all).2.2.2.2.1.trans (by decide)
example (a b c d : BitVec 32) : VMask.lanes 3 (assign VMask.set [a, b, c, d] ws) = [true, true, false] :=
  (C71_vec (full := 4) (by decide) (by decide) [a, b, c, d] rfl ws_all).2.trans (by decide)
example (a b c d : BitVec 32) : VMask.popcount 3 (assign VMask.set [a, b, c, d] ws) = 2 :=
  (C71_vec_reductions (full := 4) (by decide) (by decide) (by decide) [a, b, c, d] rfl ws_all).2.2.2.2.trans (by decide)
example (junk : FixedMask.Member 3) : ∃ r, toFixedSize junk (fun i => [true, false, true][i]?) = some r ∧ r.lanes = [true, false, true] := by
  obtain ⟨r, h1, h2, _⟩ := C71_to_fixed_size (n := 3) (by decide) junk (bs := [true, false, true]) rfl (fun _ _ => rfl)
  exact ⟨r, h1, h2⟩
end

end StdSimd.Props
