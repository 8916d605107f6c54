import Verif.Props.NativeValues
import Verif.Props.Compare
import Verif.Props.Reduce
/-!
# Concrete cases of the theorems about native `simd` objects and about reductions  (C01, C02, C10–C18, C37, C38)

Three elements in a register of four, the fourth holding anything; each theorem applied to them.
-/
namespace StdSimd.Props
open StdSimd Native
open _root_.StdSimd.VMask (bit)

private abbrev g3 : Geo := .vec 32 3 4
/-- Lanes 0 and 2; the padding element is neither all zeros nor all ones. -/
private def k3 : VMask 32 := [-1#32, 0#32, -1#32, 7#32]
private theorem k3_ok : MaskOk g3 k3 := ⟨rfl, by simp [k3]⟩
private theorem k3_lanes : maskLanes g3 k3 = [true, false, true] := by decide

example (a b : Nat) : ∃ r, map2 (fun a b => some (a + b)) [1, 2, 3, a] [10, 20, 30, b] = some r ∧ r.take 3 = [11, 22, 33] := by
  obtain ⟨r, h, _, h'⟩ := C01_native_binary (g := g3) (· + ·) [1, 2, 3, a] [10, 20, 30, b] rfl rfl
  exact ⟨r, h, h'⟩
example (a b : Nat) : ∃ k, Native.cmp (fun a b => decide (a < b)) g3 [1, 2, 3, a] [3, 2, 4, b] = some k ∧ maskLanes g3 k = [true, false, true] := by
  obtain ⟨k, h, _, h'⟩ := C02_native_compare (g := g3) (by decide) (fun a b : Nat => decide (a < b)) [1, 2, 3, a] [3, 2, 4, b] rfl rfl
  exact ⟨k, h, h'⟩
example : Native.generator (m := Option) g3 0 (fun i => some (2 * i)) = some [0, 2, 4, 0] := by
  rw [C10_native_generator (by decide)]; rfl
-- three elements at address 100 and nothing else
example (t : Abi.Target) : ∃ r, Native.load (Xfer.of t ⟨4, false⟩ true) id 0 g3 (fun a => if 100 ≤ a ∧ a < 103 then some (a * a) else none) 100 = some r ∧
    r.take 3 = [10000, 10201, 10404] := by
  obtain ⟨r, h, _, h'⟩ := C11_native_load (g := g3) (by decide) t (U := ⟨4, false⟩) (by decide) true id 0
    (fun a => if 100 ≤ a ∧ a < 103 then some (a * a) else none) 100 (fun i => (100 + i) * (100 + i)) (by decide)
  exact ⟨r, h, h'⟩
example (t : Abi.Target) (a : Nat) : ∃ m, Native.store (Xfer.of t ⟨4, false⟩ true) id g3 [7, 8, 9, a] (fun a => if 100 ≤ a ∧ a < 103 then some 0 else none) 100 = some m ∧
    m 101 = some 8 ∧ m 103 = none := by
  obtain ⟨m, h, h', h''⟩ := C12_native_store (g := g3) (by decide) t (U := ⟨4, false⟩) (by decide) true id [7, 8, 9, a] rfl
    (fun a => if 100 ≤ a ∧ a < 103 then some 0 else none) 100 (by decide)
  exact ⟨m, h, h' 1 (by decide), (h'' 103 (by decide)).trans (by decide)⟩
-- only the selected elements exist in memory
example (a : Nat) : ∃ r, Native.maskedLoad .elem id g3 [5, 6, 7, a] k3 (fun a => if a = 100 ∨ a = 102 then some a else none) 100 = some r ∧
    r.take 3 = [100, 6, 102] := by
  obtain ⟨r, h, _, h'⟩ := C13_native_masked_load (g := g3) (by decide) .elem (by decide) id k3 k3_ok [5, 6, 7, a] rfl
    (fun a => if a = 100 ∨ a = 102 then some a else none) 100 (fun i => 100 + i) (by rw [k3_lanes]; decide)
  exact ⟨r, h, h'.trans (by rw [k3_lanes]; rfl)⟩
example : ∃ r, Native.maskedLoad .raw id g3 [5, 6, 7, 8] ([-1#32, 0#32, -1#32, 0#32] : VMask 32) (fun a => if a = 100 ∨ a = 102 then some a else none) 100 = some r ∧
    r.take 3 = [100, 6, 102] := by
  obtain ⟨r, h, _, h'⟩ := C13_native_masked_load_raw_partial (g := g3) (by decide) id ([-1#32, 0#32, -1#32, 0#32] : VMask 32) ⟨rfl, by simp⟩
    (fun i hi => by
      by_cases h : i = 3
      · subst h; rfl
      · rw [List.getElem?_eq_none (by simp; omega)]; rfl)
    [5, 6, 7, 8] rfl (fun a => if a = 100 ∨ a = 102 then some a else none) 100 (fun i => 100 + i) (by decide)
  exact ⟨r, h, h'⟩
example (a : Nat) : ∃ m, Native.maskedStore .elem id 0 g3 [5, 6, 7, a] (fun a => if a = 100 ∨ a = 102 then some a else none) 100 k3 = some m := by
  obtain ⟨m, h, _⟩ := C14_native_masked_store (g := g3) (by decide) .elem (by decide) id 0 k3 k3_ok [5, 6, 7, a] rfl
    (fun a => if a = 100 ∨ a = 102 then some a else none) 100 (by rw [k3_lanes]; decide)
  exact ⟨m, h⟩
example (c : Bool) (a b : Nat) : (Native.maskedAssign g3 (hintOf c g3 k3) k3 [1, 2, 3, a] [4, 5, 6, b]).take 3 = [4, 2, 6] :=
  (C15_native_assign (g := g3) (by decide) c k3 k3_ok [1, 2, 3, a] [4, 5, 6, b] rfl rfl).2.trans (by rw [k3_lanes]; rfl)
example (c : Bool) (a : Int) : (Native.maskedAssignScalar g3 (hintOf c g3 k3) (· == 0) 0 k3 [1, 2, 3, a] 9).take 3 = [9, 2, 9] :=
  (C15_native_assign_scalar_partial (g := g3) (by decide) c (· == 0) 0 k3 k3_ok [1, 2, 3, a] rfl 9 (by decide)).2.trans (by rw [k3_lanes]; rfl)
example (c : Bool) (a b : Nat) : ∃ r, Native.maskedCassign g3 (hintOf c g3 k3) k3 [1, 2, 3, a] [10, 20, 30, b] (map2 fun a b => some (a + b)) = some r ∧
    r.take 3 = [11, 2, 33] := by
  obtain ⟨r, h, _, h'⟩ := C15_native_compound_partial (g := g3) (by decide) c (· + ·) k3 k3_ok [1, 2, 3, a] [10, 20, 30, b] rfl rfl
  exact ⟨r, h, h'.trans (by rw [k3_lanes]; rfl)⟩
example (c : Bool) (a : Nat) : ∃ r, Native.maskedUnary g3 (hintOf c g3 k3) k3 [1, 2, 3, a] (map1 fun a => some (a + 1)) = some r ∧ r.take 3 = [2, 2, 4] := by
  obtain ⟨r, h, _, h'⟩ := C15_native_unary (g := g3) (by decide) c (· + 1) k3 k3_ok [1, 2, 3, a] rfl
  exact ⟨r, h, h'.trans (by rw [k3_lanes]; rfl)⟩

/-! ## C37, C38 -/
section
open Compare

private abbrev i32 : Spec.Kind := .int true 32

example (c : Ctx i32) (a b : BitVec 32) : ∃ m, Compare.operator i32 c .lt g3 [-1#32, 2#32, 3#32, a] [0#32, 2#32, 4#32, b] = some m ∧
    maskLanes g3 m = [true, false, true] := by
  obtain ⟨m, h, _, h'⟩ := C38_native (K := i32) (g := g3) (by decide) c .lt [-1#32, 2#32, 3#32, a] [0#32, 2#32, 4#32, b] rfl rfl
  exact ⟨m, h, h'.trans (show List.zipWith (i32.holds .lt) [-1#32, 2#32, 3#32] [0#32, 2#32, 4#32] = _ by decide +kernel)⟩
example (a b : BitVec 32) : ∃ r : List (BitVec 32), Compare.min i32 g3 [-1#32, 2#32, 3#32, a] [0#32, 2#32, 1#32, b] = some r ∧ r.length = 4 := by
  obtain ⟨r, h, h', _⟩ := C37_min (K := i32) (g := g3) (by decide) [-1#32, 2#32, 3#32, a] [0#32, 2#32, 1#32, b] rfl rfl
  exact ⟨r, h, h'⟩
end

/-! ## C16, C17, C18 -/
section
open Reduce

private abbrev g11 : Geo := .bitmask 11 16
private theorem g11_regular : Regular {} 4 g11 := Or.inr ⟨by simp [SizeOk], by decide, by decide +kernel⟩

example (a b c d e : Nat) : reduceGeo {} .plus (· + ·) 0 1 4 g11 [1, 2, 3, 4, 5, 6, 7, 8, 9, 10, 11, a, b, c, d, e] = some 66 :=
  C16_native_reduce_partial (g := g11) (by decide) g11_regular .plus (· + ·) Nat.add_assoc Nat.add_comm 0 1 (by simp) (by simp)
    (x := [1, 2, 3, 4, 5, 6, 7, 8, 9, 10, 11, a, b, c, d, e]) rfl
example (a b c d e : Nat) : ∃ r, reduceGeo {} .other (fun x y => x ++ y) [] [] 4 g11
      ([[1], [2], [3], [4], [5], [6], [7], [8], [9], [10], [11], [a], [b], [c], [d], [e]]) = some r ∧
    Spec.Combines (fun x y : List Nat => x ++ y) [[1], [2], [3], [4], [5], [6], [7], [8], [9], [10], [11]] r :=
  C16_native_each_lane_once (g := g11) (by decide) g11_regular (fun x y : List Nat => x ++ y) [] []
    (x := [[1], [2], [3], [4], [5], [6], [7], [8], [9], [10], [11], [a], [b], [c], [d], [e]]) rfl
example : ∃ r, reduceNeon (fun a b : Nat => a + b) 0 4 4 [1, 2, 3, 4] = some r ∧ Spec.Combines (fun a b : Nat => a + b) [1, 2, 3, 4] r :=
  C16_neon (k := 2) (fun a b : Nat => a + b) 0 4 (x := [1, 2, 3, 4]) rfl
example (a b c d e : Int) : ∃ r, reduceGeo {} .other (fun a b : Int => if a < b then a else b) 0 1 4 g11 [5, 2, 3, -4, 5, 6, 7, 8, 9, 10, 11, a, b, c, d, e] = some r ∧
    Spec.IsExtremum (fun a b : Int => a ≤ b) [5, 2, 3, -4, 5, 6, 7, 8, 9, 10, 11] r :=
  C18_native_extremum (g := g11) (by decide) g11_regular (fun a b : Int => a ≤ b) (fun a b => if a < b then a else b)
    (by intro a b; dsimp only; split <;> simp <;> omega) (fun _ _ _ => Int.le_trans) (fun _ => Int.le_refl _) 0 1
    (x := [5, 2, 3, -4, 5, 6, 7, 8, 9, 10, 11, a, b, c, d, e]) rfl
end

end StdSimd.Props
