import Verif.Model.PpcInt
import Verif.Spec.Arith
/-!
# C26, C27 on PowerPC

The amounts the language defines: below 32 for elements that are promoted to `int`, below the width otherwise.
-/
namespace StdSimd.Props
open Ppc

variable {w : Nat}

private theorem shl_spec {w : Nat} (a : BitVec w) (s : Nat) : a <<< s = Spec.shl a s := by
  apply BitVec.eq_of_toNat_eq; simp [Spec.shl, Nat.shiftLeft_eq]

private theorem shrU_spec {w : Nat} (a : BitVec w) (s : Nat) : a >>> s = Spec.shr false a s := by
  apply BitVec.eq_of_toNat_eq
  simp only [Spec.shr, BitVec.toNat_ushiftRight, Nat.shiftRight_eq_div_pow, BitVec.toNat_ofNat, Bool.false_eq_true, if_false]
  exact (Nat.mod_eq_of_lt (Nat.lt_of_le_of_lt (Nat.div_le_self _ _) a.isLt)).symm

private theorem shrS_spec {w : Nat} (a : BitVec w) (s : Nat) : a.sshiftRight s = Spec.shr true a s := by
  simp only [Spec.shr, if_true, BitVec.sshiftRight, Int.shiftRight_eq_div_pow]
  norm_cast

private theorem zip2 {α β γ δ : Type} (f : β → γ → δ) (g : α → β → γ) (xs : List α) (ys : List β) :
    List.zipWith f ys (List.zipWith g xs ys) = List.zipWith (fun x y => f y (g x y)) xs ys := by
  induction xs generalizing ys with
  | nil => simp
  | cons x xs ih => cases ys <;> simp [ih]

private theorem zipCongr {α β γ : Type} (f g : α → β → γ) (P : β → Prop) (h : ∀ x y, P y → f x y = g x y) (xs : List α) (ys : List β) (hy : ∀ y ∈ ys, P y) :
    List.zipWith f xs ys = List.zipWith g xs ys := by
  induction xs generalizing ys with
  | nil => simp
  | cons x xs ih =>
    cases ys with
    | nil => simp
    | cons y ys => simp [h x y (hy y (by simp)), ih ys (fun y hy' => hy y (by simp [hy']))]

private theorem small (hw : w = 8 ∨ w = 16) (y : BitVec w) (hy : y.toNat < 32) :
    (BitVec.ofNat w w).toNat = w ∧ (BitVec.ofNat w w).toInt = w ∧ (BitVec.ofNat w (w - 1)).toNat = w - 1 ∧ y.toInt = y.toNat := by
  refine ⟨?_, ?_, ?_, ?_⟩
  · rcases hw with rfl | rfl <;> decide
  · rcases hw with rfl | rfl <;> decide
  · rcases hw with rfl | rfl <;> decide
  · rw [BitVec.toInt_eq_toNat_cond, if_pos]
    rcases hw with rfl | rfl <;> omega

private theorem cmp (hw : w = 8 ∨ w = 16) (signed : Bool) (y : BitVec w) (hy : y.toNat < 32) :
    (if signed then y.slt (BitVec.ofNat w w) else y.ult (BitVec.ofNat w w)) = decide (y.toNat < w) := by
  obtain ⟨h1, h2, _, h4⟩ := small hw y hy
  cases signed
  · simp only [Bool.false_eq_true, if_false, BitVec.ult, h1]
  · simp only [if_true, BitVec.slt, h2, h4]
    exact decide_eq_decide.2 (by omega)

private theorem shlGe (x : BitVec w) {s : Nat} (h : w ≤ s) : x <<< s = 0#w := BitVec.shiftLeft_eq_zero h
private theorem ushrGe (x : BitVec w) {s : Nat} (h : w ≤ s) : x >>> s = 0#w := BitVec.ushiftRight_eq_zero h
private theorem sshrGe (hw : 0 < w) (x : BitVec w) {s : Nat} (h : w ≤ s) : x.sshiftRight s = x.sshiftRight (w - 1) := by
  apply BitVec.eq_of_getLsbD_eq
  intro i hi
  rw [BitVec.getLsbD_sshiftRight, BitVec.getLsbD_sshiftRight]
  simp only [show ¬ w ≤ i by omega, decide_false, Bool.not_false, Bool.true_and]
  rw [if_neg (by omega)]
  split
  · rw [BitVec.msb_eq_getLsbD_last, show w - 1 + i = w - 1 by omega]
  · rfl

/-- **C26** on PowerPC: `v << w` for every element size. -/
theorem C26_ppc_vector (hw : w = 8 ∨ w = 16 ∨ w = 32 ∨ w = 64) (signed : Bool) (xs ys : List (BitVec w)) (hy : ∀ y ∈ ys, y.toNat < max w 32) :
    shlv signed xs ys = List.zipWith (fun x y => Spec.shl x y.toNat) xs ys := by
  have hm : (fun (x y : BitVec w) => Spec.shl x y.toNat) = fun x y => x <<< y.toNat := by funext x y; exact (shl_spec x _).symm
  rw [hm, shlv]
  by_cases h : w < 32
  · have hw' : w = 8 ∨ w = 16 := by omega
    rw [if_pos h, zip2]
    refine zipCongr _ _ (fun y => y.toNat < 32) (fun x y hy => ?_) _ _ (fun y hy' => by have := hy y hy'; rw [Nat.max_eq_right (by omega)] at this; exact this)
    rw [cmp hw' signed y hy, hwShl]
    by_cases hs : y.toNat < w
    · simp [hs, Nat.mod_eq_of_lt hs]
    · simp [hs, shlGe x (show w ≤ y.toNat by omega)]
  · rw [if_neg h]
    exact zipCongr _ _ (fun y => y.toNat < w) (fun x y hy => by rw [hwShl, Nat.mod_eq_of_lt hy]) _ _
      (fun y hy' => by have := hy y hy'; rw [Nat.max_eq_left (by omega)] at this; exact this)

/-- **C26** on PowerPC: `v << s`. -/
theorem C26_ppc_scalar (xs : List (BitVec w)) (s : Nat) (hs : s < max w 32) : shl xs s = xs.map (fun x => Spec.shl x s) := by
  have hm : (fun x : BitVec w => Spec.shl x s) = fun x : BitVec w => x <<< s := by funext x; exact (shl_spec x _).symm
  rw [hm, shl]
  split
  · rename_i h
    exact List.map_congr_left fun x _ => (shlGe x h.2).symm
  · rename_i h
    have : s < w := by
      by_cases h' : w < 32
      · omega
      · rw [Nat.max_eq_left (by omega)] at hs; exact hs
    exact List.map_congr_left fun x _ => by rw [hwShl, Nat.mod_eq_of_lt this]

/-- **C27** on PowerPC: `v >> w` for every element type. -/
theorem C27_ppc_vector (hw : w = 8 ∨ w = 16 ∨ w = 32 ∨ w = 64) (signed : Bool) (xs ys : List (BitVec w)) (hy : ∀ y ∈ ys, y.toNat < max w 32) :
    shrv signed xs ys = List.zipWith (fun x y => Spec.shr signed x y.toNat) xs ys := by
  have hm : (fun (x y : BitVec w) => Spec.shr signed x y.toNat) = fun x y => if signed then x.sshiftRight y.toNat else x >>> y.toNat := by
    funext x y
    cases signed
    · exact (shrU_spec x _).symm
    · exact (shrS_spec x _).symm
  rw [hm, shrv]
  by_cases h : w < 32
  · have hw' : w = 8 ∨ w = 16 := by omega
    have hy' : ∀ y ∈ ys, y.toNat < 32 := fun y hy' => by have := hy y hy'; rw [Nat.max_eq_right (by omega)] at this; exact this
    rw [if_pos h]
    cases signed
    · rw [if_neg (by simp), zip2]
      refine zipCongr _ _ (fun y => y.toNat < 32) (fun x y hy => ?_) _ _ hy'
      rw [show y.ult (BitVec.ofNat w w) = decide (y.toNat < w) from cmp hw' false y hy, hwShr]
      by_cases hs : y.toNat < w
      · simp [hs, Nat.mod_eq_of_lt hs]
      · simp [hs, ushrGe x (show w ≤ y.toNat by omega)]
    · rw [if_pos rfl]
      dsimp only
      rw [List.zipWith_map_right]
      refine zipCongr _ _ (fun y => y.toNat < 32) (fun x y hy => ?_) _ _ hy'
      obtain ⟨h1, h2, h3, h4⟩ := small hw' y hy
      have hle : (BitVec.ofNat w w).sle y = decide (w ≤ y.toNat) := by
        simp only [BitVec.sle, h2, h4]
        exact decide_eq_decide.2 (by omega)
      rw [hle, hwShr, if_pos rfl, if_pos rfl]
      by_cases hs : w ≤ y.toNat
      · simp only [hs, decide_true, if_true]
        rw [h3, Nat.mod_eq_of_lt (by omega), ← sshrGe (by omega) x hs]
      · simp only [hs, decide_false, Bool.false_eq_true, if_false]
        rw [Nat.mod_eq_of_lt (by omega)]
  · rw [if_neg h]
    exact zipCongr _ _ (fun y => y.toNat < w) (fun x y hy => by rw [hwShr, Nat.mod_eq_of_lt hy]) _ _
      (fun y hy' => by have := hy y hy'; rw [Nat.max_eq_left (by omega)] at this; exact this)

/-- **C27** on PowerPC: `v >> s`. -/
theorem C27_ppc_scalar (hw : 0 < w) (signed : Bool) (xs : List (BitVec w)) (s : Nat) (hs : s < max w 32) :
    shr signed xs s = xs.map (fun x => Spec.shr signed x s) := by
  have hm : (fun x : BitVec w => Spec.shr signed x s) = fun x : BitVec w => if signed then x.sshiftRight s else x >>> s := by
    funext x
    cases signed
    · exact (shrU_spec x _).symm
    · exact (shrS_spec x _).symm
  rw [hm, shr]
  split
  · rename_i h
    cases signed
    · exact List.map_congr_left fun x _ => (ushrGe x h.2).symm
    · exact List.map_congr_left fun x _ => by rw [hwShr, if_pos rfl, if_pos rfl, Nat.mod_eq_of_lt (by omega), sshrGe hw x h.2]
  · rename_i h
    have : s < w := by
      by_cases h' : w < 32
      · omega
      · rw [Nat.max_eq_left (by omega)] at hs; exact hs
    exact List.map_congr_left fun x _ => by rw [hwShr, Nat.mod_eq_of_lt this]

-- amounts of at least the width and neighbours
example : shlv true [1#8, 1#8, 0xff#8] [9#8, 3#8, 0#8] = [0#8, 8#8, 0xff#8] := by decide
example : shrv true [0x80#8, 0x80#8, 0x7f#8] [9#8, 3#8, 31#8] = [0xff#8, 0xf0#8, 0#8] := by decide
example : shrv false [0x80#16, 0x8000#16] [9#16, 17#16] = [0#16, 0#16] := by decide
example : shl [1#16, 3#16] 16 = [0#16, 0#16] ∧ shr true [0x8000#16, 3#16] 20 = [0xffff#16, 0#16] := by decide

end StdSimd.Props
