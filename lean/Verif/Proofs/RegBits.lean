import Verif.Model.RegBits
import Verif.Spec.RegBits
/-!
# Lemmas about bit operations on registers
-/
namespace StdSimd.RegBits
open Spec.Bits

variable {N : Nat}

theorem pack_bit (w : Nat) (hw : 0 < w) (g : Nat → BitVec w) (n j : Nat) :
    (pack N w g n).getLsbD j = (decide (j < N) && (decide (j < n * w) && (g (j / w)).getLsbD (j % w))) := by
  induction n with
  | zero => simp [pack]
  | succ n ih =>
    rw [pack, BitVec.getLsbD_or, ih, BitVec.getLsbD_shiftLeft, BitVec.getLsbD_setWidth]
    have hm : (n + 1) * w = n * w + w := Nat.succ_mul n w
    by_cases hN : j < N
    · by_cases h1 : j < n * w
      · have h2 : j < (n + 1) * w := by omega
        simp [hN, h1, h2]
      · by_cases h2 : j < (n + 1) * w
        · have hd : j / w = n := by
            apply Nat.div_eq_of_lt_le <;> omega
          have hr : j % w = j - n * w := by
            have := Nat.div_add_mod j w
            rw [hd, Nat.mul_comm] at this
            omega
          have h3 : j - n * w < N := by omega
          simp [hN, h1, h2, hd, hr, h3]
        · have h4 : (g n).getLsbD (j - n * w) = false := BitVec.getLsbD_of_ge _ _ (by omega)
          simp [hN, h1, h2, h4]
    · simp [hN]

theorem elem_bit (w i : Nat) (r : BitVec N) (k : Nat) : (elem w i r).getLsbD k = (decide (k < w) && r.getLsbD (i * w + k)) := by
  unfold elem; rw [BitVec.getLsbD_extractLsb']

theorem div_mod_eq (w j : Nat) : j / w * w + j % w = j := by
  have := Nat.div_add_mod j w
  rw [Nat.mul_comm] at this; exact this

/-- An operation that acts on every bit acts on every bit of the register, whatever the width of the elements. -/
theorem map2_bit {w : Nat} (hw : 0 < w) (hd : w ∣ N) (op : BitVec w → BitVec w → BitVec w) (g : Bool → Bool → Bool)
    (ho : ∀ x y k, k < w → (op x y).getLsbD k = g (x.getLsbD k) (y.getLsbD k)) (a b : BitVec N) (j : Nat) (hj : j < N) :
    (map2 w op a b).getLsbD j = g (a.getLsbD j) (b.getLsbD j) := by
  unfold map2
  have hm := Nat.mod_lt j hw
  rw [pack_bit w hw, Nat.div_mul_cancel hd, ho _ _ _ hm, elem_bit, elem_bit, div_mod_eq]
  simp [hj, hm]

theorem map1_bit {w : Nat} (hw : 0 < w) (hd : w ∣ N) (op : BitVec w → BitVec w) (g : Bool → Bool)
    (ho : ∀ x k, k < w → (op x).getLsbD k = g (x.getLsbD k)) (a : BitVec N) (j : Nat) (hj : j < N) :
    (map1 w op a).getLsbD j = g (a.getLsbD j) := by
  unfold map1
  have hm := Nat.mod_lt j hw
  rw [pack_bit w hw, Nat.div_mul_cancel hd, ho _ _ hm, elem_bit, div_mod_eq]
  simp [hj, hm]

theorem lane_bit (w i : Nat) (r : BitVec N) (k : Nat) : (lane w i r).getLsbD k = (decide (k < w) && r.getLsbD (i * w + k)) := by
  unfold lane; rw [BitVec.getLsbD_extractLsb']

theorem in_range {w i k : Nat} (hi : i < N / w) (hk : k < w) : i * w + k < N := by
  have h1 : (i + 1) * w ≤ N / w * w := Nat.mul_le_mul_right w hi
  have h2 := Nat.div_mul_le_self N w
  rw [Nat.succ_mul] at h1
  omega

/-- Computed at width `v`, seen at width `w`. -/
theorem map2_lanes {v w : Nat} (hv : 0 < v) (hd : v ∣ N) (opv : BitVec v → BitVec v → BitVec v) (opw : BitVec w → BitVec w → BitVec w)
    (g : Bool → Bool → Bool) (h1 : ∀ x y k, k < v → (opv x y).getLsbD k = g (x.getLsbD k) (y.getLsbD k))
    (h2 : ∀ x y k, k < w → (opw x y).getLsbD k = g (x.getLsbD k) (y.getLsbD k)) (a b : BitVec N) :
    Lanewise w opw a b (map2 v opv a b) := by
  intro i hi
  apply BitVec.eq_of_getLsbD_eq
  intro k hk
  have hr := in_range hi hk
  rw [lane_bit, map2_bit hv hd opv g h1 _ _ _ hr, h2 _ _ _ hk, lane_bit, lane_bit]
  simp [hk]

theorem map1_lanes {v w : Nat} (hv : 0 < v) (hd : v ∣ N) (opv : BitVec v → BitVec v) (opw : BitVec w → BitVec w)
    (g : Bool → Bool) (h1 : ∀ x k, k < v → (opv x).getLsbD k = g (x.getLsbD k))
    (h2 : ∀ x k, k < w → (opw x).getLsbD k = g (x.getLsbD k)) (a : BitVec N) : Lanewise1 w opw a (map1 v opv a) := by
  intro i hi
  apply BitVec.eq_of_getLsbD_eq
  intro k hk
  have hr := in_range hi hk
  rw [lane_bit, map1_bit hv hd opv g h1 _ _ hr, h2 _ _ hk, lane_bit]
  simp [hk]

theorem and_bit {w : Nat} (x y : BitVec w) (k : Nat) (_ : k < w) : (x &&& y).getLsbD k = (x.getLsbD k && y.getLsbD k) := BitVec.getLsbD_and
theorem or_bit {w : Nat} (x y : BitVec w) (k : Nat) (_ : k < w) : (x ||| y).getLsbD k = (x.getLsbD k || y.getLsbD k) := BitVec.getLsbD_or
theorem xor_bit {w : Nat} (x y : BitVec w) (k : Nat) (_ : k < w) : (x ^^^ y).getLsbD k = (x.getLsbD k ^^ y.getLsbD k) := BitVec.getLsbD_xor
theorem not_bit {w : Nat} (x : BitVec w) (k : Nat) (h : k < w) : (~~~x).getLsbD k = !x.getLsbD k := by simp [h]
theorem andn_bit {w : Nat} (x y : BitVec w) (k : Nat) (h : k < w) : (~~~x &&& y).getLsbD k = (!x.getLsbD k && y.getLsbD k) := by simp [h]

end StdSimd.RegBits
