import Verif.Model.SignMask
import Verif.Proofs.RegBits
import Verif.Proofs.Hypot
/-!
# Lemmas about the masks for the sign bit
-/
namespace StdSimd.SignMask
open Spec Spec.Bits RegBits FloatBits Rounding

variable {N : Nat} {f : Fmt} (env : f.Env)

theorem map1_lane {w : Nat} (hw : 0 < w) (op : BitVec w → BitVec w) (a : BitVec N) {i : Nat} (hi : i < N / w) :
    lane w i (map1 w op a) = op (lane w i a) := by
  apply BitVec.eq_of_getLsbD_eq
  intro k hk
  have hr := in_range hi hk
  have hl : i * w + k < N / w * w := by
    have := Nat.mul_le_mul_right w hi
    rw [Nat.succ_mul] at this; omega
  have hd : (i * w + k) / w = i := by
    rw [Nat.mul_comm, Nat.mul_add_div hw, Nat.div_eq_of_lt hk, Nat.add_zero]
  have hm : (i * w + k) % w = k := by rw [Nat.mul_comm, Nat.mul_add_mod, Nat.mod_eq_of_lt hk]
  rw [lane_bit]
  unfold map1
  rw [pack_bit w hw, hd, hm]
  simp only [hk, hr, hl, decide_true, Bool.true_and]
  rfl

theorem lane_zero (w i : Nat) : lane w i (0#N) = 0#w := by
  unfold lane; simp

theorem mag_zero : mag f (0 : f.Bits) = 0 := by unfold mag; simp

theorem zero_isNum (hf : f.Ok) : IsNum f (0 : f.Bits) false 0 := by
  have hs : f.sign (0 : f.Bits) = false := by unfold Fmt.sign; simp
  refine ⟨?_, ?_, hs⟩
  · rw [isFinite_iff, mag_zero]
    have := hf.1
    have h2 : 2 ^ 2 ≤ 2 ^ f.ebits := Nat.pow_le_pow_right (by omega) hf.1
    exact Nat.mul_pos (by omega) (Nat.two_pow_pos _)
  · rw [ratValue_mag, mag_zero]
    have : unit f.mbits 0 = 0 := by unfold unit; simp
    rw [this]; simp

theorem negOne_num (hf : f.Ok) (hw : f.mbits < f.bias) : IsNum f (Fmt.ofInt env (-1)) true (-1) := by
  have h1 := one_le_pow (f.mbits + 1)
  have := ofInt_num env hf hw (n := -1) (by simpa using h1)
  simpa using this

theorem rep_one (hf : f.Ok) : Rep f 1 := by
  have h1 := one_le_pow (f.mbits + 1)
  have := rep_int hf (n := 1) (by simpa using h1)
  simpa using this

theorem rep_negOne (hf : f.Ok) : Rep f (-1) := by
  have h1 := one_le_pow (f.mbits + 1)
  have := rep_int hf (n := -1) (by simpa using h1)
  simpa using this

theorem one_lt (f : Fmt) : (1 : ℚ) < 2 ^ (f.bias + 1) := one_lt_pow₀ (by norm_num) (by omega)

/-- `0 + 1` is one, whatever the rounding mode. -/
theorem zero_add_one (hf : f.Ok) (hw : f.mbits < f.bias) : IsNum f (Fmt.add env 0 (Fmt.ofInt env 1)) false 1 := by
  have h := add_exact env hf (zero_isNum hf) (one_num env hf hw) (by rw [_root_.zero_add]; exact rep_one hf) (by rw [_root_.zero_add, abs_one]; exact one_lt f)
  have h1 : ¬ ((1 : ℚ) < 0) := by norm_num
  simpa [h1] using h

theorem zero_sub_one (hf : f.Ok) (hw : f.mbits < f.bias) : IsNum f (Fmt.sub env 0 (Fmt.ofInt env 1)) true (-1) := by
  have h := sub_exact env hf (zero_isNum hf) (one_num env hf hw) (by rw [_root_.zero_sub]; exact rep_negOne hf)
    (by rw [_root_.zero_sub, abs_neg, abs_one]; exact one_lt f)
  simpa using h

theorem xor_ones_eq {a b : f.Bits} (ha : IsNum f a false 1) (hb : IsNum f b true (-1)) : a ^^^ b = FloatBits.signMask f := by
  have hx : IsNum f (FloatBits.signMask f ^^^ b) false 1 := by
    have hm : mag f (FloatBits.signMask f ^^^ b) = mag f b := by rw [Math.mag_xor, Math.mag_signMask]; simp
    have hs : f.sign (FloatBits.signMask f ^^^ b) = false := by rw [Math.sign_xor, Math.sign_signMask, hb.3]; rfl
    refine ⟨finite_of_mag hm hb.1, ?_, hs⟩
    rw [ratValue_of_mag hm, hs, hb.3, hb.2]; simp
  rw [Hypot.num_unique ha hx, BitVec.xor_assoc, BitVec.xor_self, BitVec.xor_zero]

end StdSimd.SignMask
