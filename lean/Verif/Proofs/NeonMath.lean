import Verif.Model.NeonMath
import Verif.Proofs.Rounding
/-! # Lemmas about the NEON rounding functions -/
namespace StdSimd.NeonMath
open Spec FloatBits Rounding

variable {f : Fmt} (env : f.Env)

theorem roundAway_int (n : ℤ) : roundAway n = n := by
  unfold roundAway
  split
  · rw [Int.floor_eq_iff]; constructor <;> linarith
  · rw [Int.ceil_eq_iff]; constructor <;> linarith

theorem roundAway_sign (v : ℚ) : (0 ≤ v → 0 ≤ roundAway v) ∧ (v ≤ 0 → roundAway v ≤ 0) := by
  unfold roundAway
  constructor
  · intro h; rw [if_pos h]; exact Int.floor_nonneg.2 (by linarith)
  · intro h
    by_cases h0 : 0 ≤ v
    · rw [if_pos h0, show v = 0 by linarith]; norm_num
    · rw [if_neg h0]; exact Int.ceil_le.2 (by push_cast; linarith)

theorem roundAway_abs_le (v : ℚ) (b : ℤ) (h : |v| ≤ b) : |roundAway v| ≤ b := by
  obtain ⟨h1, h2⟩ := abs_le.1 h
  unfold roundAway
  rw [abs_le]
  split
  · refine ⟨?_, ?_⟩
    · have : 0 ≤ ⌊v + 1 / 2⌋ := Int.floor_nonneg.2 (by linarith)
      have hb : (0 : ℚ) ≤ b := le_trans (abs_nonneg v) h
      have hb' : 0 ≤ b := by exact_mod_cast hb
      omega
    · have : ⌊v + 1 / 2⌋ < b + 1 := Int.floor_lt.2 (by push_cast; linarith)
      omega
  · refine ⟨?_, ?_⟩
    · have : -b - 1 < ⌈v - 1 / 2⌉ := Int.lt_ceil.2 (by push_cast; linarith)
      omega
    · have : ⌈v - 1 / 2⌉ ≤ 0 := Int.ceil_le.2 (by push_cast; linarith)
      have hb : (0 : ℚ) ≤ b := le_trans (abs_nonneg v) h
      have hb' : 0 ≤ b := by exact_mod_cast hb
      omega

theorem rintAway_num (hf : f.Ok) (hw : f.mbits < f.bias) {x : f.Bits} (hx : f.isFinite x) :
    IsNum f (rintAway env x) (f.sign x) (roundAway (f.ratValue x)) := by
  obtain ⟨a, b⟩ := finite_not hf hx
  unfold rintAway
  rw [if_neg a, if_neg b]
  set v := f.ratValue x with hv
  have hrl : Rep f (roundAway v : ℚ) ∧ |(roundAway v : ℚ)| < 2 ^ (f.bias + 1) := by
    by_cases h : |v| < 2 ^ f.mbits
    · have h1 : |roundAway v| ≤ 2 ^ f.mbits := roundAway_abs_le v _ (by push_cast; exact h.le)
      have h2 : |roundAway v| ≤ 2 ^ (f.mbits + 1) := by rw [pow_succ]; have := one_le_pow f.mbits; omega
      exact ⟨rep_int hf h2, int_lt hw h2⟩
    · obtain ⟨n, hn⟩ := rep_big hf (rep_ratValue hf x) (not_lt.1 h)
      rw [show roundAway v = n by rw [hv, hn, roundAway_int], ← hn]
      exact ⟨rep_ratValue hf x, ratValue_lt hf hx⟩
  have := ofMag_encode hf (f.sign x) hrl.1.abs (abs_nonneg _) hrl.2
  refine ⟨this.1, ?_, this.3⟩
  rw [this.2]
  have hsv := ratValue_sign (x := x)
  have hts := roundAway_sign v
  cases hsx : f.sign x
  · have h1 : (0 : ℚ) ≤ roundAway v := by exact_mod_cast hts.1 (hsv.1 hsx)
    simp [abs_of_nonneg h1]
  · have h1 : (roundAway v : ℚ) ≤ 0 := by exact_mod_cast hts.2 (hsv.2 hsx)
    simp [abs_of_nonpos h1]

/-- Where both are defined, the conversions of SSE2 and NEON agree. -/
theorem vcvt_eq {x : b32.Bits} (hx : b32.isFinite x) (hs : |b32.ratValue x| < 2 ^ b32.mbits) : vcvt x = cvttps x := by
  have hb : |truncZ (b32.ratValue x)| ≤ 2 ^ 23 := truncZ_small hs
  have hb3 := abs_le.1 hb
  obtain ⟨a, b⟩ := finite_not b32_ok.1 hx
  unfold vcvt cvttps
  rw [if_neg a, if_neg b, if_pos ⟨hx, by omega, by omega⟩, min_eq_right (by omega), max_eq_right (by omega)]

theorem truncV7_small (env : b32.Env) {x : b32.Bits} (hx : b32.isFinite x) (hs : |b32.ratValue x| < 2 ^ b32.mbits) :
    IsNum b32 (truncV7 env x) (decide (truncZ (b32.ratValue x) < 0)) (truncZ (b32.ratValue x)) := by
  have hlt : b32.lt (FloatBits.abs b32 x) (Fmt.ofInt env (2 ^ 23)) = decide (|b32.ratValue x| < 2 ^ b32.mbits) :=
    lt_shifter env b32_ok.1 b32_ok.2 hx
  unfold truncV7
  rw [hlt, if_pos (by simpa using hs), vcvt_eq hx hs]
  exact cvt_num env hx hs

theorem truncV7_isTrunc (env : b32.Env) : IsTrunc b32 (truncV7 env) := by
  have hb : ∀ x, b32.isFinite x → b32.isFinite (truncV7 env x) ∧ b32.ratValue (truncV7 env x) = truncZ (b32.ratValue x) := by
    intro x hx
    by_cases h : |b32.ratValue x| < 2 ^ b32.mbits
    · have := truncV7_small env hx h
      exact ⟨this.1, this.2⟩
    · have hlt : b32.lt (FloatBits.abs b32 x) (Fmt.ofInt env (2 ^ 23)) = decide (|b32.ratValue x| < 2 ^ b32.mbits) :=
        lt_shifter env b32_ok.1 b32_ok.2 hx
      unfold truncV7
      rw [hlt, if_neg (by simpa using not_lt.1 h)]
      exact ⟨hx, (toInt_big b32_ok.1 .zero h).symm⟩
  have hn : ∀ x, ¬ b32.isFinite x → truncV7 env x = x := by
    intro x hx
    have hlt : b32.lt (FloatBits.abs b32 x) (Fmt.ofInt env (2 ^ 23)) = false := lt_shifter_inf env b32_ok.1 b32_ok.2 hx
    unfold truncV7
    rw [hlt, if_neg (by simp)]
  refine ⟨fun x hx => (hb x hx).1, fun x hx => (hb x hx).2, fun x hx => ?_, fun x hx => ?_⟩
  · apply hn; rw [isFinite_iff]; rw [isInf_iff] at hx; omega
  · rw [hn x (by rw [isFinite_iff]; rw [isNaN_iff] at hx; omega)]; exact hx

end StdSimd.NeonMath
