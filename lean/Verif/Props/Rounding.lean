import Verif.Proofs.Rounding
import Verif.Proofs.NeonMath
/-!
# Property theorems about the rounding functions (C35) and the sign of their results (C44)

For every binary interchange format whose exponent range includes the integers with full precision (`f.mbits < f.bias`; binary16, binary32, binary64),
every rounding direction and every bit pattern.
-/
namespace StdSimd.Props
open Spec FloatBits Rounding NeonMath

variable {f : Fmt} (env : f.Env)

/-! ## C35 -/

/-- C35. The arithmetic fallback of `nearbyint` and `rint` rounds in the current rounding direction. -/
theorem C35_nearbyint (hf : f.Ok) (hw : f.mbits < f.bias) : Fmt.RoundsTo f (nearbyint env) env.mode.toInt := by
  refine ⟨fun x hx => ?_, fun x hx => ?_, fun x hx => ?_⟩
  · by_cases h : |f.ratValue x| < 2 ^ f.mbits
    · have := nearbyint_num env hf hw hx h
      exact ⟨this.1, this.2⟩
    · rw [nearbyint_big env hf hw (by tauto)]
      exact ⟨hx, (toInt_big hf env.mode h).symm⟩
  · exact nearbyint_big env hf hw (by have := (inf_facts hf hx).2; tauto)
  · rw [nearbyint_big env hf hw (by rw [isFinite_iff]; rw [isNaN_iff] at hx; omega)]
    exact hx

private theorem of_trunc {tr : f.Bits → f.Bits} (h : IsTrunc f tr) : Fmt.RoundsTo f tr truncZ :=
  ⟨fun x hx => ⟨h.finite x hx, h.value x hx⟩, h.inf, h.nan⟩

private theorem of_floor (hf : f.Ok) (hw : f.mbits < f.bias) {tr : f.Bits → f.Bits} (h : IsTrunc f tr) :
    Fmt.RoundsTo f (floor env tr) Int.floor :=
  ⟨fun _ hx => floor_value env hf hw h hx, fun x => (floor_nonfinite env hf h x).1, fun x => (floor_nonfinite env hf h x).2⟩

private theorem of_ceil (hf : f.Ok) (hw : f.mbits < f.bias) {tr : f.Bits → f.Bits} (h : IsTrunc f tr) :
    Fmt.RoundsTo f (ceil env tr) Int.ceil :=
  ⟨fun _ hx => ceil_value env hf hw h hx, fun x => (ceil_nonfinite env hf h x).1, fun x => (ceil_nonfinite env hf h x).2⟩

private theorem of_rint (hf : f.Ok) (hw : f.mbits < f.bias) (m : RMode) : Fmt.RoundsTo f (Fmt.rint env m) m.toInt := by
  refine ⟨fun x hx => ?_, fun x hx => ?_, fun x hx => ?_⟩
  · have := rint_num env hf hw m hx
    exact ⟨this.1, this.2⟩
  · unfold Fmt.rint; rw [if_neg (inf_facts hf hx).1, if_pos hx]
  · unfold Fmt.rint; rw [if_pos hx]; exact env.isNaN x x

/-- C35. The arithmetic fallback of `trunc`, in every rounding direction. -/
theorem C35_trunc (hf : f.Ok) (hw : f.mbits < f.bias) : Fmt.RoundsTo f (trunc env) truncZ := of_trunc (trunc_isTrunc env hf hw)

/-- C35. The arithmetic fallback of `floor`. -/
theorem C35_floor (hf : f.Ok) (hw : f.mbits < f.bias) : Fmt.RoundsTo f (floor env (trunc env)) Int.floor :=
  of_floor env hf hw (trunc_isTrunc env hf hw)

/-- C35. The arithmetic fallback of `ceil`. -/
theorem C35_ceil (hf : f.Ok) (hw : f.mbits < f.bias) : Fmt.RoundsTo f (ceil env (trunc env)) Int.ceil :=
  of_ceil env hf hw (trunc_isTrunc env hf hw)

/-- C35. The arithmetic fallback of `round`: ties away from zero. -/
theorem C35_round (hf : f.Ok) (hw : f.mbits < f.bias) : Fmt.RoundsTo f (round env (trunc env)) roundAway :=
  ⟨fun _ hx => round_value env hf hw (trunc_isTrunc env hf hw) hx, fun x => (round_nonfinite env hf hw (trunc_isTrunc env hf hw) x).1,
   fun x => (round_nonfinite env hf hw (trunc_isTrunc env hf hw) x).2⟩

/-- C35. The x86 functions where an instruction rounds (SSE4.1, AVX, AVX-512) or the generic code is used: any format. -/
theorem C35_x86 (hf : f.Ok) (hw : f.mbits < f.bias) (p : Rounding.Path) (hp : p ≠ .sse2) (sse2 : f.Bits → f.Bits) :
    Fmt.RoundsTo f (x86Nearbyint env p) env.mode.toInt ∧ Fmt.RoundsTo f (x86Trunc env sse2 p) truncZ ∧
      Fmt.RoundsTo f (x86Floor env sse2 p) Int.floor ∧ Fmt.RoundsTo f (x86Ceil env sse2 p) Int.ceil := by
  cases p
  · exact ⟨of_rint env hf hw _, of_rint env hf hw .zero, of_rint env hf hw .down, of_rint env hf hw .up⟩
  · exact absurd rfl hp
  · exact ⟨C35_nearbyint env hf hw, C35_trunc env hf hw, C35_floor env hf hw, C35_ceil env hf hw⟩

/-- C35. The SSE2 code for `float`. -/
theorem C35_sse2 (env : b32.Env) :
    Fmt.RoundsTo b32 (x86Nearbyint env .sse2) env.mode.toInt ∧ Fmt.RoundsTo b32 (x86Trunc env (truncSse2 env) .sse2) truncZ ∧
      Fmt.RoundsTo b32 (x86Floor env (truncSse2 env) .sse2) Int.floor ∧ Fmt.RoundsTo b32 (x86Ceil env (truncSse2 env) .sse2) Int.ceil :=
  ⟨C35_nearbyint env b32_ok.1 b32_ok.2, of_trunc (truncSse2_isTrunc env), of_floor env b32_ok.1 b32_ok.2 (truncSse2_isTrunc env),
   of_ceil env b32_ok.1 b32_ok.2 (truncSse2_isTrunc env)⟩

/-- C35. `round` on x86 with an instruction that truncates. -/
theorem C35_x86_round (hf : f.Ok) (hw : f.mbits < f.bias) : Fmt.RoundsTo f (roundInstr env) roundAway := by
  have h := rint_isTrunc env hf hw
  refine ⟨fun x hx => roundTail_value env hf hw hx (h.finite x hx) (h.value x hx), fun x hx => ?_, fun x hx => roundTail_nan env (h.nan x hx)⟩
  unfold roundInstr
  rw [h.inf x hx]; exact roundTail_inf env hf hw hx

/-- C35. `round` with SSE2 `float` vectors. -/
theorem C35_sse2_round (env : b32.Env) : Fmt.RoundsTo b32 (roundSse2 env) roundAway := by
  have hlt : ∀ x, b32.isFinite x → b32.lt (absMask b32 &&& x) (Fmt.ofInt env (2 ^ 23)) = decide (|b32.ratValue x| < 2 ^ b32.mbits) :=
    fun x hx => lt_shifter env b32_ok.1 b32_ok.2 hx
  have hinf : ∀ x, ¬ b32.isFinite x → roundSse2 env x = x := fun x hx => by
    have : b32.lt (absMask b32 &&& x) (Fmt.ofInt env (2 ^ 23)) = false := lt_shifter_inf env b32_ok.1 b32_ok.2 hx
    unfold roundSse2; rw [this]; rfl
  refine ⟨fun x hx => ?_, fun x hx => hinf x (inf_facts b32_ok.1 hx).2, fun x hx => ?_⟩
  · unfold roundSse2
    rw [hlt x hx]
    by_cases h : |b32.ratValue x| < 2 ^ b32.mbits
    · rw [if_pos (by simpa using h)]
      have hc := cvt_num env hx h
      exact roundTail_value env b32_ok.1 b32_ok.2 hx hc.1 hc.2
    · rw [if_neg (by simpa using h)]
      refine ⟨hx, ?_⟩
      obtain ⟨n, hn⟩ := rep_big b32_ok.1 (rep_ratValue b32_ok.1 x) (not_lt.1 h)
      rw [hn, roundAway_abs]
      have e : ⌊|(n : ℚ)| + 1 / 2⌋ = |n| := by
        rw [← Int.cast_abs, floor_half, Int.fract_intCast, if_neg (by norm_num), Int.floor_intCast]
      rw [e]
      by_cases h0 : n < 0
      · have : (n : ℚ) < 0 := by exact_mod_cast h0
        rw [if_pos this, abs_of_neg h0]; push_cast; ring
      · have : ¬ (n : ℚ) < 0 := by exact_mod_cast h0
        rw [if_neg this, abs_of_nonneg (not_lt.1 h0)]; ring
  · rw [hinf x (by rw [isFinite_iff]; rw [isNaN_iff] at hx; omega)]; exact hx

/-! ## C44 -/

/-- C44. Rounding instructions keep the sign. -/
theorem C44_x86_instr (hf : f.Ok) (hw : f.mbits < f.bias) (sse2 : f.Bits → f.Bits) :
    Fmt.KeepsSign f (x86Nearbyint env .instr) ∧ Fmt.KeepsSign f (x86Trunc env sse2 .instr) ∧ Fmt.KeepsSign f (x86Floor env sse2 .instr) ∧
      Fmt.KeepsSign f (x86Ceil env sse2 .instr) :=
  ⟨fun _ hx => (rint_num env hf hw _ hx).3, fun _ hx => (rint_num env hf hw .zero hx).3, fun _ hx => (rint_num env hf hw .down hx).3,
   fun _ hx => (rint_num env hf hw .up hx).3⟩

private theorem trunc_sign (hf : f.Ok) (hw : f.mbits < f.bias) (hm : env.mode ≠ .down) : Fmt.KeepsSign f (trunc env) := by
  intro x hx
  by_cases h : |f.ratValue x| < 2 ^ f.mbits
  · rw [(trunc_num env hf hw hx h).3]; simp [hm]
  · rw [trunc_big env hf hw (by tauto)]

private theorem round_sign (hf : f.Ok) (hw : f.mbits < f.bias) (hm : env.mode ≠ .down) {tr : f.Bits → f.Bits} (htr : IsTrunc f tr) :
    Fmt.KeepsSign f (round env tr) := by
  intro x hx
  have hv := (round_value env hf hw htr hx).2
  by_cases h0 : roundAway (f.ratValue x) = 0
  · have ha := abs_num hx
    have hra : roundAway (f.ratValue (FloatBits.abs f x)) = 0 := by
      have h1 := roundAway_abs (f.ratValue x)
      have h2 := roundAway_abs (f.ratValue (FloatBits.abs f x))
      rw [h0] at h1
      rw [ha.2, abs_abs, if_neg (not_lt.2 (abs_nonneg _))] at h2
      have hsgn : (if f.ratValue x < 0 then (-1 : ℚ) else 1) ≠ 0 := by split <;> norm_num
      have h3 : (⌊|f.ratValue x| + 1 / 2⌋ : ℚ) = 0 := by
        rcases mul_eq_zero.1 (by push_cast at h1; exact h1.symm) with h | h
        · exact absurd h hsgn
        · exact h
      rw [ha.2]
      rw [h3] at h2
      have : (roundAway |f.ratValue x| : ℚ) = 0 := by simpa using h2
      exact_mod_cast this
    rw [round_eq_tail env hf hw htr hx, sign_or,
      roundTail_sign env hf hw ha.1 (htr.finite _ ha.1) (htr.value _ ha.1) hra]
    simp [hm]
  · have h0' : (roundAway (f.ratValue x) : ℚ) ≠ 0 := by exact_mod_cast h0
    have hra := roundAway_abs (f.ratValue x)
    have hnn : (0 : ℚ) ≤ (⌊|f.ratValue x| + 1 / 2⌋ : ℚ) := by
      have : 0 ≤ ⌊|f.ratValue x| + 1 / 2⌋ := Int.floor_nonneg.2 (by have := abs_nonneg (f.ratValue x); linarith)
      exact_mod_cast this
    have hsv := ratValue_sign (x := x)
    by_cases hc : f.ratValue x < 0
    · rw [sign_of_value.2 hc]
      apply sign_of_value.2
      rw [hv]
      rw [if_pos hc] at hra
      exact lt_of_le_of_ne (by rw [hra]; linarith) h0'
    · have hx0 : f.ratValue x ≠ 0 := by
        intro h; apply h0; rw [h]; norm_num [roundAway]
      rw [sign_of_value.1 (lt_of_le_of_ne (not_lt.1 hc) hx0.symm)]
      apply sign_of_value.1
      rw [hv]
      rw [if_neg hc] at hra
      exact lt_of_le_of_ne (by rw [hra]; linarith) h0'.symm

/-- C44. The arithmetic fallbacks of `trunc`, `floor`, `ceil` and `round` keep the sign unless the rounding direction is downward.
Missing: the downward direction, where it is wrong (`C44_trunc_downward_wrong`). -/
theorem C44_generic_partial (hf : f.Ok) (hw : f.mbits < f.bias) (hm : env.mode ≠ .down) :
    Fmt.KeepsSign f (trunc env) ∧ Fmt.KeepsSign f (floor env (trunc env)) ∧ Fmt.KeepsSign f (ceil env (trunc env)) ∧
      Fmt.KeepsSign f (round env (trunc env)) := by
  have ht := trunc_sign env hf hw hm
  have htr := trunc_isTrunc env hf hw
  exact ⟨ht, fun x hx => floor_sign env hf hw htr hx (ht x hx), fun x hx => ceil_sign env hf hw htr hx (ht x hx),
    round_sign env hf hw hm htr⟩

/-- C44. `nearbyint` and `rint` without a rounding instruction keep the sign of results other than zero.  Missing: zeros
(`C44_nearbyint_zero`). -/
theorem C44_nearbyint_partial (hf : f.Ok) (hw : f.mbits < f.bias) (x : f.Bits) (hx : f.isFinite x)
    (h0 : env.mode.toInt (f.ratValue x) ≠ 0) : f.sign (nearbyint env x) = f.sign x := by
  have hv := (C35_nearbyint env hf hw).finite x hx
  have hts := toInt_sign env.mode (q := f.ratValue x)
  have hsv := ratValue_sign (x := x)
  have h0' : (env.mode.toInt (f.ratValue x) : ℚ) ≠ 0 := by exact_mod_cast h0
  cases hs : f.sign x
  · apply sign_of_value.1
    rw [hv.2]
    exact lt_of_le_of_ne (by exact_mod_cast hts.1 (hsv.1 hs)) h0'.symm
  · apply sign_of_value.2
    rw [hv.2]
    exact lt_of_le_of_ne (by exact_mod_cast hts.2 (hsv.2 hs)) h0'

/-- C44 is violated. Without a rounding instruction, a result of `nearbyint` or `rint` that is zero has the same sign for all operands:
`+0` (`-0` in the downward direction). -/
theorem C44_nearbyint_zero (hf : f.Ok) (hw : f.mbits < f.bias) (x : f.Bits) (hx : f.isFinite x)
    (h0 : env.mode.toInt (f.ratValue x) = 0) : f.sign (nearbyint env x) = decide (env.mode = .down) := by
  have hs : |f.ratValue x| < 2 ^ f.mbits := by
    by_contra hc
    have h1 := toInt_big hf env.mode hc
    rw [h0] at h1
    apply hc
    rw [← h1]; simp
  rw [(nearbyint_num env hf hw hx hs).3, if_pos h0]

/-- An environment with the default rounding direction. -/
def env32 (m : RMode) : b32.Env := ⟨m, fun _ _ => 0x7fc00000#32, fun _ _ => by decide⟩

/-- C44 is violated by `nearbyint`: `-0.25f` gives `+0`. -/
theorem C44_nearbyint_wrong : ¬ Fmt.KeepsSign b32 (nearbyint (env32 .nearest)) := by
  intro h
  have h1 := h 0xbe800000#32 (by decide)
  have hv : b32.ratValue 0xbe800000#32 = -1 / 4 := by decide +kernel
  have h2 := C44_nearbyint_zero (env32 .nearest) b32_ok.1 b32_ok.2 0xbe800000#32 (by decide) (by
    rw [hv]; show roundEven (-1 / 4) = 0; decide +kernel)
  rw [h1] at h2
  exact absurd h2 (by decide)

/-- C44 is violated by the arithmetic fallback of `trunc` in the downward direction: `0.25f` gives `-0`. -/
theorem C44_trunc_downward_wrong : ¬ Fmt.KeepsSign b32 (trunc (env32 .down)) := by
  intro h
  have h1 := h 0x3e800000#32 (by decide)
  have hv : b32.ratValue 0x3e800000#32 = 1 / 4 := by decide +kernel
  have h2 := (trunc_num (env32 .down) b32_ok.1 b32_ok.2 (x := 0x3e800000#32) (by decide) (by
    rw [hv]; decide +kernel)).3
  rw [h1, hv, show ⌊|(1 / 4 : ℚ)|⌋ = 0 by decide +kernel] at h2
  exact absurd h2 (by decide)

/-- C44 is violated by `round` on x86 with a rounding instruction: `-0.25f` gives `+0`, and so does `-0.f`. -/
theorem C44_x86_round_wrong : ¬ Fmt.KeepsSign b32 (roundInstr (env32 .nearest)) ∧
    b32.sign (roundInstr (env32 .nearest) 0x80000000#32) = false := by
  constructor
  · intro h
    have h1 := h 0xbe800000#32 (by decide)
    have hv : b32.ratValue 0xbe800000#32 = -1 / 4 := by decide +kernel
    have ht := rint_num (env32 .nearest) b32_ok.1 b32_ok.2 .zero (x := 0xbe800000#32) (by decide)
    have h2 := roundTail_sign (env32 .nearest) b32_ok.1 b32_ok.2 (x := 0xbe800000#32) (by decide) ht.1 ht.2 (by
      rw [hv]; decide +kernel)
    unfold roundInstr at h1
    rw [h1] at h2
    revert h2
    simp [env32]; decide
  · have hv : b32.ratValue 0x80000000#32 = 0 := by decide +kernel
    have ht := rint_num (env32 .nearest) b32_ok.1 b32_ok.2 .zero (x := 0x80000000#32) (by decide)
    have h2 := roundTail_sign (env32 .nearest) b32_ok.1 b32_ok.2 (x := 0x80000000#32) (by decide) ht.1 ht.2 (by
      rw [hv]; decide +kernel)
    unfold roundInstr
    rw [h2]
    simp [env32]

/-- C44 is violated by `trunc` and `round` with SSE2 `float` vectors: `-0.25f` gives `+0`. -/
theorem C44_sse2_wrong : ¬ Fmt.KeepsSign b32 (truncSse2 (env32 .nearest)) ∧ ¬ Fmt.KeepsSign b32 (roundSse2 (env32 .nearest)) := by
  have hv : b32.ratValue 0xbe800000#32 = -1 / 4 := by decide +kernel
  have hs : |b32.ratValue 0xbe800000#32| < 2 ^ b32.mbits := by rw [hv]; decide +kernel
  have hfi : b32.isFinite 0xbe800000#32 := by decide
  have ht := cvt_num (env32 .nearest) hfi hs
  rw [hv, show truncZ (-1 / 4) = 0 by decide +kernel] at ht
  constructor
  · intro h
    have h1 := h 0xbe800000#32 hfi
    unfold truncSse2 at h1
    rw [sse2_small, if_pos (by simpa using ⟨hfi, hs⟩), ht.3] at h1
    exact absurd h1 (by decide)
  · intro h
    have h1 := h 0xbe800000#32 hfi
    have hlt : b32.lt (absMask b32 &&& 0xbe800000#32) (Fmt.ofInt (env32 .nearest) (2 ^ 23)) = decide (|b32.ratValue 0xbe800000#32| < 2 ^ b32.mbits) :=
      lt_shifter (env32 .nearest) b32_ok.1 b32_ok.2 hfi
    have hz : roundAway (b32.ratValue 0xbe800000#32) = 0 := by rw [hv]; decide +kernel
    have h2 := roundTail_sign (env32 .nearest) b32_ok.1 b32_ok.2 (x := 0xbe800000#32) hfi ht.1 (by
      rw [ht.2, hv, show truncZ (-1 / 4) = 0 by decide +kernel]) hz
    unfold roundSse2 at h1
    rw [hlt, if_pos (by simpa using hs), h2] at h1
    simp [env32] at h1
    exact absurd h1 (by decide)

/-! ## NEON -/

/-- C35. NEON, where an instruction rounds (ARMv8) or the generic code is used: any format. -/
theorem C35_neon (hf : f.Ok) (hw : f.mbits < f.bias) (p : NeonMath.Path) (hp : p ≠ .v7) (v7 : f.Bits → f.Bits) :
    Fmt.RoundsTo f (neonTrunc env v7 p) truncZ ∧ Fmt.RoundsTo f (neonRound env v7 p) roundAway ∧
      Fmt.RoundsTo f (neonFloor env v7 p) Int.floor ∧ Fmt.RoundsTo f (neonCeil env v7 p) Int.ceil := by
  cases p
  · refine ⟨of_rint env hf hw .zero, ⟨fun x hx => ?_, fun x hx => ?_, fun x hx => ?_⟩, of_rint env hf hw .down, of_rint env hf hw .up⟩
    · have := rintAway_num env hf hw hx
      exact ⟨this.1, this.2⟩
    · show rintAway env x = x
      unfold rintAway; rw [if_neg (inf_facts hf hx).1, if_pos hx]
    · show f.isNaN (rintAway env x)
      unfold rintAway; rw [if_pos hx]; exact env.isNaN x x
  · exact absurd rfl hp
  · exact ⟨C35_trunc env hf hw, C35_round env hf hw, C35_floor env hf hw, C35_ceil env hf hw⟩

/-- C35. ARMv7 `float` vectors. -/
theorem C35_neon_v7 (env : b32.Env) :
    Fmt.RoundsTo b32 (neonTrunc env (truncV7 env) .v7) truncZ ∧ Fmt.RoundsTo b32 (neonRound env (truncV7 env) .v7) roundAway ∧
      Fmt.RoundsTo b32 (neonFloor env (truncV7 env) .v7) Int.floor ∧ Fmt.RoundsTo b32 (neonCeil env (truncV7 env) .v7) Int.ceil :=
  have h := truncV7_isTrunc env
  ⟨of_trunc h, ⟨fun _ hx => round_value env b32_ok.1 b32_ok.2 h hx, fun x => (round_nonfinite env b32_ok.1 b32_ok.2 h x).1,
    fun x => (round_nonfinite env b32_ok.1 b32_ok.2 h x).2⟩, of_floor env b32_ok.1 b32_ok.2 h, of_ceil env b32_ok.1 b32_ok.2 h⟩

/-- C44. The NEON functions with a rounding instruction (ARMv8). -/
theorem C44_neon_instr (hf : f.Ok) (hw : f.mbits < f.bias) (v7 : f.Bits → f.Bits) :
    Fmt.KeepsSign f (neonTrunc env v7 .a32) ∧ Fmt.KeepsSign f (neonRound env v7 .a32) ∧ Fmt.KeepsSign f (neonFloor env v7 .a32) ∧
      Fmt.KeepsSign f (neonCeil env v7 .a32) :=
  ⟨fun _ hx => (rint_num env hf hw .zero hx).3, fun _ hx => (rintAway_num env hf hw hx).3, fun _ hx => (rint_num env hf hw .down hx).3,
   fun _ hx => (rint_num env hf hw .up hx).3⟩

/-- C44. ARMv7 `float` vectors: `round` keeps the sign unless the rounding direction is downward; the other functions keep the sign of
results other than zero.  Missing: zeros (`C44_neon_v7_wrong`). -/
theorem C44_neon_v7_partial (env : b32.Env) :
    (env.mode ≠ .down → Fmt.KeepsSign b32 (neonRound env (truncV7 env) .v7)) ∧
      (∀ x, b32.isFinite x → truncZ (b32.ratValue x) ≠ 0 → b32.sign (neonTrunc env (truncV7 env) .v7 x) = b32.sign x) ∧
      (∀ x, b32.isFinite x → ⌊b32.ratValue x⌋ ≠ 0 → b32.sign (neonFloor env (truncV7 env) .v7 x) = b32.sign x) ∧
      (∀ x, b32.isFinite x → ⌈b32.ratValue x⌉ ≠ 0 → b32.sign (neonCeil env (truncV7 env) .v7 x) = b32.sign x) := by
  have key : ∀ (g : b32.Bits → b32.Bits) (r : ℚ → ℤ), Fmt.RoundsTo b32 g r → (∀ q, (0 ≤ q → 0 ≤ r q) ∧ (q ≤ 0 → r q ≤ 0)) →
      ∀ x, b32.isFinite x → r (b32.ratValue x) ≠ 0 → b32.sign (g x) = b32.sign x := by
    intro g r hg hr x hx h0
    have hv := (hg.finite x hx).2
    have hsv := ratValue_sign (x := x)
    have h0' : (r (b32.ratValue x) : ℚ) ≠ 0 := by exact_mod_cast h0
    cases hs : b32.sign x
    · have := (hr (b32.ratValue x)).1 (hsv.1 hs)
      have h1 : (0 : ℚ) ≤ r (b32.ratValue x) := by exact_mod_cast this
      exact sign_of_value.1 (by rw [hv]; exact lt_of_le_of_ne h1 h0'.symm)
    · have := (hr (b32.ratValue x)).2 (hsv.2 hs)
      have h1 : (r (b32.ratValue x) : ℚ) ≤ 0 := by exact_mod_cast this
      exact sign_of_value.2 (by rw [hv]; exact lt_of_le_of_ne h1 h0')
  obtain ⟨h1, _, h3, h4⟩ := C35_neon_v7 env
  refine ⟨fun hm => round_sign env b32_ok.1 b32_ok.2 hm (truncV7_isTrunc env), key _ _ h1 (fun q => toInt_sign .zero), key _ _ h3 ?_, key _ _ h4 ?_⟩
  · exact fun q => ⟨fun h => Int.floor_nonneg.2 h, fun h => by
      have : (⌊q⌋ : ℚ) ≤ 0 := le_trans (Int.floor_le q) h
      exact_mod_cast this⟩
  · exact fun q => ⟨fun h => by
      have : (0 : ℚ) ≤ ⌈q⌉ := le_trans h (Int.le_ceil q)
      exact_mod_cast this, fun h => Int.ceil_le.2 (by simpa using h)⟩

/-- C44 is violated on ARMv7: `trunc(-0.f)`, `floor(-0.f)` and `ceil(-0.f)` are `+0`. -/
theorem C44_neon_v7_wrong : ¬ Fmt.KeepsSign b32 (neonTrunc (env32 .nearest) (truncV7 (env32 .nearest)) .v7) ∧
    ¬ Fmt.KeepsSign b32 (neonFloor (env32 .nearest) (truncV7 (env32 .nearest)) .v7) ∧
    ¬ Fmt.KeepsSign b32 (neonCeil (env32 .nearest) (truncV7 (env32 .nearest)) .v7) := by
  have hv : b32.ratValue 0x80000000#32 = 0 := by decide +kernel
  have hfi : b32.isFinite 0x80000000#32 := by decide
  have ht := truncV7_small (env32 .nearest) hfi (by rw [hv]; decide +kernel)
  rw [hv, show truncZ 0 = 0 by decide +kernel] at ht
  have hs : b32.sign (truncV7 (env32 .nearest) 0x80000000#32) ≠ b32.sign 0x80000000#32 := by rw [ht.3]; decide
  refine ⟨fun h => hs (h _ hfi), fun h => hs ?_, fun h => hs ?_⟩
  · rw [← h _ hfi]
    show _ = b32.sign (floor _ (truncV7 (env32 .nearest)) _)
    rw [floor_eq, lt_zero _ b32_ok.1 b32_ok.2 hfi, hv]; simp
  · rw [← h _ hfi]
    show _ = b32.sign (ceil _ (truncV7 (env32 .nearest)) _)
    rw [ceil_eq, eq_finite b32_ok.1 ht.1 hfi, ht.2, hv]; simp

/-! ## examples -/

example : (⟨8, 23⟩ : Fmt).Ok ∧ (⟨8, 23⟩ : Fmt).mbits < (⟨8, 23⟩ : Fmt).bias := by decide
example : (⟨11, 52⟩ : Fmt).Ok ∧ (⟨11, 52⟩ : Fmt).mbits < (⟨11, 52⟩ : Fmt).bias := by decide
example : (⟨5, 10⟩ : Fmt).Ok ∧ (⟨5, 10⟩ : Fmt).mbits < (⟨5, 10⟩ : Fmt).bias := by decide
-- 2.5f: rounds to 2 (nearest, ties to even), to 3 (`round`)
example : b32.ratValue 0x40200000#32 = 5 / 2 ∧ RMode.nearest.toInt (5 / 2) = 2 ∧ roundAway (5 / 2) = 3 ∧ RMode.up.toInt (5 / 2) = 3 ∧
    truncZ (-5 / 2) = -2 ∧ roundAway (-5 / 2) = -3 := by decide +kernel
example : (env32 .nearest).mode ≠ .down := by decide
-- every result is what the theorem says, e.g.
example : b32.ratValue (round (env32 .up) (trunc (env32 .up)) 0x40200000#32) = 3 := by
  rw [((C35_round (env32 .up) b32_ok.1 b32_ok.2).finite 0x40200000#32 (by decide)).2,
    show b32.ratValue 0x40200000#32 = 5 / 2 by decide +kernel]
  decide +kernel

-- 2.5f rounded up, -2.5f rounded down and truncated by the x86 instructions, 2.5f rounded to nearest by ARMv8
example : b32.ratValue (nearbyint (env32 .up) 0x40200000#32) = 3 := by
  rw [((C35_nearbyint (env32 .up) b32_ok.1 b32_ok.2).finite 0x40200000#32 (by decide)).2,
    show b32.ratValue 0x40200000#32 = 5 / 2 by decide +kernel]
  decide +kernel
example : b32.ratValue (floor (env32 .up) (trunc (env32 .up)) 0xc0200000#32) = -3 ∧ b32.ratValue (ceil (env32 .up) (trunc (env32 .up)) 0xc0200000#32) = -2 ∧
    b32.ratValue (trunc (env32 .up) 0xc0200000#32) = -2 := by
  have h : b32.ratValue 0xc0200000#32 = -5 / 2 := by decide +kernel
  rw [((C35_floor (env32 .up) b32_ok.1 b32_ok.2).finite 0xc0200000#32 (by decide)).2, ((C35_ceil (env32 .up) b32_ok.1 b32_ok.2).finite 0xc0200000#32 (by decide)).2,
    ((C35_trunc (env32 .up) b32_ok.1 b32_ok.2).finite 0xc0200000#32 (by decide)).2, h]
  decide +kernel
example (sse2 : b32.Bits → b32.Bits) : b32.ratValue (x86Floor (env32 .nearest) sse2 .instr 0xc0200000#32) = -3 ∧
    b32.sign (x86Floor (env32 .nearest) sse2 .instr 0xc0200000#32) = true := by
  refine ⟨?_, (C44_x86_instr (env32 .nearest) b32_ok.1 b32_ok.2 sse2).2.2.1 _ (by decide)⟩
  rw [((C35_x86 (env32 .nearest) b32_ok.1 b32_ok.2 .instr (by decide) sse2).2.2.1.finite 0xc0200000#32 (by decide)).2,
    show b32.ratValue 0xc0200000#32 = -5 / 2 by decide +kernel]
  decide +kernel
example : b32.ratValue (roundInstr (env32 .nearest) 0xc0200000#32) = -3 := by
  rw [((C35_x86_round (env32 .nearest) b32_ok.1 b32_ok.2).finite 0xc0200000#32 (by decide)).2,
    show b32.ratValue 0xc0200000#32 = -5 / 2 by decide +kernel]
  decide +kernel
-- -0.25f: `trunc` and `ceil` give `-0.f`, `nearbyint` gives `+0.f`; -2.5f: `nearbyint` keeps the sign
example : b32.sign (trunc (env32 .nearest) 0xbe800000#32) = true ∧ b32.sign (ceil (env32 .nearest) (trunc (env32 .nearest)) 0xbe800000#32) = true ∧
    b32.sign (nearbyint (env32 .nearest) 0xbe800000#32) = false ∧ b32.sign (nearbyint (env32 .nearest) 0xc0200000#32) = true := by
  obtain ⟨h1, _, h3, _⟩ := C44_generic_partial (env32 .nearest) b32_ok.1 b32_ok.2 (by decide)
  refine ⟨h1 _ (by decide), h3 _ (by decide), ?_, C44_nearbyint_partial (env32 .nearest) b32_ok.1 b32_ok.2 _ (by decide) ?_⟩
  · rw [C44_nearbyint_zero (env32 .nearest) b32_ok.1 b32_ok.2 _ (by decide) (by
      rw [show b32.ratValue 0xbe800000#32 = -1 / 4 by decide +kernel]; decide +kernel)]
    decide
  · rw [show b32.ratValue 0xc0200000#32 = -5 / 2 by decide +kernel]; decide +kernel

end StdSimd.Props
