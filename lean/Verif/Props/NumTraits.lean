import Verif.Proofs.NumTraits
import Verif.Props.Rounding
import Verif.Proofs.Math
import Verif.Proofs.Ldexp
import Mathlib.Data.Nat.Prime.Basic
/-!
# Property theorems about numeric traits (C67)
-/
namespace StdSimd.Props
open Spec FloatBits NumTraits
open Spec.Platform (wrap)

variable {f : Fmt}

/-! ## the reciprocal overflow threshold -/

theorem units_of_pos {y : f.Bits} (h : 0 < f.ratValue y) : ∃ j : ℕ, 0 < j ∧ f.ratValue y = j * 2 ^ f.emin := by
  have hs := (Rounding.sign_of_value (x := y)).1 h
  have e := ratValue_mag y
  rw [hs, if_neg (by simp), one_mul] at e
  refine ⟨unit f.mbits (mag f y), ?_, e⟩
  rw [Nat.pos_iff_ne_zero]
  intro h0
  rw [e, h0] at h
  simp at h

/-- C67. `__reciprocal_overflow_threshold`: for every format with at least ten fraction bits and every rounding direction the search ends, after at most `mbits - 5` calls, with
the smallest positive number whose reciprocal does not overflow. -/
theorem C67_reciprocal_overflow_threshold (env : f.Env) (hf : f.Ok) (hw : f.mbits < f.bias) (hm : 10 ≤ f.mbits) (fuel : Nat) (hfu : f.mbits - 5 ≤ fuel) :
    ∃ x, reciprocalOverflowThreshold env fuel = some x ∧ f.IsReciprocalThreshold env.mode x := by
  obtain ⟨x, h1, h2⟩ := threshold_units env hf hw hm (fuel := fuel) (by omega)
  have hpos : (0 : ℚ) < ((2 ^ (f.mbits - 2) + 1 : ℕ) : ℚ) := Nat.cast_pos.2 (Nat.succ_pos _)
  have hv : 0 < f.ratValue x := by rw [h2.2]; positivity
  refine ⟨x, h1, h2.1, hv, ?_, fun y y1 y2 y3 => ?_⟩
  · have hl := recip_le (f := f) (by omega) (k := 2 ^ (f.mbits - 2) + 1) (j := 0) (by omega)
    rw [add_zero, sub_zero, ← h2.2] at hl
    have h0 : 0 < 1 / f.ratValue x := by positivity
    have h3 := roundTo_le_rep env.mode (rep_max hf) h0 hl
    show decide _ = false
    rw [decide_eq_false_iff_not, not_le, abs_of_nonneg ((roundTo_sign env.mode).1 h0.le)]
    exact lt_of_le_of_lt h3 max_lt
  · obtain ⟨j, j0, hj⟩ := units_of_pos y2
    rw [hj, h2.2] at y3
    have hjl : j ≤ 2 ^ (f.mbits - 2) := by
      have : (j : ℚ) < ((2 ^ (f.mbits - 2) + 1 : ℕ) : ℚ) := lt_of_mul_lt_mul_right y3 (by positivity)
      have : j < 2 ^ (f.mbits - 2) + 1 := by exact_mod_cast this
      omega
    have hg := recip_ge (f := f) (j := 0) j0 (by omega) hjl
    rw [add_zero, sub_zero, ← hj] at hg
    have h0 : 0 < 1 / f.ratValue y := by positivity
    have h3 := Ldexp.roundTo_ge (f := f) env.mode (k := (f.bias : ℤ) + 1) (by unfold Fmt.emin; have := (bias_eq hf).2; omega) (by rw [abs_of_pos h0]; exact hg)
    show decide _ = true
    rw [decide_eq_true_eq]
    have e : (2 : ℚ) ^ (f.bias + 1) = 2 ^ ((f.bias : ℤ) + 1) := by rw [← zpow_natCast]; push_cast; rfl
    rw [e]; exact h3

theorem threshold_value (env : f.Env) (hf : f.Ok) (hw : f.mbits < f.bias) (hm : 10 ≤ f.mbits) {x : f.Bits} (hx : f.IsReciprocalThreshold env.mode x) :
    f.ratValue x = ((2 ^ (f.mbits - 2) + 1 : ℕ) : ℚ) * 2 ^ f.emin := by
  obtain ⟨z, h1, h2⟩ := threshold_units env hf hw hm (fuel := f.mbits) (by omega)
  obtain ⟨z', h1', h3⟩ := C67_reciprocal_overflow_threshold env hf hw hm f.mbits (by omega)
  obtain rfl : z = z' := by rw [h1] at h1'; exact Option.some.inj h1'
  rw [← h2.2]
  rcases lt_trichotomy (f.ratValue x) (f.ratValue z) with h | h | h
  · have := h3.smallest x hx.finite hx.pos h
    rw [hx.noOverflow] at this; cases this
  · exact h
  · have := hx.smallest z h3.finite h3.pos h
    rw [h3.noOverflow] at this; cases this

/-- C67. In the default rounding direction, `1 / y` is infinite for the positive numbers below the threshold, and finite from it. -/
theorem C67_threshold_nearest (env : f.Env) (hn : env.mode = .nearest) (hf : f.Ok) (hw : f.mbits < f.bias) (hm : 10 ≤ f.mbits) (x : f.Bits)
    (hx : reciprocalOverflowThreshold env f.mbits = some x) (y : f.Bits) (hy : f.isFinite y) (h0 : 0 < f.ratValue y) :
    (f.isInf (Fmt.div env (Fmt.ofInt env 1) y) ↔ f.ratValue y < f.ratValue x) ∧ (f.isFinite (Fmt.div env (Fmt.ofInt env 1) y) ↔ f.ratValue x ≤ f.ratValue y) := by
  obtain ⟨x', h1, h2⟩ := C67_reciprocal_overflow_threshold env hf hw hm f.mbits (by omega)
  obtain rfl : x = x' := by rw [hx] at h1; exact Option.some.inj h1
  have hone := Rounding.one_num env hf hw
  have key1 : f.ratValue y < f.ratValue x → f.isInf (Fmt.div env (Fmt.ofInt env 1) y) := fun h => by
    have ho := h2.smallest y hy h0 h
    obtain ⟨a, b⟩ := finite_not hf hone.1
    obtain ⟨c, d⟩ := finite_not hf hy
    have hz : ¬ f.isZero y := fun hz => h0.ne' (by rw [ratValue_mag, (isZero_iff _).1 hz]; simp [unit])
    unfold Fmt.div
    rw [if_neg (fun h => h.elim a c), if_neg b, if_neg d, if_neg hz, hone.2]
    unfold Fmt.roundExc at ho
    have ho' := of_decide_eq_true ho
    have hl : ¬ f.encode |f.roundTo env.mode (1 / f.ratValue y)| < inf f := by
      rw [encode_lt_inf hf (rep_roundTo _ _).abs (abs_nonneg _)]
      exact not_lt.2 ho'
    unfold Fmt.round
    dsimp only
    rw [infMag_eq, if_neg hl, hn]
    simp only [show ∀ b, Fmt.overflowInf RMode.nearest b = true from fun _ => rfl, if_true]
    rw [isInf_iff, mag_ofMag _ (inf_lt hf).1]
  have key2 : f.ratValue x ≤ f.ratValue y → f.isFinite (Fmt.div env (Fmt.ofInt env 1) y) := fun h => by
    obtain ⟨j, j0, hj⟩ := units_of_pos h0
    have hv := threshold_value env hf hw hm h2
    have hjl : 2 ^ (f.mbits - 2) < j := by
      rw [hv, hj] at h
      have : ((2 ^ (f.mbits - 2) + 1 : ℕ) : ℚ) ≤ j := le_of_mul_le_mul_right h (by positivity)
      have : 2 ^ (f.mbits - 2) + 1 ≤ j := by exact_mod_cast this
      omega
    have hl := recip_le (f := f) (by omega) (k := j) (j := 0) hjl
    rw [add_zero, sub_zero, ← hj] at hl
    have hp : 0 < 1 / f.ratValue y := by positivity
    have h3 := roundTo_le_rep env.mode (rep_max hf) hp hl
    exact (div_num env hf hone.1 hy h0.ne' (by
      rw [hone.2, abs_of_nonneg ((roundTo_sign env.mode).1 hp.le)]
      exact lt_of_le_of_lt h3 max_lt)).1
  refine ⟨⟨fun h => ?_, key1⟩, ⟨fun h => ?_, key2⟩⟩
  · by_contra hc
    exact (finite_not hf (key2 (not_lt.1 hc))).2 h
  · by_contra hc
    exact (finite_not hf h).2 (key1 (not_le.1 hc))

/-- The formats of `float`, `double`, `long double` (x87) and `_Float16` meet the hypotheses; `bfloat16`, with 7 fraction bits, does not. -/
example : ((⟨8, 23⟩ : Fmt).Ok ∧ 23 < (⟨8, 23⟩ : Fmt).bias ∧ 10 ≤ 23) ∧ ((⟨11, 52⟩ : Fmt).Ok ∧ 52 < (⟨11, 52⟩ : Fmt).bias ∧ 10 ≤ 52) ∧
    ((⟨15, 63⟩ : Fmt).Ok ∧ 63 < (⟨15, 63⟩ : Fmt).bias ∧ 10 ≤ 63) ∧ ((⟨5, 10⟩ : Fmt).Ok ∧ 10 < (⟨5, 10⟩ : Fmt).bias ∧ 10 ≤ 10) ∧ ¬ 10 ≤ (⟨8, 7⟩ : Fmt).mbits := by
  refine ⟨⟨⟨?_, ?_⟩, ?_, ?_⟩, ⟨⟨?_, ?_⟩, ?_, ?_⟩, ⟨⟨?_, ?_⟩, ?_, ?_⟩, ⟨⟨?_, ?_⟩, ?_, ?_⟩, ?_⟩ <;> decide

/-- `float`: the threshold is `2 ^ 21 + 1` times the smallest positive number. -/
example : reciprocalOverflowThreshold (env32 .nearest) 23 = some 0x00200001#32 := by
  decide +kernel

/-! ## decimal digits -/

theorem pow_643 : 10 ^ 643 ≤ 2 ^ 2136 := by decide +kernel

/-- C67. `__digits10` of integer types: all decimal numbers of this many digits are values of the type, whatever its width. -/
theorem C67_digits10_fit (d : Nat) : 10 ^ digits10 d ≤ 2 ^ d := by
  rw [← Nat.pow_le_pow_iff_left (n := 2136) (by omega), ← Nat.pow_mul, ← Nat.pow_mul]
  calc 10 ^ (digits10 d * 2136) ≤ 10 ^ (643 * d) := Nat.pow_le_pow_right (by omega) (by unfold digits10; omega)
    _ = (10 ^ 643) ^ d := Nat.pow_mul _ _ _
    _ ≤ (2 ^ 2136) ^ d := Nat.pow_le_pow_left pow_643 d
    _ = 2 ^ (d * 2136) := by rw [← Nat.pow_mul, Nat.mul_comm]

theorem pow_6000 : 2 ^ 2136 * 6000 ≤ 10 ^ 643 * 6001 := by decide +kernel
theorem pow_6001 : 6001 ^ 15437 < 100 * 6000 ^ 15437 := by decide +kernel

theorem pow_lt_of_le {a b c n d : Nat} (hab : b ≤ a) (hn : a ^ n < c * b ^ n) (h : d ≤ n) : a ^ d < c * b ^ d := by
  by_contra hc
  have h1 : c * b ^ d * b ^ (n - d) ≤ a ^ d * a ^ (n - d) := Nat.mul_le_mul (not_lt.1 hc) (Nat.pow_le_pow_left hab _)
  rw [Nat.mul_assoc, ← Nat.pow_add, ← Nat.pow_add, Nat.add_sub_cancel' h] at h1
  exact absurd hn (not_lt.2 h1)
theorem pow_lt_hundred {d : Nat} (h : d ≤ 15437) : 6001 ^ d < 100 * 6000 ^ d := pow_lt_of_le (by omega) pow_6001 h

theorem digits10_lt {d : Nat} (h : d < 15437) : 2 ^ d < 10 ^ (digits10 d + 1) := by
  by_cases hm : 643 * d % 2136 = 2135
  · have : d = 485 ∨ d = 2621 ∨ d = 4757 ∨ d = 6893 ∨ d = 9029 ∨ d = 11165 ∨ d = 13301 := by omega
    rcases this with h | h | h | h | h | h | h <;> subst h <;> decide +kernel
  rw [← Nat.pow_lt_pow_iff_left (n := 2136) (by omega), ← Nat.pow_mul, ← Nat.pow_mul]
  have e1 : 643 * d + 2 ≤ (digits10 d + 1) * 2136 := by unfold digits10; omega
  refine lt_of_lt_of_le ?_ (Nat.pow_le_pow_right (by omega) e1)
  have h6 : 0 < 6000 ^ d := Nat.pow_pos (by omega)
  rw [← Nat.mul_lt_mul_right h6]
  calc 2 ^ (d * 2136) * 6000 ^ d = (2 ^ 2136 * 6000) ^ d := by rw [Nat.mul_comm d, Nat.pow_mul, Nat.mul_pow]
    _ ≤ (10 ^ 643 * 6001) ^ d := Nat.pow_le_pow_left pow_6000 d
    _ = (10 ^ 643) ^ d * 6001 ^ d := Nat.mul_pow _ _ _
    _ < (10 ^ 643) ^ d * (100 * 6000 ^ d) := Nat.mul_lt_mul_of_pos_left (pow_lt_hundred h.le) (Nat.pow_pos (Nat.pow_pos (by omega)))
    _ = 10 ^ (643 * d + 2) * 6000 ^ d := by rw [show 10 ^ (643 * d + 2) = (10 ^ 643) ^ d * 100 by rw [pow_add, pow_mul, show (10 : Nat) ^ 2 = 100 from rfl]]; ring

/-- C67. `__digits10` of types with fewer than 15437 digits: it is the greatest such number. -/
theorem C67_digits10 (d : Nat) (h : d < 15437) : IsDigits10 d (digits10 d) := ⟨C67_digits10_fit d, digits10_lt h⟩

/-- C67. The bound of `C67_digits10` is exact: the fraction 643/2136 is less than the logarithm, and for 15437 digits both traits are too small by one
(no supported type has so many digits). -/
theorem C67_digits10_bound : ¬ IsDigits10 15437 (digits10 15437) ∧ ¬ IsMaxDigits10 15437 (maxDigits10 true 15437) := by
  have h : 10 ^ (digits10 15437 + 1) < 2 ^ 15437 := by decide +kernel
  refine ⟨fun hc => absurd hc.2 (not_lt.2 h.le), ?_⟩
  rintro ⟨j, hj, hle, -⟩
  have e : j = digits10 15437 + 1 := by unfold maxDigits10 at hj; unfold digits10; simp at hj ⊢; omega
  rw [e] at hle
  exact absurd hle (not_le.2 h)

/-- C67. `__max_digits10` of floating-point types with precision below 15437. -/
theorem C67_max_digits10 (p : Nat) (h0 : 1 ≤ p) (h : p < 15437) : IsMaxDigits10 p (maxDigits10 true p) := by
  refine ⟨digits10 p + 1, ?_, (digits10_lt h).le, fun i hi => ?_⟩
  · unfold maxDigits10 digits10; simp; omega
  · by_contra hc
    have h1 : 10 ^ i ≤ 10 ^ digits10 p := Nat.pow_le_pow_right (by omega) (by omega)
    have h2 : 2 ^ p = 10 ^ i := le_antisymm hi (h1.trans (C67_digits10_fit p))
    rcases Nat.eq_zero_or_pos i with rfl | hi0
    · have : 2 ^ 1 ≤ 2 ^ p := Nat.pow_le_pow_right (by omega) h0
      omega
    · have h5 : 5 ∣ 2 ^ p := by rw [h2]; exact dvd_pow (by norm_num) (by omega)
      have := (Nat.Prime.dvd_of_dvd_pow Nat.prime_five h5)
      omega

/-- The values for `float`, `double`, `long double` (x87) and integers of 8 to 64 bits. -/
example : maxDigits10 true 24 = 9 ∧ maxDigits10 true 53 = 17 ∧ maxDigits10 true 64 = 21 ∧ digits10 7 = 2 ∧ digits10 31 = 9 ∧ digits10 63 = 18 ∧ digits10 64 = 19 := by
  decide

/-! ## integer types -/

theorem finiteMin_signed {w : Nat} (h : 2 ≤ w) : finiteMin true w = some (-2 ^ (w - 1)) := by
  have e : (2 : Int) ^ (w - 1) = 2 * 2 ^ (w - 1 - 1) := by rw [← pow_succ']; congr 1; omega
  have hp : (2 : Int) ^ (w - 1) ≤ 2 ^ (promoted w - 1) := pow_le_pow_right₀ (by omega) (by unfold promoted; omega)
  have h0 : (0 : Int) < 2 ^ (w - 1 - 1) := by positivity
  unfold finiteMin signedResult digits
  simp only [if_true, Bool.toNat_true, one_mul]
  rw [if_pos ⟨by omega, by omega⟩]
  simp only [Option.bind_eq_bind, Option.bind_some]
  rw [if_pos ⟨by omega, by omega⟩]
  simp only [Option.bind_some, Option.pure_def, Option.some.injEq, wrap, if_true]
  have e2 : ((2 ^ w : ℕ) : Int) = 2 * 2 ^ (w - 1) := by push_cast; rw [← pow_succ']; congr 1; omega
  rw [Int.bmod_eq_of_le] <;> omega

/-- C67. `__finite_min` and `__finite_max` of integer types of any width from 2 bits: the evaluation has no overflow, and they are the smallest and the
greatest value of the type. -/
theorem C67_integer_limits (signed : Bool) (w : Nat) (h : 2 ≤ w) : ∃ lo hi, finiteMin signed w = some lo ∧ finiteMax signed w = some hi ∧
    IsLeast {n | IntValue signed w n} lo ∧ IsGreatest {n | IntValue signed w n} hi := by
  have e2 : (2 : Int) ^ w = 2 * 2 ^ (w - 1) := by rw [← pow_succ']; congr 1; omega
  have en : (2 : ℕ) ^ w = 2 * 2 ^ (w - 1) := by rw [← pow_succ']; congr 1; omega
  have h0 : (0 : Int) < 2 ^ (w - 1) := by positivity
  have hn : 0 < 2 ^ (w - 1) := Nat.two_pow_pos _
  have hc : ((2 ^ w : ℕ) : Int) = 2 ^ w := by push_cast; rfl
  have hcast : ((2 ^ (w - 1) : ℕ) : Int) = 2 ^ (w - 1) := by push_cast; rfl
  have hpw : (2 : Int) ^ w ≤ 2 ^ promoted w := pow_le_pow_right₀ (by omega) (by unfold promoted; omega)
  have hpc : ((2 ^ promoted w : ℕ) : Int) = 2 ^ promoted w := by push_cast; rfl
  cases signed with
  | true =>
    refine ⟨-2 ^ (w - 1), 2 ^ (w - 1) - 1, finiteMin_signed h, ?_, ⟨⟨BitVec.intMin w, ?_⟩, ?_⟩, ⟨⟨BitVec.intMax w, ?_⟩, ?_⟩⟩
    · unfold finiteMax
      rw [finiteMin_signed h]
      simp only [Option.bind_eq_bind, Option.bind_some, Option.pure_def, Option.some.injEq, wrap, Bool.true_or, if_true]
      rw [Int.bmod_eq_of_le (n := _ - 1) (m := 2 ^ promoted w) (by omega) (by omega), Int.bmod_eq_of_le] <;> omega
    · rw [if_pos rfl, BitVec.toInt_intMin_of_pos (by omega)]
    · rintro n ⟨x, rfl⟩
      rw [if_pos rfl]
      exact BitVec.le_toInt x
    · rw [if_pos rfl, BitVec.toInt_intMax]
    · rintro n ⟨x, rfl⟩
      rw [if_pos rfl]
      have := BitVec.toInt_lt (x := x)
      omega
  | false =>
    refine ⟨0, 2 ^ w - 1, rfl, ?_, ⟨⟨0#w, ?_⟩, ?_⟩, ⟨⟨BitVec.allOnes w, ?_⟩, ?_⟩⟩
    · unfold finiteMax finiteMin
      simp only [Bool.false_eq_true, if_false, Option.bind_eq_bind, Option.bind_some, Option.pure_def, Option.some.injEq, Bool.false_or, neg_zero, zero_sub]
      unfold wrap
      simp only [Bool.false_eq_true, if_false]
      have key : ((-1 : Int) % 2 ^ w) = 2 ^ w - 1 := by
        rw [← Int.add_emod_right, Int.emod_eq_of_lt] <;> omega
      by_cases hw : w < 32
      · rw [if_pos (by simpa using hw)]
        have hw2 : 2 ≤ promoted w := by unfold promoted; omega
        have e3 : (2 : ℕ) ^ promoted w = 2 * 2 ^ (promoted w - 1) := by rw [← pow_succ']; congr 1; omega
        have := Nat.two_pow_pos (promoted w - 1)
        rw [Int.bmod_eq_of_le (by omega) (by omega), key]
      · rw [if_neg (by simpa using hw), show promoted w = w by unfold promoted; omega, Int.emod_emod, key]
    · simp
    · rintro n ⟨x, rfl⟩
      simp
    · simp only [Bool.false_eq_true, if_false, BitVec.toNat_allOnes]
      rw [Nat.cast_sub (Nat.one_le_two_pow), hc]; rfl
    · rintro n ⟨x, rfl⟩
      simp only [Bool.false_eq_true, if_false]
      have := x.isLt
      omega

/-- `signed char`, `unsigned short`, `long long`. -/
example : finiteMin true 8 = some (-128) ∧ finiteMax true 8 = some 127 ∧ finiteMax false 16 = some 65535 ∧ finiteMin true 64 = some (-9223372036854775808) := by
  decide

/-- C67. `__digits` of integer types: all integers in magnitude below two to this power are values, and no greater power has this property. -/
theorem C67_digits (signed : Bool) (w : Nat) (h : 2 ≤ w) (k : Nat) : (∀ n : Int, 0 ≤ n → n < 2 ^ k → IntValue signed w n) ↔ k ≤ digits signed w := by
  obtain ⟨lo, hi, -, -, h1, h2⟩ := C67_integer_limits signed w h
  have hb : hi = 2 ^ digits signed w - 1 := by
    cases signed with
    | true =>
      refine h2.unique ⟨⟨BitVec.intMax w, ?_⟩, ?_⟩
      · rw [if_pos rfl, BitVec.toInt_intMax]; rfl
      · rintro n ⟨x, rfl⟩
        rw [if_pos rfl]
        have := BitVec.toInt_lt (x := x)
        show _ ≤ (2 : Int) ^ (w - 1) - 1
        omega
    | false =>
      refine h2.unique ⟨⟨BitVec.allOnes w, ?_⟩, ?_⟩
      · simp only [Bool.false_eq_true, if_false, BitVec.toNat_allOnes]
        rw [Nat.cast_sub (Nat.one_le_two_pow)]; push_cast; rfl
      · rintro n ⟨x, rfl⟩
        simp only [Bool.false_eq_true, if_false]
        have := x.isLt
        have hc : ((2 ^ w : ℕ) : Int) = 2 ^ w := by push_cast; rfl
        show _ ≤ (2 : Int) ^ w - 1
        omega
  have hpos : ∀ j, (0 : Int) < 2 ^ j := fun j => by positivity
  constructor
  · intro hk
    by_contra hc
    have hlt : (2 : Int) ^ digits signed w < 2 ^ k := pow_lt_pow_right₀ (by omega) (by omega)
    have := h2.2 (hk (2 ^ digits signed w) (hpos _).le hlt)
    omega
  · intro hk n n0 hn
    have hle : (2 : Int) ^ k ≤ 2 ^ digits signed w := pow_le_pow_right₀ (by omega) hk
    lift n to ℕ using n0
    have hc : ((2 ^ w : ℕ) : Int) = 2 ^ w := by push_cast; rfl
    refine ⟨BitVec.ofNat w n, ?_⟩
    cases signed with
    | true =>
      have e2 : (2 : ℕ) ^ w = 2 * 2 ^ (w - 1) := by rw [← pow_succ']; congr 1; omega
      have hc' : ((2 ^ (w - 1) : ℕ) : Int) = 2 ^ (w - 1) := by push_cast; rfl
      have hd : (n : Int) < 2 ^ (w - 1) := lt_of_lt_of_le hn hle
      rw [if_pos rfl, BitVec.toInt_ofNat', Int.bmod_eq_of_le] <;> omega
    | false =>
      have hd : (n : Int) < 2 ^ w := lt_of_lt_of_le hn hle
      simp only [Bool.false_eq_true, if_false, BitVec.toNat_ofNat]
      rw [Nat.mod_eq_of_lt (by omega)]

/-- C67 (negation). `__digits` of `bool` is 8, not 1: `bool` takes the formula for integers of 8 bits. -/
theorem C67_digits_bool_wrong : digits false 8 = 8 ∧ digits10 (digits false 8) = 2 ∧ ¬ IsDigits10 1 (digits10 (digits false 8)) := by
  refine ⟨rfl, rfl, ?_⟩
  rintro ⟨h, -⟩
  revert h
  decide

/-! ## the behavior that `__has_iec559_behavior` promises -/

theorem quietNaN_isNaN (hf : f.Ok) (hm : 1 ≤ f.mbits) : f.isNaN (quietNaN f) := by
  have h1 := Nat.two_pow_pos (f.mbits - 1)
  have h2 : 2 ^ f.mbits = 2 * 2 ^ (f.mbits - 1) := by rw [← pow_succ']; congr 1; omega
  have h3 : 2 ^ (f.ebits + f.mbits) = (2 ^ f.ebits - 1) * 2 ^ f.mbits + 2 ^ f.mbits := by
    have := Nat.two_pow_pos f.ebits
    rw [pow_add, Nat.sub_mul, one_mul, Nat.sub_add_cancel (Nat.le_mul_of_pos_left _ this)]
  rw [isNaN_iff]
  unfold quietNaN
  rw [(Math.pos_const (by omega)).1]
  unfold inf
  omega
theorem infBits_isInf (hf : f.Ok) : f.isInf (infBits f) := (isInf_iff _).2 (Math.mag_inf hf).1
theorem num_zero {z : f.Bits} {s : Bool} (hf : f.Ok) (h : IsNum f z s 0) : f.isZero z :=
  Ldexp.isZero_ratValue hf h.2 h.1

/-- C67. The quiet NaN: what `__has_iec559_behavior<__quiet_NaN, T>` promises (numeric_traits.h:497-505). -/
theorem C67_iec559_nan (env : f.Env) (hf : f.Ok) (hw : f.mbits < f.bias) (hm : 1 ≤ f.mbits) (x : f.Bits) :
    f.isNaN (quietNaN f) ∧ f.eq (quietNaN f) (quietNaN f) = false ∧ f.isNaN (Fmt.add env (quietNaN f) x) ∧ f.isNaN (Fmt.add env x (quietNaN f)) ∧
      f.unordered (quietNaN f) x = true ∧ f.isNaN (Fmt.div env (infBits f) (infBits f)) ∧ f.isNaN (Fmt.div env (Fmt.ofInt env 0) (Fmt.ofInt env 0)) := by
  have hn := quietNaN_isNaN hf hm
  have hi := infBits_isInf hf
  have hz := Rounding.zero_num env hf hw
  have hv : f.value (quietNaN f) = none := by unfold Fmt.value; rw [if_pos hn]
  obtain ⟨a, b⟩ := finite_not hf hz.1
  refine ⟨hn, ?_, ?_, ?_, ?_, ?_, ?_⟩
  · unfold Fmt.eq Fmt.quiet; rw [hv]
  · unfold Fmt.add; rw [if_pos (.inl hn)]; exact env.isNaN _ _
  · unfold Fmt.add; rw [if_pos (.inr hn)]; exact env.isNaN _ _
  · unfold Fmt.unordered; exact decide_eq_true (.inl hv)
  · have hni := (Rounding.inf_facts hf hi).1
    unfold Fmt.div; rw [if_neg (fun h => h.elim hni hni), if_pos hi, if_pos hi]; exact env.isNaN _ _
  · have h0 := num_zero hf hz
    unfold Fmt.div; rw [if_neg (fun h => h.elim a a), if_neg b, if_neg b, if_pos h0, if_pos h0]; exact env.isNaN _ _

/-- C67. Infinity: what `__has_iec559_behavior<__infinity, T>` promises (numeric_traits.h:507-512). -/
theorem C67_iec559_inf (env : f.Env) (hf : f.Ok) (hw : f.mbits < f.bias) (x : f.Bits) (hx : f.isFinite x) :
    f.isInf (infBits f) ∧ f.isInf (Fmt.add env (infBits f) x) ∧ f.isInf (Fmt.add env x (infBits f)) ∧
      f.isInf (Fmt.div env (Fmt.ofInt env 1) (Fmt.ofInt env 0)) := by
  have hi := infBits_isInf hf
  have hni := (Rounding.inf_facts hf hi).1
  obtain ⟨a, b⟩ := finite_not hf hx
  refine ⟨hi, ?_, ?_, ?_⟩
  · unfold Fmt.add; rw [if_neg (fun h => h.elim hni a), if_pos hi, if_neg (fun h => b h.1)]; exact hi
  · unfold Fmt.add; rw [if_neg (fun h => h.elim a hni), if_neg b, if_pos hi]; exact hi
  · have hz := Rounding.zero_num env hf hw
    have ho := Rounding.one_num env hf hw
    obtain ⟨a, b⟩ := finite_not hf hz.1
    obtain ⟨c, d⟩ := finite_not hf ho.1
    have h1 : ¬ f.isZero (Fmt.ofInt env 1) := fun h => by
      have e := ho.2
      rw [ratValue_mag, (isZero_iff _).1 h] at e
      simp [unit] at e
    unfold Fmt.div
    rw [if_neg (fun h => h.elim c a), if_neg d, if_neg b, if_pos (num_zero hf hz), if_neg h1, isInf_iff, infMag_eq, mag_ofMag _ (inf_lt hf).1]

/-- C67. `__value_or<__infinity, T>(__finite_max_v<T>)` of a floating-point type, which has an infinity: no value of the type other than NaN is greater. -/
theorem C67_value_or_float (hf : f.Ok) (d x : f.Bits) (hx : ¬ f.isNaN x) : f.le x (valueOr (some (infBits f)) d) = true := by
  have hi := infBits_isInf hf
  have hni := (Rounding.inf_facts hf hi).1
  have hs : f.sign (infBits f) = false := (Math.mag_inf hf).2
  have hv : f.value (infBits f) = some ((⊤ : WithTop ℚ) : WithBot (WithTop ℚ)) := by
    unfold Fmt.value; rw [if_neg hni, if_pos hi, hs]; rfl
  show f.le x (infBits f) = true
  unfold Fmt.le Fmt.quiet
  rw [hv]
  have : f.value x ≠ none := by unfold Fmt.value; rw [if_neg hx]; split <;> simp
  obtain ⟨a, ha⟩ := Option.ne_none_iff_exists'.1 this
  rw [ha]
  simp only [decide_eq_true_eq]
  exact le_top

/-- C67. The same of an integer type, which has no infinity: the greatest value. -/
theorem C67_value_or_int (signed : Bool) (w : Nat) (h : 2 ≤ w) : ∃ hi, finiteMax signed w = some hi ∧
    IsGreatest {n | IntValue signed w n} (valueOr (α := Int) none hi) := by
  obtain ⟨_, hi, _, h2, _, h4⟩ := C67_integer_limits signed w h
  exact ⟨hi, h2, h4⟩

/-- `float` and `int`. -/
example : (Fmt.Ok ⟨8, 23⟩) ∧ ¬ Fmt.isNaN ⟨8, 23⟩ 0x7F7FFFFF#32 ∧ 2 ≤ 32 ∧ finiteMax true 32 = some 2147483647 := by
  refine ⟨⟨by decide, by decide⟩, by decide +kernel, by decide, by decide⟩

end StdSimd.Props
