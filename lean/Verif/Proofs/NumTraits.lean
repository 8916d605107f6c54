import Verif.Model.NumTraits
import Verif.Proofs.Rounding
import Verif.Proofs.Ldexp
import Verif.Proofs.Hypot
import Mathlib.Tactic.Linarith
/-!
# Proofs: numeric traits
-/
namespace StdSimd.NumTraits
open Spec FloatBits
open Rounding (ofInt_num)

variable {f : Fmt}

/-- Rounding does not pass a number of the format. -/
theorem roundTo_le_rep (m : RMode) {q v : ℚ} (hv : Rep f v) (h0 : 0 < q) (h : q ≤ v) : f.roundTo m q ≤ v := by
  have hv0 : 0 < v := lt_of_lt_of_le h0 h
  obtain ⟨n, e1, -, -⟩ := hv.significand hv0.ne'
  have hle : f.qexp q ≤ f.qexp v := by
    unfold Fmt.qexp
    have : Int.log 2 |q| ≤ Int.log 2 |v| := by
      rw [abs_of_pos h0, abs_of_pos hv0]
      exact Int.log_mono_right h0 h
    omega
  obtain ⟨j, hj⟩ := Int.eq_ofNat_of_zero_le (sub_nonneg.2 hle)
  have e2 : v = ((n * 2 ^ j : ℤ) : ℚ) * 2 ^ f.qexp q := by
    rw [e1]
    push_cast
    rw [mul_assoc, ← zpow_natCast (2 : ℚ) j, ← zpow_add₀ (by norm_num), show (j : ℤ) + f.qexp q = f.qexp v by omega]
  have hp : (0 : ℚ) < 2 ^ f.qexp q := by positivity
  unfold Fmt.roundTo
  rw [e2]
  apply mul_le_mul_of_nonneg_right _ hp.le
  have h1 : q / 2 ^ f.qexp q ≤ ((n * 2 ^ j : ℤ) : ℚ) := by
    rw [div_le_iff₀ hp, ← e2]; exact h
  have := toInt_mono m h1
  rw [toInt_int] at this
  exact_mod_cast this

theorem qexp_tiny {q : ℚ} (h0 : q ≠ 0) (h : |q| < 2 ^ (f.emin + f.mbits + 1)) : f.qexp q = f.emin := by
  unfold Fmt.qexp
  have h1 := (abs_zpow_log h0).1
  have h2 := (zpow_lt_zpow_iff_right₀ (by norm_num : (1:ℚ) < 2)).1 (lt_of_le_of_lt h1 h)
  exact max_eq_right (by omega)

/-- Rounding of a number below the precision of the smallest numbers. -/
theorem roundTo_tiny (m : RMode) {t : ℚ} (h : |t| < 2 ^ (f.mbits + 1)) (h0 : t ≠ 0) : f.roundTo m (t * 2 ^ f.emin) = m.toInt t * 2 ^ f.emin := by
  have hp : (0 : ℚ) < 2 ^ f.emin := by positivity
  have hq : f.qexp (t * 2 ^ f.emin) = f.emin := by
    have h1 : |t * 2 ^ f.emin| < 2 ^ (f.emin + f.mbits + 1) := by
      rw [abs_mul, abs_of_pos hp, show f.emin + f.mbits + 1 = ((f.mbits + 1 : ℕ) : ℤ) + f.emin by push_cast; ring, zpow_add₀ (by norm_num), zpow_natCast]
      exact mul_lt_mul_of_pos_right h hp
    exact qexp_tiny (mul_ne_zero h0 hp.ne') h1
  unfold Fmt.roundTo
  rw [hq, mul_div_assoc, div_self hp.ne', mul_one]

/-- `x` is the number `k` units above zero. -/
structure Units (f : Fmt) (x : f.Bits) (k : Nat) : Prop where
  finite : f.isFinite x
  value : f.ratValue x = k * 2 ^ f.emin

/-- `__FLT_MAX__`. -/
theorem max_num (hf : f.Ok) : f.isFinite (maxBits f) ∧ f.ratValue (maxBits f) = (2 ^ (f.mbits + 1) - 1) * 2 ^ ((f.bias : ℤ) - f.mbits) := by
  obtain ⟨h1, h2⟩ := bias_eq hf
  have hl := inf_lt hf
  have hm := Nat.two_pow_pos f.mbits
  have hp : 2 ^ (f.mbits + 1) = 2 * 2 ^ f.mbits := by rw [Nat.pow_succ]; ring
  have e : (2 ^ f.ebits - 2) * 2 ^ f.mbits + (2 ^ f.mbits - 1) = (2 * f.bias - 1) * 2 ^ f.mbits + (2 ^ (f.mbits + 1) - 1) := by
    rw [h1, show 2 * f.bias + 2 - 2 = (2 * f.bias - 1) + 1 by omega, Nat.add_mul, hp]; omega
  have e2 : (2 * f.bias - 1) * 2 ^ f.mbits + (2 ^ (f.mbits + 1) - 1) = inf f - 1 := by
    unfold inf
    rw [h1, show 2 * f.bias + 2 - 1 = (2 * f.bias - 1) + 2 by omega, Nat.add_mul, hp]; omega
  have hb : (maxBits f).toNat = inf f - 1 := by
    unfold maxBits
    rw [e, e2]
    exact (const_toInt (f := f) (by omega)).1
  have hmag : mag f (maxBits f) = inf f - 1 := by
    unfold mag
    rw [hb]
    exact Nat.mod_eq_of_lt (by omega)
  have hs : f.sign (maxBits f) = false := by
    unfold Fmt.sign
    rw [← BitVec.testBit_toNat, hb]
    exact Nat.testBit_lt_two_pow (by omega)
  refine ⟨by rw [isFinite_iff, hmag]; omega, ?_⟩
  rw [ratValue_mag, hs, hmag, ← e2, unit_of_parts (by omega) (Or.inr (by omega))]
  unfold quantum
  rw [if_neg (by simp), one_mul]
  push_cast [Nat.one_le_two_pow]
  rw [mul_assoc, ← zpow_natCast (2 : ℚ) (2 * f.bias - 1), ← zpow_add₀ (by norm_num : (2 : ℚ) ≠ 0)]
  congr 2
  rw [Nat.cast_sub (by omega)]
  push_cast; ring

theorem div_num (env : f.Env) (hf : f.Ok) {x y : f.Bits} (hx : f.isFinite x) (hy : f.isFinite y) (h0 : f.ratValue y ≠ 0)
    (h : |f.roundTo env.mode (f.ratValue x / f.ratValue y)| < 2 ^ (f.bias + 1)) :
    f.isFinite (Fmt.div env x y) ∧ f.ratValue (Fmt.div env x y) = f.roundTo env.mode (f.ratValue x / f.ratValue y) := by
  obtain ⟨a, b⟩ := finite_not hf hx
  obtain ⟨c, d⟩ := finite_not hf hy
  have hz : ¬ f.isZero y := fun hz => h0 (by rw [ratValue_mag, (isZero_iff _).1 hz]; simp [unit])
  unfold Fmt.div
  rw [if_neg (fun h => h.elim a c), if_neg b, if_neg d, if_neg hz]
  have := round_spec hf env.mode (f.sign x ^^ f.sign y) h
  exact ⟨this.1, this.2⟩

theorem units_lt (hf : f.Ok) {k : Nat} (h : k ≤ 2 ^ (f.mbits + 1)) : |(k : ℚ) * 2 ^ f.emin| < 2 ^ (f.bias + 1) := by
  have hp : (0 : ℚ) < 2 ^ f.emin := by positivity
  rw [abs_of_nonneg (by positivity)]
  have h1 : (k : ℚ) ≤ 2 ^ (f.mbits + 1) := by exact_mod_cast h
  calc (k : ℚ) * 2 ^ f.emin ≤ 2 ^ (f.mbits + 1) * 2 ^ f.emin := mul_le_mul_of_nonneg_right h1 hp.le
    _ = 2 ^ (((f.mbits + 1 : ℕ) : ℤ) + f.emin) := by rw [zpow_add₀ (by norm_num), zpow_natCast]
    _ < 2 ^ (((f.bias + 1 : ℕ) : ℤ)) := zpow_lt_zpow_right₀ (by norm_num) (by unfold Fmt.emin; push_cast; have := (bias_eq hf).2; omega)
    _ = 2 ^ (f.bias + 1) := zpow_natCast _ _

/-- `(__ok + __overflows) / 2`. -/
theorem mid_units (env : f.Env) (hf : f.Ok) (hw : f.mbits < f.bias) {x y : f.Bits} {a b : Nat} (hx : Units f x a) (hy : Units f y b) (h0 : 0 < a)
    (ha : a < 2 ^ f.mbits) (hb : b < 2 ^ f.mbits) :
    ∃ k, Units f (Fmt.div env (Fmt.add env x y) (Fmt.ofInt env 2)) k ∧ (a + b) / 2 ≤ k ∧ k ≤ (a + b + 1) / 2 := by
  have hpp : 2 ^ (f.mbits + 1) = 2 * 2 ^ f.mbits := by rw [Nat.pow_succ]; ring
  have htwo := ofInt_num env hf hw (n := 2) (by
    have : (2 : ℤ) ^ 1 ≤ 2 ^ (f.mbits + 1) := pow_le_pow_right₀ (by norm_num) (by omega)
    simpa using this)
  have hsum : f.isFinite (Fmt.add env x y) ∧ f.ratValue (Fmt.add env x y) = ((a + b : ℕ) : ℚ) * 2 ^ f.emin := by
    rw [add_finite env hf hx.1 hy.1, hx.2, hy.2, ← add_mul, ← Nat.cast_add]
    have := round_exact hf env.mode (if f.sign x = f.sign y then f.sign x else decide (env.mode = .down)) (Hypot.rep_le (f := f) (n := a + b) (e := f.emin) (by omega) (le_refl _))
      (units_lt hf (by omega))
    exact ⟨this.1, this.2⟩
  set t : ℚ := ((a + b : ℕ) : ℚ) / 2 with ht
  have ht0 : 0 < t := by rw [ht]; have : (0 : ℚ) < ((a + b : ℕ) : ℚ) := Nat.cast_pos.2 (by omega); positivity
  have htl : |t| < 2 ^ (f.mbits + 1) := by
    rw [abs_of_pos ht0, ht, div_lt_iff₀ (by norm_num)]
    exact_mod_cast (by omega : a + b < 2 ^ (f.mbits + 1) * 2)
  have hq : f.ratValue (Fmt.add env x y) / f.ratValue (Fmt.ofInt env 2) = t * 2 ^ f.emin := by
    rw [hsum.2, htwo.2, ht]; push_cast; ring
  have hr := roundTo_tiny (f := f) env.mode htl ht0.ne'
  have hbd := toInt_bounds env.mode t
  have hfl : ⌊t⌋ = (((a + b) / 2 : ℕ) : ℤ) := by
    rw [Int.floor_eq_iff, ht, le_div_iff₀ (by norm_num), div_lt_iff₀ (by norm_num)]
    have h1 : (a + b) / 2 * 2 ≤ a + b := by omega
    have h2 : a + b < ((a + b) / 2 + 1) * 2 := by omega
    exact ⟨by exact_mod_cast h1, by exact_mod_cast h2⟩
  have hce : ⌈t⌉ ≤ (((a + b + 1) / 2 : ℕ) : ℤ) := by
    rw [Int.ceil_le, ht, div_le_iff₀ (by norm_num)]
    have : a + b ≤ (a + b + 1) / 2 * 2 := by omega
    exact_mod_cast this
  rw [hfl] at hbd
  obtain ⟨k, hk⟩ : ∃ k : ℕ, env.mode.toInt t = k := Int.eq_ofNat_of_zero_le (by omega)
  rw [hk] at hbd hr
  have hkn : (a + b) / 2 ≤ k ∧ k ≤ (a + b + 1) / 2 := by omega
  refine ⟨k, ?_, hkn⟩
  have := div_num env hf hsum.1 htwo.1 (by rw [htwo.2]; norm_num) (by
    rw [hq, hr]
    exact_mod_cast units_lt hf (k := k) (by omega))
  rw [hq, hr] at this
  exact ⟨this.1, by rw [this.2]; simp⟩

theorem rep_max (hf : f.Ok) : Rep f ((2 ^ (f.mbits + 1) - 1) * 2 ^ ((f.bias : ℤ) - f.mbits)) := by
  have := rep_ratValue hf (maxBits f)
  rwa [(max_num hf).2] at this

theorem rep_half_max (hf : f.Ok) : Rep f ((2 ^ (f.mbits + 1) - 1) * 2 ^ ((f.bias : ℤ) - f.mbits - 1)) := by
  refine ⟨2 ^ (f.mbits + 1) - 1, (f.bias : ℤ) - f.mbits - 1, ?_, ?_, by push_cast; ring⟩
  · have := Rounding.one_le_pow (f.mbits + 1)
    rw [abs_of_nonneg (by omega)]; omega
  · unfold Fmt.emin; have := (bias_eq hf).2; omega

/-- The reciprocal of `k` units, scaled by a power of two: above the largest number exactly if `k` is at most `2 ^ (mbits - 2)`. -/
theorem recip_le (hm : 3 ≤ f.mbits) {k : Nat} {j : ℤ} (hk : 2 ^ (f.mbits - 2) < k) :
    1 / ((k : ℚ) * 2 ^ (f.emin + j)) ≤ (2 ^ (f.mbits + 1) - 1) * 2 ^ ((f.bias : ℤ) - f.mbits - j) := by
  have hk0 : (0 : ℚ) < k := Nat.cast_pos.2 (Nat.lt_of_le_of_lt (Nat.zero_le _) hk)
  rw [div_le_iff₀ (by positivity)]
  obtain ⟨n, hn⟩ : ∃ n, f.mbits = n + 2 := ⟨f.mbits - 2, by omega⟩
  have hk1 : (2 : ℚ) ^ n + 1 ≤ k := by
    rw [hn, Nat.add_sub_cancel] at hk
    exact_mod_cast hk
  have e : (2 : ℚ) ^ ((f.bias : ℤ) - f.mbits - j) * 2 ^ (f.emin + j) = 1 / (8 * (2 ^ n * 2 ^ n)) := by
    rw [← zpow_add₀ (by norm_num), show (f.bias : ℤ) - f.mbits - j + (f.emin + j) = -((2 * n + 3 : ℕ) : ℤ) by unfold Fmt.emin; push_cast; omega, zpow_neg, zpow_natCast,
      one_div]
    congr 1
    rw [pow_add, pow_mul', sq]; ring
  have hp : (1 : ℚ) ≤ 2 ^ n := one_le_pow₀ (by norm_num)
  calc (1 : ℚ) = 8 * (2 ^ n * 2 ^ n) * (1 / (8 * (2 ^ n * 2 ^ n))) := by field_simp
    _ ≤ ((2 ^ (f.mbits + 1) - 1) * k) * (1 / (8 * (2 ^ n * 2 ^ n))) := by
        apply mul_le_mul_of_nonneg_right _ (by positivity)
        rw [hn, show n + 2 + 1 = n + 3 by omega, pow_add]
        nlinarith
    _ = _ := by rw [← e]; ring

theorem recip_ge {k : Nat} {j : ℤ} (h0 : 0 < k) (hm : 2 ≤ f.mbits) (hk : k ≤ 2 ^ (f.mbits - 2)) : (2 : ℚ) ^ ((f.bias : ℤ) + 1 - j) ≤ 1 / ((k : ℚ) * 2 ^ (f.emin + j)) := by
  have hk' : (k : ℚ) ≤ 2 ^ (f.mbits - 2) := by exact_mod_cast hk
  have hk0 : (0 : ℚ) < k := by exact_mod_cast h0
  rw [le_div_iff₀ (by positivity)]
  calc (2 : ℚ) ^ ((f.bias : ℤ) + 1 - j) * (k * 2 ^ (f.emin + j)) ≤ 2 ^ ((f.bias : ℤ) + 1 - j) * (2 ^ (f.mbits - 2) * 2 ^ (f.emin + j)) := by
        apply mul_le_mul_of_nonneg_left _ (by positivity)
        exact mul_le_mul_of_nonneg_right hk' (by positivity)
    _ = 1 := by
        rw [← zpow_natCast (2 : ℚ) (f.mbits - 2), ← zpow_add₀ (by norm_num), ← zpow_add₀ (by norm_num)]
        have : (f.bias : ℤ) + 1 - j + (((f.mbits - 2 : ℕ) : ℤ) + (f.emin + j)) = 0 := by unfold Fmt.emin; omega
        rw [this, zpow_zero]

theorem max_lt : ((2 : ℚ) ^ (f.mbits + 1) - 1) * 2 ^ ((f.bias : ℤ) - f.mbits) < 2 ^ (f.bias + 1) := by
  have h : (2 : ℚ) ^ (f.bias + 1) = 2 ^ (f.mbits + 1) * 2 ^ ((f.bias : ℤ) - f.mbits) := by
    rw [← zpow_natCast (2 : ℚ) (f.bias + 1), ← zpow_natCast (2 : ℚ) (f.mbits + 1), ← zpow_add₀ (by norm_num)]
    congr 1; push_cast; ring
  rw [h]
  exact mul_lt_mul_of_pos_right (by linarith) (by positivity)

theorem half_max_lt : ((2 : ℚ) ^ (f.mbits + 1) - 1) * 2 ^ ((f.bias : ℤ) - f.mbits - 1) < 2 ^ (f.bias : ℤ) := by
  have h : (2 : ℚ) ^ (f.bias : ℤ) = 2 ^ (f.mbits + 1) * 2 ^ ((f.bias : ℤ) - f.mbits - 1) := by
    rw [← zpow_natCast (2 : ℚ) (f.mbits + 1), ← zpow_add₀ (by norm_num)]
    congr 1; push_cast; ring
  rw [h]
  exact mul_lt_mul_of_pos_right (by linarith) (by positivity)

/-- The test of the search. -/
theorem test_eq (env : f.Env) (hf : f.Ok) (hw : f.mbits < f.bias) (hm : 3 ≤ f.mbits) {x : f.Bits} {k : Nat} (hx : Units f x k)
    (h1 : 2 ^ (f.mbits - 2) < 2 * k) (h2 : k < 2 ^ f.mbits) :
    f.le (Fmt.div env (Fmt.ofInt env 1) (Fmt.mul env (Fmt.ofInt env 2) x)) (Fmt.div env (maxBits f) (Fmt.ofInt env 2)) = decide (2 ^ (f.mbits - 2) < k) := by
  have hpp : 2 ^ (f.mbits + 1) = 2 * 2 ^ f.mbits := by rw [Nat.pow_succ]; ring
  have hbig : (2 : ℤ) ^ 1 ≤ 2 ^ (f.mbits + 1) := pow_le_pow_right₀ (by norm_num) (by omega)
  have htwo := ofInt_num env hf hw (n := 2) (by simpa using hbig)
  have hone := ofInt_num env hf hw (n := 1) (by rw [abs_one]; omega)
  have hk0 : 0 < k := by
    have := Nat.two_pow_pos (f.mbits - 2)
    omega
  have hkq : (0 : ℚ) < k := Nat.cast_pos.2 hk0
  have hmul : f.isFinite (Fmt.mul env (Fmt.ofInt env 2) x) ∧ f.ratValue (Fmt.mul env (Fmt.ofInt env 2) x) = ((2 * k : ℕ) : ℚ) * 2 ^ f.emin := by
    rw [Hypot.mul_fin env hf htwo ⟨hx.1, hx.2, rfl⟩]
    have e : ((2 : ℤ) : ℚ) * (k * 2 ^ f.emin) = ((2 * k : ℕ) : ℚ) * 2 ^ f.emin := by push_cast; ring
    rw [e]
    have := round_exact hf env.mode (decide ((2 : ℤ) < 0) ^^ f.sign x) (Hypot.rep_le (f := f) (n := 2 * k) (e := f.emin) (by omega) (le_refl _)) (units_lt hf (by omega))
    exact ⟨this.1, this.2⟩
  have hmax := max_num hf
  have eh : f.ratValue (maxBits f) / f.ratValue (Fmt.ofInt env 2) = (2 ^ (f.mbits + 1) - 1) * 2 ^ ((f.bias : ℤ) - f.mbits - 1) := by
    rw [hmax.2, htwo.2, zpow_sub_one₀ (by norm_num)]; push_cast; ring
  have hhalf := div_num env hf hmax.1 htwo.1 (by rw [htwo.2]; norm_num) (by
    rw [eh, roundTo_rep _ (rep_half_max hf), abs_of_nonneg (mul_nonneg (by linarith [one_le_pow₀ (M₀ := ℚ) (a := 2) (n := f.mbits + 1) (by norm_num)]) (by positivity))]
    refine half_max_lt.trans ?_
    rw [zpow_natCast]
    exact pow_lt_pow_right₀ (by norm_num) (by omega))
  rw [eh, roundTo_rep _ (rep_half_max hf)] at hhalf
  have er : f.ratValue (Fmt.ofInt env 1) / f.ratValue (Fmt.mul env (Fmt.ofInt env 2) x) = 1 / (((2 * k : ℕ) : ℚ) * 2 ^ f.emin) := by rw [hmul.2, hone.2]; simp
  have er2 : 1 / (((2 * k : ℕ) : ℚ) * 2 ^ f.emin) = 1 / ((k : ℚ) * 2 ^ (f.emin + 1)) := by
    rw [zpow_add_one₀ (by norm_num)]; push_cast; congr 1; ring
  have hq0 : (0 : ℚ) < 1 / (((2 * k : ℕ) : ℚ) * 2 ^ f.emin) := by
    have : (0 : ℚ) < ((2 * k : ℕ) : ℚ) := Nat.cast_pos.2 (by omega)
    positivity
  have hmx := recip_le (f := f) hm (k := 2 * k) (j := 0) h1
  rw [add_zero, sub_zero] at hmx
  have hr0 := (roundTo_sign (f := f) env.mode).1 hq0.le
  have hrm := roundTo_le_rep env.mode (rep_max hf) hq0 hmx
  have hdiv := div_num env hf hone.1 hmul.1 (by
      rw [hmul.2]
      have : (0 : ℚ) < ((2 * k : ℕ) : ℚ) := Nat.cast_pos.2 (by omega)
      positivity) (by
    rw [er, abs_of_nonneg hr0]
    exact lt_of_le_of_lt hrm max_lt)
  rw [er] at hdiv
  rw [le_finite hf hdiv.1 hhalf.1, hdiv.2, hhalf.2]
  congr 1
  apply propext
  constructor
  · intro h
    by_contra hc
    have hg := recip_ge (f := f) (j := 1) hk0 (by omega) (not_lt.1 hc)
    rw [← er2, show (f.bias : ℤ) + 1 - 1 = f.bias by ring] at hg
    have := Ldexp.roundTo_ge (f := f) env.mode (k := f.bias) (by unfold Fmt.emin; have := (bias_eq hf).2; omega) (by rw [abs_of_pos hq0]; exact hg)
    rw [abs_of_nonneg hr0] at this
    exact absurd (this.trans h) (not_le.2 half_max_lt)
  · intro h
    have hl := recip_le (f := f) hm (k := k) (j := 1) h
    rw [← er2] at hl
    exact roundTo_le_rep env.mode (rep_half_max hf) hq0 hl

/-- The search ends, with the smallest number of units that does not overflow. -/
theorem search_units (env : f.Env) (hf : f.Ok) (hw : f.mbits < f.bias) (hm : 3 ≤ f.mbits) (fuel : Nat) :
    ∀ (x y : f.Bits) (a b : Nat), Units f x a → Units f y b → 2 ^ (f.mbits - 2) < 2 * b → b ≤ 2 ^ (f.mbits - 2) → 2 ^ (f.mbits - 2) < a → a < 2 ^ f.mbits →
      a - b ≤ 2 ^ fuel → ∃ r, search env (fuel + 1) x y = some r ∧ Units f r (2 ^ (f.mbits - 2) + 1) := by
  have hpm : 2 ^ f.mbits = 4 * 2 ^ (f.mbits - 2) := by
    obtain ⟨n, hn⟩ : ∃ n, f.mbits = n + 2 := ⟨f.mbits - 2, by omega⟩
    rw [hn, Nat.add_sub_cancel, Nat.pow_add]; ring
  have hpos := Nat.two_pow_pos (f.mbits - 2)
  induction fuel with
  | zero =>
    intro x y a b hx hy h1 h2 h3 h4 h5
    obtain ⟨k, hk, k1, k2⟩ := mid_units env hf hw hx hy (by omega) h4 (by omega)
    refine ⟨x, ?_, ?_⟩
    · unfold search
      dsimp only
      rw [if_pos]
      rw [Bool.or_eq_true, eq_finite hf hk.1 hx.1, eq_finite hf hk.1 hy.1, hk.2, hx.2, hy.2]
      have : k = a ∨ k = b := by omega
      rcases this with rfl | rfl
      · left; simp
      · right; simp
    · have : a = 2 ^ (f.mbits - 2) + 1 := by rw [pow_zero] at h5; omega
      rwa [← this]
  | succ fuel ih =>
    intro x y a b hx hy h1 h2 h3 h4 h5
    obtain ⟨k, hk, k1, k2⟩ := mid_units env hf hw hx hy (by omega) h4 (by omega)
    rw [Nat.pow_succ] at h5
    have hp : (2 : ℚ) ^ f.emin ≠ 0 := by positivity
    have ex : f.eq (Fmt.div env (Fmt.add env x y) (Fmt.ofInt env 2)) x = decide (k = a) := by
      rw [eq_finite hf hk.1 hx.1, hk.2, hx.2]; simp [hp]
    have ey : f.eq (Fmt.div env (Fmt.add env x y) (Fmt.ofInt env 2)) y = decide (k = b) := by
      rw [eq_finite hf hk.1 hy.1, hk.2, hy.2]; simp [hp]
    unfold search
    dsimp only
    rw [ex, ey]
    by_cases hc : k = a ∨ k = b
    · rw [if_pos (by simpa using hc)]
      refine ⟨x, rfl, ?_⟩
      have : a = 2 ^ (f.mbits - 2) + 1 := by omega
      rwa [← this]
    · rw [if_neg (by simpa using hc), test_eq env hf hw hm hk (by omega) (by omega)]
      by_cases ht : 2 ^ (f.mbits - 2) < k
      · rw [if_pos (by simpa using ht)]
        exact ih _ y k b hk hy h1 h2 ht (by omega) (by omega)
      · rw [if_neg (by simpa using ht)]
        exact ih x _ a k hx hk (by omega) (by omega) h3 h4 (by omega)

theorem round_small_err (m : RMode) (hw : f.mbits < f.bias) (hm : 10 ≤ f.mbits) {q : ℚ} (h0 : 0 < q) (h2 : q < 102 / 100) : |f.roundTo m q - q| ≤ 1 / 990 := by
  have h := Hypot.round_err (f := f) m q
  have hp : (2 : ℚ) ^ 10 ≤ 2 ^ f.mbits := pow_le_pow_right₀ (by norm_num) hm
  have hu : f.unitRoundoff m ≤ 1 / 1024 := by
    unfold Fmt.unitRoundoff
    rw [div_le_div_iff₀ (by positivity) (by norm_num)]
    split <;> linarith
  have he : (2 : ℚ) ^ f.emin ≤ 1 / 2 ^ 20 := by
    rw [one_div, ← zpow_natCast, ← zpow_neg]
    exact zpow_le_zpow_right₀ (by norm_num) (by unfold Fmt.emin; push_cast; omega)
  have h3 : f.unitRoundoff m * |q| ≤ 1 / 1024 * (102 / 100) := by
    rw [abs_of_pos h0]
    exact mul_le_mul hu h2.le h0.le (by norm_num)
  refine h.trans ?_
  norm_num at *
  linarith

/-- `_Tp(1.01)`, `_Tp(0.99)`. -/
theorem fromDouble_num (env : f.Env) (hf : f.Ok) (hw : f.mbits < f.bias) (hm : 10 ≤ f.mbits) {q : ℚ} (h1 : 98 / 100 ≤ q) (h2 : q ≤ 1015 / 1000) :
    f.isFinite (fromDouble env q) ∧ |f.ratValue (fromDouble env q) - q| ≤ 1 / 490 := by
  have a := round_small_err (f := ⟨11, 52⟩) .nearest (by decide) (by decide) (q := q) (by linarith) (by linarith)
  rw [abs_le] at a
  have b := round_small_err (f := f) env.mode hw hm (q := Fmt.roundTo ⟨11, 52⟩ .nearest q) (by linarith) (by linarith)
  have hb := abs_le.1 b
  have hp : (2 : ℚ) ^ 1 ≤ 2 ^ (f.bias + 1) := pow_le_pow_right₀ (by norm_num) (by omega)
  have := round_spec hf env.mode false (q := Fmt.roundTo ⟨11, 52⟩ .nearest q) (by rw [abs_lt]; constructor <;> linarith)
  refine ⟨this.1, ?_⟩
  show |f.ratValue (f.round env.mode false _) - q| ≤ _
  rw [this.2, abs_le]
  constructor <;> linarith

/-- A number near one divided by the largest number. -/
theorem start_units (env : f.Env) (hf : f.Ok) (hw : f.mbits < f.bias) (hm : 10 ≤ f.mbits) {x : f.Bits} (hx : f.isFinite x) {l u : ℚ} (h0 : 1 / 2 ≤ l) (hl : l ≤ f.ratValue x)
    (hu : f.ratValue x ≤ u) (h1 : u ≤ 2) :
    ∃ k, Units f (Fmt.div env x (maxBits f)) k ∧ l * 2 ^ (f.mbits - 2) - 1 < (k : ℚ) ∧ (k : ℚ) < u * (1001 / 1000) * 2 ^ (f.mbits - 2) + 1 := by
  set c := f.ratValue x with hc
  set N : ℚ := 2 ^ (f.mbits - 2) with hN
  have hN1 : (256 : ℚ) ≤ N := by
    have : (2 : ℚ) ^ 8 ≤ 2 ^ (f.mbits - 2) := pow_le_pow_right₀ (by norm_num) (by omega)
    rw [hN]; norm_num at this ⊢; exact this
  have e8 : (2 : ℚ) ^ (f.mbits + 1) = 8 * N := by
    obtain ⟨n, hn⟩ : ∃ n, f.mbits = n + 2 := ⟨f.mbits - 2, by omega⟩
    rw [hN, hn, Nat.add_sub_cancel, show n + 2 + 1 = n + 3 by omega, pow_add]; ring
  have hmax := max_num hf
  rw [e8] at hmax
  have hd : (0 : ℚ) < 8 * N - 1 := by linarith
  have hc0 : 0 < c := by linarith
  set t := c * (8 * N ^ 2) / (8 * N - 1) with ht
  have hpw : 8 * N ^ 2 * 2 ^ f.emin = 1 / 2 ^ ((f.bias : ℤ) - f.mbits) := by
    rw [one_div, ← zpow_neg, show (8 : ℚ) = 2 ^ (3 : ℤ) by norm_num, hN, ← zpow_natCast (2 : ℚ) (f.mbits - 2), ← zpow_natCast _ 2, ← zpow_mul, ← zpow_add₀ (by norm_num),
      ← zpow_add₀ (by norm_num)]
    congr 1
    unfold Fmt.emin
    push_cast [show 2 ≤ f.mbits by omega]
    ring
  have hq : c / f.ratValue (maxBits f) = t * 2 ^ f.emin := by
    rw [hmax.2, ht]
    have hz : (2 : ℚ) ^ ((f.bias : ℤ) - f.mbits) ≠ 0 := by positivity
    have : c * (8 * N ^ 2) / (8 * N - 1) * 2 ^ f.emin = c * (8 * N ^ 2 * 2 ^ f.emin) / (8 * N - 1) := by ring
    rw [this, hpw]
    field_simp
  have t1 : c * N ≤ t := by
    rw [ht, le_div_iff₀ hd]
    have : 0 < c * N := by positivity
    nlinarith
  have t2 : t ≤ c * (1001 / 1000) * N := by
    rw [ht, div_le_iff₀ hd]
    have h3 : 8 * N ^ 2 ≤ 1001 / 1000 * N * (8 * N - 1) := by nlinarith
    calc c * (8 * N ^ 2) ≤ c * (1001 / 1000 * N * (8 * N - 1)) := mul_le_mul_of_nonneg_left h3 hc0.le
      _ = _ := by ring
  have t0 : 0 < t := lt_of_lt_of_le (by positivity) t1
  have tu : t ≤ u * (1001 / 1000) * N := t2.trans (mul_le_mul_of_nonneg_right (mul_le_mul_of_nonneg_right hu (by norm_num)) (by linarith))
  have tl : l * N ≤ t := (mul_le_mul_of_nonneg_right hl (by linarith)).trans t1
  have t8 : t ≤ 3 * N := by nlinarith
  have hr := roundTo_tiny (f := f) env.mode (t := t) (by rw [abs_of_pos t0, e8]; linarith) t0.ne'
  obtain ⟨b1, b2⟩ := toInt_bounds env.mode t
  have f1 := Int.lt_floor_add_one t
  have f2 := Int.ceil_lt_add_one t
  have c1 : (⌊t⌋ : ℚ) ≤ env.mode.toInt t := by exact_mod_cast b1
  have c2 : (env.mode.toInt t : ℚ) ≤ ⌈t⌉ := by exact_mod_cast b2
  obtain ⟨k, hk⟩ : ∃ k : ℕ, env.mode.toInt t = k := Int.eq_ofNat_of_zero_le ((toInt_sign env.mode).1 t0.le)
  rw [hk] at c1 c2 hr
  push_cast at c1 c2 hr
  have kb : k ≤ 2 ^ (f.mbits + 1) := by
    have : (k : ℚ) ≤ 2 ^ (f.mbits + 1) := by rw [e8]; linarith
    exact_mod_cast this
  have hz : f.ratValue (maxBits f) ≠ 0 := by
    rw [hmax.2]; positivity
  have := div_num env hf hx (by exact hmax.1) hz (by rw [← hc, hq, hr]; exact units_lt hf kb)
  rw [← hc, hq, hr] at this
  exact ⟨k, ⟨this.1, this.2⟩, by linarith, by linarith⟩

/-- The value of the trait. -/
theorem threshold_units (env : f.Env) (hf : f.Ok) (hw : f.mbits < f.bias) (hm : 10 ≤ f.mbits) {fuel : Nat} (hfu : f.mbits ≤ fuel + 5) :
    ∃ x, reciprocalOverflowThreshold env fuel = some x ∧ Units f x (2 ^ (f.mbits - 2) + 1) := by
  obtain ⟨x1, x2⟩ := fromDouble_num env hf hw hm (q := 101 / 100) (by norm_num) (by norm_num)
  obtain ⟨y1, y2⟩ := fromDouble_num env hf hw hm (q := 99 / 100) (by norm_num) (by norm_num)
  rw [abs_le] at x2 y2
  obtain ⟨a, ha, a1, a2⟩ := start_units env hf hw hm x1 (l := 1007 / 1000) (u := 1013 / 1000) (by norm_num) (by linarith) (by linarith) (by norm_num)
  obtain ⟨b, hb, b1, b2⟩ := start_units env hf hw hm y1 (l := 987 / 1000) (u := 993 / 1000) (by norm_num) (by linarith) (by linarith) (by norm_num)
  have hN1 : (256 : ℚ) ≤ 2 ^ (f.mbits - 2) := by
    have : (2 : ℚ) ^ 8 ≤ 2 ^ (f.mbits - 2) := pow_le_pow_right₀ (by norm_num) (by omega)
    norm_num at this ⊢; exact this
  have hpm : 2 ^ f.mbits = 4 * 2 ^ (f.mbits - 2) := by
    obtain ⟨n, hn⟩ : ∃ n, f.mbits = n + 2 := ⟨f.mbits - 2, by omega⟩
    rw [hn, Nat.add_sub_cancel, Nat.pow_add]; ring
  obtain ⟨j, rfl⟩ : ∃ j, fuel = j + 1 := ⟨fuel - 1, by omega⟩
  have hj : 2 ^ (f.mbits - 2) ≤ 16 * 2 ^ j := by
    calc 2 ^ (f.mbits - 2) ≤ 2 ^ (j + 4) := Nat.pow_le_pow_right (by omega) (by omega)
      _ = 16 * 2 ^ j := by rw [Nat.pow_add]; ring
  set M : ℕ := 2 ^ (f.mbits - 2) with hM
  have hMq : ((M : ℕ) : ℚ) = 2 ^ (f.mbits - 2) := by rw [hM]; push_cast; rfl
  rw [← hMq] at a1 a2 b1 b2 hN1
  have g1 : M < 2 * b := by exact_mod_cast (by push_cast; linarith : (M : ℚ) < ((2 * b : ℕ) : ℚ))
  have g2 : b ≤ M := by
    have : (b : ℚ) < ((M + 1 : ℕ) : ℚ) := by push_cast; linarith
    have : b < M + 1 := by exact_mod_cast this
    omega
  have g3 : M < a := by exact_mod_cast (by linarith : (M : ℚ) < a)
  have g4 : a < 2 ^ f.mbits := by
    rw [hpm]; exact_mod_cast (by push_cast; linarith : (a : ℚ) < ((4 * M : ℕ) : ℚ))
  have g5 : 16 * (a - b) ≤ M := by
    have : ((16 * a : ℕ) : ℚ) ≤ ((M + 16 * b : ℕ) : ℚ) := by push_cast; linarith
    have : 16 * a ≤ M + 16 * b := by exact_mod_cast this
    omega
  exact search_units env hf hw (by omega) j _ _ a b ha hb g1 g2 g3 g4 (by omega)

end StdSimd.NumTraits
