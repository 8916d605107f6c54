import Verif.Model.Rounding
import Verif.Proofs.FloatArith
/-!
# Lemmas about the rounding functions
-/
namespace StdSimd.Rounding
open Spec FloatBits

variable {f : Fmt}

/-! ## integers -/

theorem truncZ_abs (v : ℚ) : (truncZ v : ℚ) = (if v < 0 then -1 else 1) * (⌊|v|⌋ : ℚ) := by
  unfold truncZ
  by_cases h : v < 0
  · rw [if_neg (by linarith), if_pos h, abs_of_neg h, Int.floor_neg]; push_cast; ring
  · rw [if_pos (by linarith), if_neg h, abs_of_nonneg (by linarith)]; ring

theorem roundEven_add_even (q : ℚ) (n : ℤ) (h : Even n) : roundEven (q + n) = roundEven q + n := by
  unfold roundEven
  rw [Int.fract_add_intCast, Int.floor_add_intCast]
  simp only [Int.even_add, h, iff_true]
  split_ifs <;> ring

theorem toInt_shift (m : RMode) {v : ℚ} {n : ℤ} (hn : Even n) (h : (0 ≤ v ∧ 0 ≤ n) ∨ (v ≤ 0 ∧ n ≤ 0)) : m.toInt (v + n) = m.toInt v + n := by
  have hn' : (0 ≤ n → (0 : ℚ) ≤ n) ∧ (n ≤ 0 → (n : ℚ) ≤ 0) := ⟨fun h => by exact_mod_cast h, fun h => by exact_mod_cast h⟩
  cases m
  · exact roundEven_add_even v n hn
  · exact Int.floor_add_intCast v n
  · exact Int.ceil_add_intCast v n
  · show truncZ (v + n) = truncZ v + n
    rcases h with ⟨h1, h2⟩ | ⟨h1, h2⟩
    · have := hn'.1 h2
      unfold truncZ
      rw [if_pos (by linarith), if_pos h1, Int.floor_add_intCast]
    · have := hn'.2 h2
      have e : ∀ w : ℚ, w ≤ 0 → truncZ w = ⌈w⌉ := by
        intro w hw
        unfold truncZ
        rcases lt_or_eq_of_le hw with hw | hw
        · rw [if_neg (by linarith)]
        · rw [hw]; simp
      rw [e _ (by linarith), e _ h1, Int.ceil_add_intCast]

theorem even_two_pow {m : Nat} (h : 1 ≤ m) : Even ((2 : ℤ) ^ m) := by
  obtain ⟨k, rfl⟩ := Nat.exists_eq_add_of_le h
  exact ⟨2 ^ k, by rw [pow_add]; ring⟩

theorem roundAway_abs (v : ℚ) : (roundAway v : ℚ) = (if v < 0 then -1 else 1) * (⌊|v| + 1 / 2⌋ : ℚ) := by
  unfold roundAway
  by_cases h : v < 0
  · rw [if_neg (by linarith), if_pos h, abs_of_neg h, show -v + 1 / 2 = -(v - 1 / 2) by ring, Int.floor_neg]; push_cast; ring
  · rw [if_pos (by linarith), if_neg h, abs_of_nonneg (by linarith)]; ring

theorem floor_half (a : ℚ) : ⌊a + 1 / 2⌋ = if 1 / 2 ≤ Int.fract a then ⌊a⌋ + 1 else ⌊a⌋ := by
  have h1 := Int.fract_add_floor a
  have h2 := Int.fract_nonneg a
  have h3 := Int.fract_lt_one a
  split
  · rw [Int.floor_eq_iff]; push_cast; constructor <;> linarith
  · rw [Int.floor_eq_iff]; constructor <;> linarith

/-! ## representable numbers -/

theorem two_pow_lt (hw : f.mbits < f.bias) : (2 : ℚ) ^ (f.mbits + 1) < 2 ^ (f.bias + 1) := pow_lt_pow_right₀ (by norm_num) (by omega)

theorem rep_big (hf : f.Ok) {v : ℚ} (h : Rep f v) (hv : 2 ^ f.mbits ≤ |v|) : ∃ n : ℤ, v = n := by
  have hp : (0 : ℚ) < 2 ^ f.mbits := by positivity
  have h0 : v ≠ 0 := by rintro rfl; simp at hv; linarith
  obtain ⟨n, h1, -, -⟩ := h.significand h0
  have hl := abs_zpow_log h0
  have h2 : (2 : ℚ) ^ (f.mbits : ℤ) < (2 : ℚ) ^ (Int.log 2 |v| + 1) := by
    rw [zpow_natCast]; exact lt_of_le_of_lt hv hl.2
  have h3 := (zpow_lt_zpow_iff_right₀ (by norm_num : (1 : ℚ) < 2)).1 h2
  have h4 : 0 ≤ f.qexp v := by unfold Fmt.qexp; omega
  refine ⟨n * 2 ^ (f.qexp v).toNat, ?_⟩
  push_cast
  rw [← zpow_natCast, Int.toNat_of_nonneg h4]
  exact h1

theorem rep_fract {v : ℚ} (h : Rep f v) (h0 : 0 ≤ v) : Rep f (Int.fract v) := by
  obtain ⟨n, e, h1, h2, h3⟩ := h
  by_cases he : 0 ≤ e
  · have : v = ((n * 2 ^ e.toNat : ℤ) : ℚ) := by
      push_cast; rw [← zpow_natCast, Int.toNat_of_nonneg he]; exact h3
    rw [this, Int.fract_intCast]
    exact ⟨0, f.emin, by simp, le_refl _, by simp⟩
  · have hz : (2 : ℚ) ^ e * 2 ^ (-e).toNat = 1 := by
      rw [← zpow_natCast (2 : ℚ), ← zpow_add₀ (by norm_num : (2 : ℚ) ≠ 0), Int.toNat_of_nonneg (by omega)]; simp
    have he' : (0 : ℚ) < 2 ^ e := by positivity
    have hn : 0 ≤ n := by
      have : (0 : ℚ) ≤ n := by
        by_contra hc
        have := mul_neg_of_neg_of_pos (not_le.1 hc) he'
        linarith
      exact_mod_cast this
    have hfl : 0 ≤ ⌊v⌋ := Int.floor_nonneg.2 h0
    have e1 : Int.fract v = ((n - ⌊v⌋ * 2 ^ (-e).toNat : ℤ) : ℚ) * 2 ^ e := by
      have := Int.fract_add_floor v
      push_cast
      have h4 : (⌊v⌋ : ℚ) * 2 ^ (-e).toNat * 2 ^ e = ⌊v⌋ := by rw [mul_assoc, mul_comm ((2 : ℚ) ^ (-e).toNat), hz, mul_one]
      rw [sub_mul, h4, ← h3]; linarith
    refine ⟨_, e, ?_, h2, e1⟩
    have hk : 0 ≤ n - ⌊v⌋ * 2 ^ (-e).toNat := by
      have h5 := Int.fract_nonneg v
      rw [e1] at h5
      have : (0 : ℚ) ≤ ((n - ⌊v⌋ * 2 ^ (-e).toNat : ℤ) : ℚ) := by
        by_contra hc
        have := mul_neg_of_neg_of_pos (not_le.1 hc) he'
        linarith
      exact_mod_cast this
    rw [abs_of_nonneg hk]
    rw [abs_of_nonneg hn] at h1
    have : 0 ≤ ⌊v⌋ * 2 ^ (-e).toNat := by positivity
    omega

/-! ## bits -/

theorem and_absMask (x : f.Bits) : x &&& absMask f = FloatBits.abs f x := BitVec.and_comm _ _
theorem absMask_and (x : f.Bits) : absMask f &&& x = FloatBits.abs f x := rfl

theorem absMask_getLsbD {i : Nat} (hi : i < f.width) : (absMask f).getLsbD i = !decide (i = f.ebits + f.mbits) := by
  unfold absMask
  rw [BitVec.getLsbD_not, signMask_getLsbD hi]; simp [hi]

theorem abs_xor (x : f.Bits) : FloatBits.abs f x ^^^ x = signMask f &&& x := by
  apply BitVec.eq_of_getLsbD_eq
  intro i hi
  unfold FloatBits.abs
  rw [BitVec.getLsbD_xor, BitVec.getLsbD_and, BitVec.getLsbD_and, absMask_getLsbD hi, signMask_getLsbD hi]
  by_cases h : i = f.ebits + f.mbits <;> simp [h]

theorem sign_or (x t : f.Bits) : f.sign ((signMask f &&& x) ||| t) = (f.sign x || f.sign t) := by
  unfold Fmt.sign
  rw [BitVec.getLsbD_or, BitVec.getLsbD_and, signMask_getLsbD (by show _ < f.ebits + f.mbits + 1; omega)]
  simp

theorem mag_or (x t : f.Bits) : mag f ((signMask f &&& x) ||| t) = mag f t := by
  apply mag_congr
  intro i hi
  rw [BitVec.getLsbD_or, BitVec.getLsbD_and, signMask_getLsbD (by show _ < f.ebits + f.mbits + 1; omega)]
  rw [decide_eq_false (by omega)]; simp

theorem ratValue_of_mag {x y : f.Bits} (h : mag f x = mag f y) : f.ratValue x = if f.sign x = f.sign y then f.ratValue y else -f.ratValue y := by
  rw [ratValue_mag, ratValue_mag, h]
  cases f.sign x <;> cases f.sign y <;> simp

theorem finite_of_mag {x y : f.Bits} (h : mag f x = mag f y) (hy : f.isFinite y) : f.isFinite x := by
  rw [isFinite_iff] at *; rwa [h]

theorem or_num {x t : f.Bits} {s : Bool} {v : ℚ} (h : IsNum f t s v) :
    IsNum f ((signMask f &&& x) ||| t) (f.sign x || s) (if (f.sign x && !s) then -v else v) := by
  have hm := mag_or x t
  refine ⟨finite_of_mag hm h.1, ?_, by rw [sign_or, h.3]⟩
  rw [ratValue_of_mag hm, h.2, sign_or, h.3]
  cases f.sign x <;> cases s <;> simp

theorem finite_abs (x : f.Bits) : f.isFinite (FloatBits.abs f x) ↔ f.isFinite x := by rw [isFinite_iff, isFinite_iff, mag_abs]

theorem abs_num {x : f.Bits} (h : f.isFinite x) : IsNum f (FloatBits.abs f x) false |f.ratValue x| :=
  ⟨(finite_abs x).2 h, ratValue_abs x, sign_abs x⟩

theorem self_num {x : f.Bits} (h : f.isFinite x) : IsNum f x (f.sign x) (f.ratValue x) := ⟨h, rfl, rfl⟩

/-! ## operations on numbers -/

variable (env : f.Env)

theorem add_exact (hf : f.Ok) {x y : f.Bits} {s t : Bool} {a b : ℚ} (hx : IsNum f x s a) (hy : IsNum f y t b) (hr : Rep f (a + b))
    (hl : |a + b| < 2 ^ (f.bias + 1)) :
    IsNum f (Fmt.add env x y) (if a + b = 0 then (if s = t then s else decide (env.mode = .down)) else decide (a + b < 0)) (a + b) := by
  rw [add_finite env hf hx.1 hy.1, hx.2, hy.2, hx.3, hy.3]
  exact round_exact hf _ _ hr hl

theorem sub_exact (hf : f.Ok) {x y : f.Bits} {s t : Bool} {a b : ℚ} (hx : IsNum f x s a) (hy : IsNum f y t b) (hr : Rep f (a - b))
    (hl : |a - b| < 2 ^ (f.bias + 1)) :
    IsNum f (Fmt.sub env x y) (if a - b = 0 then (if s = !t then s else decide (env.mode = .down)) else decide (a - b < 0)) (a - b) := by
  rw [sub_finite env hf hx.1 hy.1, hx.2, hy.2, hx.3, hy.3]
  exact round_exact hf _ _ hr hl

theorem int_lt (hw : f.mbits < f.bias) {n : ℤ} (h : |n| ≤ 2 ^ (f.mbits + 1)) : |(n : ℚ)| < 2 ^ (f.bias + 1) := by
  refine lt_of_le_of_lt ?_ (two_pow_lt hw)
  rw [← Int.cast_abs]
  exact_mod_cast h

theorem ofInt_num (hf : f.Ok) (hw : f.mbits < f.bias) {n : ℤ} (h : |n| ≤ 2 ^ (f.mbits + 1)) : IsNum f (Fmt.ofInt env n) (decide (n < 0)) n := by
  have := round_exact hf env.mode false (rep_int hf h) (int_lt hw h)
  unfold Fmt.ofInt
  by_cases h0 : n = 0
  · subst h0; simpa using this
  · have h0' : (n : ℚ) ≠ 0 := by exact_mod_cast h0
    rw [if_neg h0'] at this
    have e : decide ((n : ℚ) < 0) = decide (n < 0) := by apply decide_eq_decide.2; exact_mod_cast Iff.rfl
    rwa [e] at this

theorem one_le_pow (m : Nat) : (1 : ℤ) ≤ 2 ^ m := by exact_mod_cast Nat.one_le_two_pow

theorem zero_num (hf : f.Ok) (hw : f.mbits < f.bias) : IsNum f (Fmt.ofInt env 0) false 0 := by
  have := ofInt_num env hf hw (n := 0) (by have := one_le_pow (f.mbits + 1); simp)
  simpa using this
theorem one_num (hf : f.Ok) (hw : f.mbits < f.bias) : IsNum f (Fmt.ofInt env 1) false 1 := by
  have := ofInt_num env hf hw (n := 1) (by have := one_le_pow (f.mbits + 1); simpa using this)
  simpa using this
theorem shifter_num (hf : f.Ok) (hw : f.mbits < f.bias) : IsNum f (shifter env) false (2 ^ f.mbits) := by
  have h1 := one_le_pow f.mbits
  have := ofInt_num env hf hw (n := 2 ^ f.mbits) (by rw [abs_of_pos (by omega), pow_succ]; omega)
  rw [decide_eq_false (by omega)] at this
  push_cast at this
  exact this
theorem half_num (hf : f.Ok) (hw : f.mbits < f.bias) : IsNum f (half env) false (1 / 2) := by
  have he := emin_le hf
  have h1 := hf.2
  have hr : Rep f (1 / 2) := ⟨1, -1, by rw [pow_succ]; have := one_le_pow f.mbits; simp; omega, by omega, by norm_num⟩
  have hl : |(1 / 2 : ℚ)| < 2 ^ (f.bias + 1) := by
    have : (1 : ℚ) ≤ 2 ^ (f.bias + 1) := one_le_pow₀ (by norm_num)
    rw [abs_of_pos (by norm_num)]; linarith
  have := round_exact hf env.mode false hr hl
  rw [if_neg (by norm_num), decide_eq_false (by norm_num)] at this
  exact this

/-! ## shifting -/

theorem qexp_shift (hf : f.Ok) {q : ℚ} (h1 : 2 ^ f.mbits ≤ |q|) (h2 : |q| < 2 ^ (f.mbits + 1)) : f.qexp q = 0 := by
  have he := emin_le hf
  have : Int.log 2 |q| = f.mbits := log_unique (by rw [zpow_natCast]; exact h1) (by
    have : ((f.mbits : ℤ) + 1) = ((f.mbits + 1 : ℕ) : ℤ) := by push_cast; rfl
    rw [this, zpow_natCast]; exact h2)
  unfold Fmt.qexp
  rw [this]; omega

theorem roundTo_shift (hf : f.Ok) (m : RMode) {v : ℚ} {n : ℤ} (hv : |v| < 2 ^ f.mbits) (hn : |n| = 2 ^ f.mbits)
    (h : (0 ≤ v ∧ 0 ≤ n) ∨ (v ≤ 0 ∧ n ≤ 0)) : f.roundTo m (v + n) = ((m.toInt v + n : ℤ) : ℚ) := by
  have hnq : |(n : ℚ)| = 2 ^ f.mbits := by rw [← Int.cast_abs, hn]; push_cast; rfl
  have habs : |v + n| = |v| + |(n : ℚ)| := by
    rcases h with ⟨h1, h2⟩ | ⟨h1, h2⟩
    · have h2' : (0 : ℚ) ≤ n := by exact_mod_cast h2
      rw [abs_of_nonneg h1, abs_of_nonneg h2', abs_of_nonneg (by linarith)]
    · have h2' : (n : ℚ) ≤ 0 := by exact_mod_cast h2
      rw [abs_of_nonpos h1, abs_of_nonpos h2', abs_of_nonpos (by linarith)]; ring
  have hq := qexp_shift hf (q := v + n) (by rw [habs, hnq]; have := abs_nonneg v; linarith) (by rw [habs, hnq, pow_succ]; linarith)
  have hev : Even n := by
    have h1 := even_two_pow hf.2
    rw [← hn] at h1
    rcases abs_choice n with e | e <;> rw [e] at h1
    · exact h1
    · simpa using h1
  unfold Fmt.roundTo
  rw [hq]; simp only [zpow_zero, div_one, mul_one]
  rw [toInt_shift m hev h]

/-- `(x + y) - y` with `y = ±2^(p-1)` of the sign of `x` rounds to an integer. -/
theorem plusMinus_num (hf : f.Ok) (hw : f.mbits < f.bias) {x y : f.Bits} {s : Bool} {v : ℚ} (hx : IsNum f x s v)
    (hy : IsNum f y s (if s then -2 ^ f.mbits else 2 ^ f.mbits)) (hv : |v| < 2 ^ f.mbits) :
    IsNum f (plusMinus env x y) (if env.mode.toInt v = 0 then decide (env.mode = .down) else decide (env.mode.toInt v < 0)) (env.mode.toInt v) := by
  have hp := one_le_pow f.mbits
  have hpp : (2 : ℤ) ^ (f.mbits + 1) = 2 * 2 ^ f.mbits := by rw [pow_succ]; ring
  obtain ⟨n, hn1, hn2, hn3⟩ : ∃ n : ℤ, (n : ℚ) = (if s then -2 ^ f.mbits else 2 ^ f.mbits) ∧ |n| = 2 ^ f.mbits ∧
      ((s = true ∧ n < 0) ∨ (s = false ∧ 0 < n)) := by
    cases s
    · exact ⟨2 ^ f.mbits, by simp, abs_of_pos (by omega), Or.inr ⟨rfl, by omega⟩⟩
    · exact ⟨-2 ^ f.mbits, by simp, by rw [abs_neg, abs_of_pos (by omega)], Or.inl ⟨rfl, by omega⟩⟩
  rw [← hn1] at hy
  have hvs : (0 ≤ v ∧ 0 ≤ n) ∨ (v ≤ 0 ∧ n ≤ 0) := by
    have h1 := ratValue_sign (x := x)
    rw [hx.2, hx.3] at h1
    rcases hn3 with ⟨a, b⟩ | ⟨a, b⟩
    · exact Or.inr ⟨h1.2 a, b.le⟩
    · exact Or.inl ⟨h1.1 a, b.le⟩
  set k := env.mode.toInt v with hk
  have hk1 : |k| ≤ 2 ^ f.mbits := toInt_abs_le env.mode v _ (by push_cast; exact hv.le)
  have hkn : |k + n| ≤ 2 ^ (f.mbits + 1) := by
    have := abs_add_le k n
    omega
  have hrt := roundTo_shift hf env.mode hv hn2 hvs
  rw [← hk] at hrt
  have hsum : IsNum f (Fmt.add env x y) s ((k + n : ℤ) : ℚ) := by
    rw [add_finite env hf hx.1 hy.1, hx.2, hy.2, hx.3, hy.3]
    have := round_spec hf env.mode (if s = s then s else decide (env.mode = .down)) (q := v + n) (by rw [hrt]; exact int_lt hw hkn)
    rw [hrt] at this
    have hne : v + n ≠ 0 := by
      rcases hn3 with ⟨a, b⟩ | ⟨a, b⟩
      · have hb : (n : ℚ) < 0 := by exact_mod_cast b
        rcases hvs with h | h
        · omega
        · intro hc; linarith [h.1]
      · have hb : (0 : ℚ) < n := by exact_mod_cast b
        rcases hvs with h | h
        · intro hc; linarith [h.1]
        · omega
    rw [if_neg hne] at this
    have hsgn : decide (v + n < 0) = s := by
      rcases hn3 with ⟨a, b⟩ | ⟨a, b⟩
      · have hb : (n : ℚ) < 0 := by exact_mod_cast b
        rcases hvs with h | h
        · omega
        · rw [a]; simp; linarith [h.1]
      · have hb : (0 : ℚ) < n := by exact_mod_cast b
        rcases hvs with h | h
        · rw [a]; simp; linarith [h.1]
        · omega
    rwa [hsgn] at this
  have hd : ((k + n : ℤ) : ℚ) - n = (k : ℚ) := by push_cast; ring
  have hk2 : |k| ≤ 2 ^ (f.mbits + 1) := by omega
  have := sub_exact env hf hsum hy (by rw [hd]; exact rep_int hf hk2) (by rw [hd]; exact int_lt hw hk2)
  rw [hd] at this
  unfold plusMinus
  have e1 : ((k : ℚ) = 0) = (k = 0) := by apply propext; exact_mod_cast Iff.rfl
  have e2 : decide ((k : ℚ) < 0) = decide (k < 0) := by apply decide_eq_decide.2; exact_mod_cast Iff.rfl
  have e3 : (if s = !s then s else decide (env.mode = .down)) = decide (env.mode = .down) := by cases s <;> rfl
  rw [e3, e2] at this
  simp only [e1] at this
  exact this

theorem lt_shifter (hf : f.Ok) (hw : f.mbits < f.bias) {x : f.Bits} (hx : f.isFinite x) :
    f.lt (FloatBits.abs f x) (shifter env) = decide (|f.ratValue x| < 2 ^ f.mbits) := by
  have h := shifter_num env hf hw
  rw [lt_finite hf ((finite_abs x).2 hx) h.1, ratValue_abs, h.2]

theorem lt_shifter_inf (hf : f.Ok) (hw : f.mbits < f.bias) {x : f.Bits} (hx : ¬ f.isFinite x) :
    f.lt (FloatBits.abs f x) (shifter env) = false := by
  have h := shifter_num env hf hw
  rw [lt_eq hf, unordered_eq hf]
  rw [isFinite_iff] at hx
  have h1 := (isFinite_iff _).1 h.1
  have k1 : ikey f (FloatBits.abs f x) = mag f x := by unfold ikey; rw [sign_abs, mag_abs]; rfl
  have k2 : ikey f (shifter env) = mag f (shifter env) := by unfold ikey; rw [h.3]; rfl
  rw [k1, k2]
  have : ¬ ((mag f x : ℤ) < mag f (shifter env)) := by omega
  simp [this]

theorem nearbyint_num (hf : f.Ok) (hw : f.mbits < f.bias) {x : f.Bits} (hx : f.isFinite x) (hs : |f.ratValue x| < 2 ^ f.mbits) :
    IsNum f (nearbyint env x)
      (if env.mode.toInt (f.ratValue x) = 0 then decide (env.mode = .down) else decide (env.mode.toInt (f.ratValue x) < 0))
      (env.mode.toInt (f.ratValue x)) := by
  unfold nearbyint
  dsimp only
  rw [and_absMask, lt_shifter env hf hw hx, if_pos (by simpa using hs)]
  apply plusMinus_num env hf hw (self_num hx) _ hs
  have := or_num (x := x) (shifter_num env hf hw)
  simpa using this

theorem nearbyint_big (hf : f.Ok) (hw : f.mbits < f.bias) {x : f.Bits} (hx : ¬ (f.isFinite x ∧ |f.ratValue x| < 2 ^ f.mbits)) :
    nearbyint env x = x := by
  unfold nearbyint
  dsimp only
  rw [and_absMask]
  by_cases h : f.isFinite x
  · rw [lt_shifter env hf hw h, if_neg]; simp only [decide_eq_true_eq]; tauto
  · rw [lt_shifter_inf env hf hw h, if_neg (by simp)]

/-! ## trunc -/

theorem floor_of_toInt (m : RMode) (a : ℚ) : (if a < m.toInt a then m.toInt a - 1 else m.toInt a) = ⌊a⌋ := by
  obtain ⟨h1, h2⟩ := toInt_bounds m a
  have h3 := Int.ceil_le_floor_add_one a
  split
  · rename_i h
    have : ⌊a⌋ < m.toInt a := Int.floor_lt.2 h
    omega
  · rename_i h
    have : m.toInt a ≤ ⌊a⌋ := Int.le_floor.2 (not_lt.1 h)
    omega

theorem floor_abs_le {v : ℚ} {m : Nat} (h : |v| < 2 ^ m) : 0 ≤ ⌊|v|⌋ ∧ ⌊|v|⌋ < 2 ^ m := by
  refine ⟨Int.floor_nonneg.2 (abs_nonneg v), Int.floor_lt.2 ?_⟩
  push_cast; exact h

theorem toInt_down (a : ℚ) : RMode.down.toInt a = ⌊a⌋ := rfl

theorem trunc_num (hf : f.Ok) (hw : f.mbits < f.bias) {x : f.Bits} (hx : f.isFinite x) (hs : |f.ratValue x| < 2 ^ f.mbits) :
    IsNum f (trunc env x) (f.sign x || (decide (⌊|f.ratValue x|⌋ = 0) && decide (env.mode = .down))) (truncZ (f.ratValue x)) := by
  set v := f.ratValue x with hvdef
  have ha := abs_num hx
  rw [← hvdef] at ha
  have hp := one_le_pow f.mbits
  have hpp : (2 : ℤ) ^ (f.mbits + 1) = 2 * 2 ^ f.mbits := by rw [pow_succ]; ring
  have ht := plusMinus_num env hf hw ha (by simpa using shifter_num env hf hw) (by rwa [abs_abs])
  have hfl := floor_abs_le hs
  set k := env.mode.toInt |v| with hk
  have hkf : (if |v| < (k : ℚ) then k - 1 else k) = ⌊|v|⌋ := floor_of_toInt env.mode |v|
  have hb : |⌊|v|⌋| ≤ 2 ^ (f.mbits + 1) := by rw [abs_of_nonneg hfl.1]; omega
  have h0 := zero_num env hf hw
  have h1 := one_num env hf hw
  have ht2 : IsNum f (Fmt.sub env (plusMinus env (FloatBits.abs f x) (shifter env))
      (if f.lt (FloatBits.abs f x) (plusMinus env (FloatBits.abs f x) (shifter env)) then Fmt.ofInt env 1 else Fmt.ofInt env 0))
      (decide (⌊|v|⌋ = 0) && decide (env.mode = .down)) (⌊|v|⌋ : ℚ) := by
    rw [lt_finite hf ha.1 ht.1, ha.2, ht.2]
    have ez : ((⌊|v|⌋ : ℚ) = 0) = (⌊|v|⌋ = 0) := by apply propext; exact_mod_cast Iff.rfl
    have en : decide ((⌊|v|⌋ : ℚ) < 0) = false := by
      apply decide_eq_false
      have : (0 : ℚ) ≤ ⌊|v|⌋ := by exact_mod_cast hfl.1
      linarith
    by_cases hc : |v| < (k : ℚ)
    · rw [if_pos (by simpa using hc)]
      rw [if_pos hc] at hkf
      have hd : (k : ℚ) - 1 = (⌊|v|⌋ : ℚ) := by rw [← hkf]; push_cast; ring
      have := sub_exact env hf ht h1 (by rw [hd]; exact rep_int hf hb) (by rw [hd]; exact int_lt hw hb)
      rw [hd] at this
      have hk0 : ¬ k = 0 := by omega
      have hkn : ¬ k < 0 := by omega
      rw [en] at this
      simp only [ez, if_neg hk0, decide_eq_false hkn, Bool.not_false, Bool.false_eq_true, if_false] at this
      by_cases hz : ⌊|v|⌋ = 0
      · simpa [hz] using this
      · simpa [hz] using this
    · rw [if_neg (by simpa using hc)]
      rw [if_neg hc] at hkf
      have hd : (k : ℚ) - 0 = (⌊|v|⌋ : ℚ) := by rw [hkf]; ring
      have := sub_exact env hf ht h0 (by rw [hd]; exact rep_int hf hb) (by rw [hd]; exact int_lt hw hb)
      rw [hd, en] at this
      simp only [ez, hkf] at this
      by_cases hz : ⌊|v|⌋ = 0
      · by_cases hm : env.mode = .down <;> simpa [hz, hm] using this
      · simpa [hz] using this
  unfold trunc
  dsimp only
  rw [and_absMask, lt_shifter env hf hw hx, if_pos (by simpa using hs), abs_xor]
  have := or_num (x := x) ht2
  have e : (if (f.sign x && !(decide (⌊|v|⌋ = 0) && decide (env.mode = .down))) = true then -(⌊|v|⌋ : ℚ) else ⌊|v|⌋) = truncZ v := by
    rw [truncZ_abs]
    by_cases hz : ⌊|v|⌋ = 0
    · rw [hz]; simp
    · have hsv := ratValue_sign (x := x)
      have hv0 : v ≠ 0 := by rintro h; rw [h] at hz; simp at hz
      cases hsx : f.sign x
      · have h3 : ¬ v < 0 := not_lt.2 (hsv.1 hsx)
        simp [h3]
      · have h3 : v < 0 := lt_of_le_of_ne (hsv.2 hsx) hv0
        simp [hz, h3]
  rwa [e] at this

theorem trunc_big (hf : f.Ok) (hw : f.mbits < f.bias) {x : f.Bits} (hx : ¬ (f.isFinite x ∧ |f.ratValue x| < 2 ^ f.mbits)) :
    trunc env x = x := by
  unfold trunc
  dsimp only
  rw [and_absMask]
  by_cases h : f.isFinite x
  · rw [lt_shifter env hf hw h, if_neg]; simp only [decide_eq_true_eq]; tauto
  · rw [lt_shifter_inf env hf hw h, if_neg (by simp)]

theorem toInt_big (hf : f.Ok) (m : RMode) {x : f.Bits} (hs : ¬ |f.ratValue x| < 2 ^ f.mbits) : (m.toInt (f.ratValue x) : ℚ) = f.ratValue x := by
  obtain ⟨n, hn⟩ := rep_big hf (rep_ratValue hf x) (not_lt.1 hs)
  rw [hn, toInt_int]

/-! ## functions that use `trunc` -/

/-- A function that truncates. -/
structure IsTrunc (f : Fmt) (tr : f.Bits → f.Bits) : Prop where
  finite : ∀ x, f.isFinite x → f.isFinite (tr x)
  value : ∀ x, f.isFinite x → f.ratValue (tr x) = truncZ (f.ratValue x)
  inf : ∀ x, f.isInf x → tr x = x
  nan : ∀ x, f.isNaN x → f.isNaN (tr x)

theorem trunc_isTrunc (hf : f.Ok) (hw : f.mbits < f.bias) : IsTrunc f (trunc env) := by
  have hb : ∀ x, f.isFinite x → f.isFinite (trunc env x) ∧ f.ratValue (trunc env x) = truncZ (f.ratValue x) := by
    intro x hx
    by_cases h : |f.ratValue x| < 2 ^ f.mbits
    · have := trunc_num env hf hw hx h
      exact ⟨this.1, this.2⟩
    · rw [trunc_big env hf hw (by tauto)]
      exact ⟨hx, (toInt_big hf .zero h).symm⟩
  refine ⟨fun x hx => (hb x hx).1, fun x hx => (hb x hx).2, fun x hx => ?_, fun x hx => ?_⟩
  · apply trunc_big env hf hw
    rw [isFinite_iff]; rw [isInf_iff] at hx; omega
  · rw [trunc_big env hf hw (by rw [isFinite_iff]; rw [isNaN_iff] at hx; omega)]
    exact hx

theorem truncZ_small {v : ℚ} {m : Nat} (h : |v| < 2 ^ m) : |truncZ v| ≤ 2 ^ m :=
  toInt_abs_le .zero v _ (by push_cast; exact h.le)

theorem mask_and (b : Bool) (x : f.Bits) : mask f b &&& x = if b then x else 0 := by
  cases b <;> simp [mask]
theorem andnot_mask (b : Bool) (x : f.Bits) : andnot (mask f b) x = if b then 0 else x := by
  cases b <;> simp [mask, andnot]
theorem mask_or (a b : Bool) : mask f a ||| mask f b = mask f (a || b) := by
  cases a <;> cases b <;> simp [mask]

theorem floor_eq (tr : f.Bits → f.Bits) (x : f.Bits) :
    floor env tr x = if !f.eq (tr x) x && f.lt x (Fmt.ofInt env 0) then Fmt.sub env (tr x) (Fmt.ofInt env 1) else tr x := by
  unfold floor
  dsimp only
  have : andnot (mask f (f.eq (tr x) x)) (mask f (f.lt x (Fmt.ofInt env 0))) = mask f (!f.eq (tr x) x && f.lt x (Fmt.ofInt env 0)) := by
    rw [andnot_mask]; cases f.eq (tr x) x <;> simp [mask]
  rw [this, andnot_mask, mask_and]
  split <;> simp

theorem ceil_eq (tr : f.Bits → f.Bits) (x : f.Bits) :
    ceil env tr x = if f.eq (tr x) x || f.lt x (Fmt.ofInt env 0) then tr x else Fmt.add env (tr x) (Fmt.ofInt env 1) := by
  unfold ceil
  dsimp only
  rw [mask_or, andnot_mask, mask_and]
  split <;> simp

theorem lt_zero (hf : f.Ok) (hw : f.mbits < f.bias) {x : f.Bits} (hx : f.isFinite x) : f.lt x (Fmt.ofInt env 0) = decide (f.ratValue x < 0) := by
  have h := zero_num env hf hw
  rw [lt_finite hf hx h.1, h.2]

theorem floor_value (hf : f.Ok) (hw : f.mbits < f.bias) {tr : f.Bits → f.Bits} (htr : IsTrunc f tr) {x : f.Bits} (hx : f.isFinite x) :
    f.isFinite (floor env tr x) ∧ f.ratValue (floor env tr x) = ⌊f.ratValue x⌋ := by
  have hfy := htr.finite x hx
  have hvy := htr.value x hx
  rw [floor_eq, lt_zero env hf hw hx, eq_finite hf hfy hx, hvy]
  set v := f.ratValue x with hvd
  have hfv := Int.floor_le v
  have hfv2 := Int.lt_floor_add_one v
  by_cases h : ¬ (truncZ v : ℚ) = v ∧ v < 0
  · rw [if_pos (by simpa using h)]
    have hs : |v| < 2 ^ f.mbits := by
      by_contra hc
      exact h.1 (toInt_big hf .zero hc)
    have hb : |truncZ v - 1| ≤ 2 ^ (f.mbits + 1) := by
      have h1 := truncZ_small hs
      have h2 := one_le_pow f.mbits
      rw [pow_succ]
      rw [abs_le] at *
      omega
    have hd : (truncZ v : ℚ) - 1 = ((truncZ v - 1 : ℤ) : ℚ) := by push_cast; ring
    have hy : IsNum f (tr x) (f.sign (tr x)) (truncZ v : ℚ) := ⟨hfy, hvy, rfl⟩
    have := sub_exact env hf hy (one_num env hf hw) (by rw [hd]; exact rep_int hf hb) (by rw [hd]; exact int_lt hw hb)
    refine ⟨this.1, ?_⟩
    rw [this.2, hd]
    norm_cast
    symm
    rw [Int.floor_eq_iff]
    have e : truncZ v = ⌈v⌉ := by unfold truncZ; rw [if_neg (by linarith [h.2])]
    rw [e] at h ⊢
    have h1 := Int.le_ceil v
    have h2 := Int.ceil_lt_add_one v
    push_cast
    constructor
    · linarith
    · have : v < ⌈v⌉ := lt_of_le_of_ne h1 (fun hc => h.1 hc.symm)
      linarith
  · rw [if_neg (by simpa using h)]
    refine ⟨hfy, ?_⟩
    rw [hvy]
    by_cases h1 : v < 0
    · have h2 : (truncZ v : ℚ) = v := by tauto
      rw [← h2, truncZ_int]; simp
    · unfold truncZ; rw [if_pos (by linarith)]

theorem ceil_value (hf : f.Ok) (hw : f.mbits < f.bias) {tr : f.Bits → f.Bits} (htr : IsTrunc f tr) {x : f.Bits} (hx : f.isFinite x) :
    f.isFinite (ceil env tr x) ∧ f.ratValue (ceil env tr x) = ⌈f.ratValue x⌉ := by
  have hfy := htr.finite x hx
  have hvy := htr.value x hx
  rw [ceil_eq, lt_zero env hf hw hx, eq_finite hf hfy hx, hvy]
  set v := f.ratValue x with hvd
  by_cases h : (truncZ v : ℚ) = v ∨ v < 0
  · rw [if_pos (by simpa using h)]
    refine ⟨hfy, ?_⟩
    rw [hvy]
    by_cases h1 : v < 0
    · unfold truncZ; rw [if_neg (by linarith)]
    · have h2 : (truncZ v : ℚ) = v := by tauto
      rw [← h2, truncZ_int]; simp
  · rw [if_neg (by simpa using h)]
    have h' := not_or.1 h
    have hs : |v| < 2 ^ f.mbits := by
      by_contra hc
      exact h'.1 (toInt_big hf .zero hc)
    have hb : |truncZ v + 1| ≤ 2 ^ (f.mbits + 1) := by
      have h1 := truncZ_small hs
      have h2 := one_le_pow f.mbits
      rw [pow_succ]
      rw [abs_le] at *
      omega
    have hd : (truncZ v : ℚ) + 1 = ((truncZ v + 1 : ℤ) : ℚ) := by push_cast; ring
    have hy : IsNum f (tr x) (f.sign (tr x)) (truncZ v : ℚ) := ⟨hfy, hvy, rfl⟩
    have := add_exact env hf hy (one_num env hf hw) (by rw [hd]; exact rep_int hf hb) (by rw [hd]; exact int_lt hw hb)
    refine ⟨this.1, ?_⟩
    rw [this.2, hd]
    norm_cast
    symm
    rw [Int.ceil_eq_iff]
    have e : truncZ v = ⌊v⌋ := by unfold truncZ; rw [if_pos (by linarith [h'.2])]
    rw [e] at h' ⊢
    have h1 := Int.floor_le v
    have h2 := Int.lt_floor_add_one v
    push_cast
    constructor
    · have : (⌊v⌋ : ℚ) < v := lt_of_le_of_ne h1 h'.1
      linarith
    · linarith

/-! ## round -/

/-- The distance to the truncated number and the sum in `_S_round`. -/
theorem trunc_diff (hf : f.Ok) (x : f.Bits) (hx : f.isFinite x) :
    Rep f (f.ratValue x - truncZ (f.ratValue x)) ∧ |f.ratValue x - truncZ (f.ratValue x)| = Int.fract |f.ratValue x| := by
  set v := f.ratValue x with hv
  have h1 := rep_fract (rep_ratValue hf x).abs (abs_nonneg _)
  rw [← hv] at h1
  have h2 := Int.fract_add_floor |v|
  have e : v - truncZ v = if v < 0 then -Int.fract |v| else Int.fract |v| := by
    rw [truncZ_abs]
    split
    · rename_i h
      have := abs_of_neg h
      linarith
    · rename_i h
      have := abs_of_nonneg (not_lt.1 h)
      linarith
  rw [e]
  have h3 := Int.fract_nonneg |v|
  split
  · exact ⟨h1.neg, by rw [abs_neg, abs_of_nonneg h3]⟩
  · exact ⟨h1, abs_of_nonneg h3⟩

theorem roundTail_value (hf : f.Ok) (hw : f.mbits < f.bias) {t x : f.Bits} (hx : f.isFinite x) (ht : f.isFinite t)
    (htv : f.ratValue t = truncZ (f.ratValue x)) :
    f.isFinite (roundTail env t x) ∧ f.ratValue (roundTail env t x) = roundAway (f.ratValue x) := by
  obtain ⟨hr, hab⟩ := trunc_diff hf x hx
  set v := f.ratValue x with hv
  have hfr1 := Int.fract_lt_one |v|
  have hb1 : (1 : ℚ) ≤ 2 ^ (f.bias + 1) := one_le_pow₀ (by norm_num)
  have hn : IsNum f t (f.sign t) (truncZ v : ℚ) := ⟨ht, htv, rfl⟩
  have hsub := sub_exact env hf (self_num hx) hn (by rw [← hv]; exact hr) (by rw [← hv, hab]; linarith)
  rw [← hv] at hsub
  have hsa := abs_num hsub.1
  rw [hsub.2, hab] at hsa
  have hh := half_num env hf hw
  have hle : f.le (half env) (absMask f &&& Fmt.sub env x t) = decide (1 / 2 ≤ Int.fract |v|) := by
    rw [absMask_and, le_finite hf hh.1 hsa.1, hh.2, hsa.2]
  unfold roundTail
  rw [hle]
  have hra := roundAway_abs v
  rw [floor_half] at hra
  have htz := truncZ_abs v
  have hsv := ratValue_sign (x := x)
  rw [← hv] at hsv
  by_cases hc : 1 / 2 ≤ Int.fract |v|
  · rw [if_pos (by simpa using hc)]
    rw [if_pos hc] at hra
    have hv0 : v ≠ 0 := by rintro h; rw [h] at hc; norm_num at hc
    have hs : |v| < 2 ^ f.mbits := by
      by_contra hcc
      obtain ⟨n, hn⟩ := rep_big hf (rep_ratValue hf x).abs (by rw [abs_abs, ← hv]; exact not_lt.1 hcc)
      rw [← hv] at hn
      rw [hn, Int.fract_intCast] at hc; norm_num at hc
    have ho := or_num (x := x) (one_num env hf hw)
    have hneg : (v < 0) ↔ f.sign x = true := by
      cases hsx : f.sign x
      · have := hsv.1 hsx; simp; linarith
      · have := hsv.2 hsx
        simp; exact lt_of_le_of_ne this hv0
    have hval : (truncZ v : ℚ) + (if (f.sign x && !false) = true then -1 else 1) = ((roundAway v : ℤ) : ℚ) := by
      rw [hra, htz]
      cases hsx : f.sign x
      · have : ¬ v < 0 := by rw [hneg, hsx]; simp
        simp [this]
      · have : v < 0 := hneg.2 hsx
        simp [this]; ring
    have hrb : |roundAway v| ≤ 2 ^ (f.mbits + 1) := by
      have h1 := truncZ_small hs
      have h2 := one_le_pow f.mbits
      have h3 : roundAway v = truncZ v + (if (f.sign x && !false) = true then -1 else 1) := by
        have := hval.symm
        exact_mod_cast this
      rw [h3, pow_succ]
      rw [abs_le] at *
      split <;> omega
    have := add_exact env hf hn ho (by rw [hval]; exact rep_int hf hrb) (by rw [hval]; exact int_lt hw hrb)
    exact ⟨this.1, by rw [this.2, hval]⟩
  · rw [if_neg (by simpa using hc)]
    rw [if_neg hc, ← htz] at hra
    have hlt := ratValue_lt hf ht
    rw [htv] at hlt
    have := add_exact env hf hn (zero_num env hf hw) (by rw [add_zero, ← htv]; exact rep_ratValue hf t) (by rw [add_zero]; exact hlt)
    refine ⟨this.1, ?_⟩
    rw [this.2, add_zero, hra]

theorem round_eq_tail (hf : f.Ok) (hw : f.mbits < f.bias) {tr : f.Bits → f.Bits} (htr : IsTrunc f tr) {x : f.Bits} (hx : f.isFinite x) :
    round env tr x = (signMask f &&& x) ||| roundTail env (tr (FloatBits.abs f x)) (FloatBits.abs f x) := by
  have ha := abs_num hx
  unfold round roundTail
  dsimp only
  rw [abs_xor]
  have hsub : signMask f &&& FloatBits.abs f x = 0 := by
    apply BitVec.eq_of_getLsbD_eq
    intro i hi
    unfold FloatBits.abs
    rw [BitVec.getLsbD_and, BitVec.getLsbD_and, absMask_getLsbD hi, signMask_getLsbD hi]
    by_cases h : i = f.ebits + f.mbits <;> simp [h]
  have h0 := zero_num env hf hw
  -- the difference is not negative, so its absolute value is itself
  have hcmp : f.le (half env) (Fmt.sub env (FloatBits.abs f x) (tr (FloatBits.abs f x)))
      = f.le (half env) (absMask f &&& Fmt.sub env (FloatBits.abs f x) (tr (FloatBits.abs f x))) := by
    obtain ⟨hr, hab⟩ := trunc_diff hf _ ha.1
    have hn : IsNum f (tr (FloatBits.abs f x)) (f.sign (tr (FloatBits.abs f x))) _ := ⟨htr.finite _ ha.1, htr.value _ ha.1, rfl⟩
    have hfr1 := Int.fract_lt_one |f.ratValue (FloatBits.abs f x)|
    have hb1 : (1 : ℚ) ≤ 2 ^ (f.bias + 1) := one_le_pow₀ (by norm_num)
    have hs := sub_exact env hf (self_num ha.1) hn hr (by rw [hab]; linarith)
    have hsa := abs_num hs.1
    rw [absMask_and, le_finite hf (half_num env hf hw).1 hs.1, le_finite hf (half_num env hf hw).1 hsa.1, hsa.2]
    rw [hs.2]
    have hnn : 0 ≤ f.ratValue (FloatBits.abs f x) - truncZ (f.ratValue (FloatBits.abs f x)) := by
      rw [ha.2]
      unfold truncZ
      rw [if_pos (abs_nonneg _)]
      have := Int.floor_le |f.ratValue x|
      linarith
    rw [abs_of_nonneg hnn]
  rw [hsub, ← hcmp, show (0 : f.Bits) ||| Fmt.ofInt env 1 = Fmt.ofInt env 1 from BitVec.zero_or]

theorem round_value (hf : f.Ok) (hw : f.mbits < f.bias) {tr : f.Bits → f.Bits} (htr : IsTrunc f tr) {x : f.Bits} (hx : f.isFinite x) :
    f.isFinite (round env tr x) ∧ f.ratValue (round env tr x) = roundAway (f.ratValue x) := by
  have ha := abs_num hx
  have e := round_eq_tail env hf hw htr hx
  have ht := roundTail_value env hf hw (t := tr (FloatBits.abs f x)) (x := FloatBits.abs f x) ha.1 (htr.finite _ ha.1) (htr.value _ ha.1)
  rw [e]
  have hn := self_num ht.1
  have ho := or_num (x := x) hn
  refine ⟨ho.1, ?_⟩
  rw [ho.2, ht.2, ha.2, roundAway_abs, roundAway_abs, abs_abs]
  have hsv := ratValue_sign (x := x)
  set v := f.ratValue x with hv
  rw [if_neg (not_lt.2 (abs_nonneg v))]
  have hrs := ratValue_sign (x := roundTail env (tr (FloatBits.abs f x)) (FloatBits.abs f x))
  rw [ht.2, ha.2, roundAway_abs, abs_abs, if_neg (not_lt.2 (abs_nonneg v))] at hrs
  have hnn : (0 : ℚ) ≤ (⌊|v| + 1 / 2⌋ : ℚ) := by
    have : 0 ≤ ⌊|v| + 1 / 2⌋ := Int.floor_nonneg.2 (by have := abs_nonneg v; linarith)
    exact_mod_cast this
  by_cases hz : (⌊|v| + 1 / 2⌋ : ℚ) = 0
  · rw [hz]; simp
  · have hsr : f.sign (roundTail env (tr (FloatBits.abs f x)) (FloatBits.abs f x)) = false := by
      by_contra hc
      have := hrs.2 (by simpa using hc)
      rw [one_mul] at this
      exact hz (le_antisymm this hnn)
    rw [hsr]
    have hv0 : v ≠ 0 := by rintro h; rw [h] at hz; norm_num at hz
    cases hsx : f.sign x
    · have := hsv.1 hsx
      simp [not_lt.2 this]
    · have h3 : v < 0 := lt_of_le_of_ne (hsv.2 hsx) hv0
      simp [h3]

/-! ## hardware instructions -/

theorem rint_num (hf : f.Ok) (hw : f.mbits < f.bias) (m : RMode) {x : f.Bits} (hx : f.isFinite x) :
    IsNum f (Fmt.rint env m x) (f.sign x) (m.toInt (f.ratValue x)) := by
  obtain ⟨a, b⟩ := finite_not hf hx
  unfold Fmt.rint
  rw [if_neg a, if_neg b]
  set v := f.ratValue x with hv
  have hrl : Rep f (m.toInt v : ℚ) ∧ |(m.toInt v : ℚ)| < 2 ^ (f.bias + 1) := by
    by_cases h : |v| < 2 ^ f.mbits
    · have h1 : |m.toInt v| ≤ 2 ^ f.mbits := toInt_abs_le m v _ (by push_cast; exact h.le)
      have h2 : |m.toInt v| ≤ 2 ^ (f.mbits + 1) := by rw [pow_succ]; have := one_le_pow f.mbits; omega
      exact ⟨rep_int hf h2, int_lt hw h2⟩
    · rw [toInt_big hf m h]
      exact ⟨rep_ratValue hf x, ratValue_lt hf hx⟩
  have := ofMag_encode hf (f.sign x) hrl.1.abs (abs_nonneg _) hrl.2
  refine ⟨this.1, ?_, this.3⟩
  rw [this.2]
  have hsv := ratValue_sign (x := x)
  have hts := toInt_sign m (q := v)
  cases hsx : f.sign x
  · have h1 : (0 : ℚ) ≤ m.toInt v := by exact_mod_cast hts.1 (hsv.1 hsx)
    simp [abs_of_nonneg h1]
  · have h1 : (m.toInt v : ℚ) ≤ 0 := by exact_mod_cast hts.2 (hsv.2 hsx)
    simp [abs_of_nonpos h1]

theorem rint_isTrunc (hf : f.Ok) (hw : f.mbits < f.bias) : IsTrunc f (Fmt.rint env .zero) := by
  refine ⟨fun x hx => (rint_num env hf hw .zero hx).1, fun x hx => (rint_num env hf hw .zero hx).2, fun x hx => ?_, fun x hx => ?_⟩
  · unfold Fmt.rint
    have : ¬ f.isNaN x := by rw [isNaN_iff]; rw [isInf_iff] at hx; omega
    rw [if_neg this, if_pos hx]
  · unfold Fmt.rint
    rw [if_pos hx]; exact env.isNaN x x

/-! ## SSE2 -/

theorem and_inf (hf : f.Ok) (x : f.Bits) : (x &&& infBits f).toNat = f.expo x * 2 ^ f.mbits := by
  rw [BitVec.toNat_and, (inf_toInt hf).1]
  apply Nat.eq_of_testBit_eq
  intro i
  rw [Nat.testBit_and]
  unfold inf
  rw [Nat.mul_comm (2 ^ f.ebits - 1), Nat.mul_comm (f.expo x), Nat.testBit_two_pow_mul, Nat.testBit_two_pow_mul, Nat.testBit_two_pow_sub_one]
  unfold Fmt.expo
  rw [Nat.testBit_mod_two_pow, Nat.testBit_div_two_pow]
  by_cases h1 : f.mbits ≤ i
  · rw [show i - f.mbits + f.mbits = i by omega]
    by_cases h2 : i - f.mbits < f.ebits <;> simp [h1, h2]
  · simp [h1]

theorem b32_ok : b32.Ok ∧ b32.mbits < b32.bias := by decide

/-- The integer comparison of the exponent in the SSE2 code. -/
theorem sse2_small (x : b32.Bits) :
    (x &&& 0x7f800000#32).slt 0x4b000000#32 = decide (b32.isFinite x ∧ |b32.ratValue x| < 2 ^ b32.mbits) := by
  have h1 : (x &&& 0x7f800000#32).toNat = b32.expo x * 2 ^ 23 := and_inf b32_ok.1 x
  have he : b32.expo x < 256 := expo_lt x
  have h2 : (x &&& 0x7f800000#32).toInt = ((b32.expo x * 2 ^ 23 : ℕ) : ℤ) := by
    apply toInt_of_lt (w := 31) h1
    omega
  unfold BitVec.slt
  rw [h2, show (0x4b000000#32).toInt = 0x4b000000 from rfl]
  apply decide_eq_decide.2
  have hx : b32.isFinite x ↔ mag b32 x < 255 * 2 ^ 23 := isFinite_iff x
  have hmag : mag b32 x = b32.expo x * 2 ^ 23 + b32.mant x := mag_eq x
  have hm : b32.mant x < 2 ^ 23 := mant_lt x
  have hu : (unit 23 (150 * 2 ^ 23) : ℚ) * quantum b32 = 2 ^ 23 := by
    have e : unit 23 (150 * 2 ^ 23) = 2 ^ 23 * 2 ^ 149 := by
      have := unit_of_parts (m := 23) (k := 149) (j := 2 ^ 23) (by norm_num) (Or.inr (le_refl _))
      rwa [show 149 * 2 ^ 23 + 2 ^ 23 = 150 * 2 ^ 23 by norm_num] at this
    rw [e]
    have : quantum b32 = 2 ^ (-149 : ℤ) := rfl
    rw [this]; norm_num
  have hv : |b32.ratValue x| < 2 ^ 23 ↔ mag b32 x < 150 * 2 ^ 23 := by
    have h4 : 0 ≤ (unit 23 (mag b32 x) : ℚ) * quantum b32 := mul_nonneg (by positivity) quantum_pos.le
    have h5 : |b32.ratValue x| = (unit 23 (mag b32 x) : ℚ) * quantum b32 := by
      have h6 : b32.ratValue x = (if b32.sign x then -1 else 1) * ((unit 23 (mag b32 x) : ℚ) * quantum b32) := ratValue_mag x
      rw [h6, abs_mul, abs_of_nonneg h4]
      cases b32.sign x <;> simp
    rw [h5, ← hu, mul_lt_mul_iff_left₀ (quantum_pos (f := b32)), Nat.cast_lt, (unit_mono 23).lt_iff_lt]
  have hv' : |b32.ratValue x| < 2 ^ b32.mbits ↔ mag b32 x < 150 * 2 ^ 23 := hv
  rw [hv', hx]
  omega

theorem cvt_num (env : b32.Env) {x : b32.Bits} (hx : b32.isFinite x) (hs : |b32.ratValue x| < 2 ^ b32.mbits) :
    IsNum b32 (cvtepi32 env (cvttps x)) (decide (truncZ (b32.ratValue x) < 0)) (truncZ (b32.ratValue x)) := by
  have hb : |truncZ (b32.ratValue x)| ≤ 2 ^ b32.mbits := truncZ_small hs
  have hb' : |truncZ (b32.ratValue x)| ≤ 2 ^ 23 := hb
  have hb3 := abs_le.1 hb'
  unfold cvtepi32 cvttps
  rw [if_pos ⟨hx, by omega, by omega⟩]
  rw [show (BitVec.ofInt 32 (truncZ (b32.ratValue x))).toInt = truncZ (b32.ratValue x) by
    rw [BitVec.toInt_ofInt]
    apply Int.bmod_eq_of_le_mul_two <;> push_cast <;> omega]
  apply ofInt_num env b32_ok.1 b32_ok.2
  show |truncZ (b32.ratValue x)| ≤ 2 ^ 24
  omega

theorem truncSse2_isTrunc (env : b32.Env) : IsTrunc b32 (truncSse2 env) := by
  have hb : ∀ x, b32.isFinite x → b32.isFinite (truncSse2 env x) ∧ b32.ratValue (truncSse2 env x) = truncZ (b32.ratValue x) := by
    intro x hx
    unfold truncSse2
    rw [sse2_small]
    by_cases h : |b32.ratValue x| < 2 ^ b32.mbits
    · rw [if_pos (by simpa using ⟨hx, h⟩)]
      have := cvt_num env hx h
      exact ⟨this.1, this.2⟩
    · rw [if_neg (by simpa using fun _ => not_lt.1 h)]
      exact ⟨hx, (toInt_big b32_ok.1 .zero h).symm⟩
  have hn : ∀ x, ¬ b32.isFinite x → truncSse2 env x = x := by
    intro x hx
    unfold truncSse2
    rw [sse2_small, if_neg (by simp [hx])]
  refine ⟨fun x hx => (hb x hx).1, fun x hx => (hb x hx).2, fun x hx => ?_, fun x hx => ?_⟩
  · apply hn; rw [isFinite_iff]; rw [isInf_iff] at hx; omega
  · rw [hn x (by rw [isFinite_iff]; rw [isNaN_iff] at hx; omega)]; exact hx

/-! ## infinities and NaN -/

theorem inf_facts (hf : f.Ok) {x : f.Bits} (hx : f.isInf x) : ¬ f.isNaN x ∧ ¬ f.isFinite x := by
  rw [isNaN_iff, isFinite_iff]; rw [isInf_iff] at hx; omega

theorem lt_nan (hf : f.Ok) {x y : f.Bits} (h : f.isNaN x ∨ f.isNaN y) : f.lt x y = false ∧ f.le x y = false ∧ f.eq x y = false := by
  rw [lt_eq hf, le_eq hf, eq_eq hf, unordered_eq hf]; simp [h]

theorem eq_self (hf : f.Ok) {x : f.Bits} (h : ¬ f.isNaN x) : f.eq x x = true := by
  rw [eq_eq hf, unordered_eq hf]; simp [h]

theorem add_nan {x y : f.Bits} (h : f.isNaN x ∨ f.isNaN y) : f.isNaN (Fmt.add env x y) := by
  unfold Fmt.add; rw [if_pos h]; exact env.isNaN x y
theorem sub_nan {x y : f.Bits} (h : f.isNaN x ∨ f.isNaN y) : f.isNaN (Fmt.sub env x y) := by
  unfold Fmt.sub; rw [if_pos h]; exact env.isNaN x y

theorem sub_inf (hf : f.Ok) {x y : f.Bits} (hx : f.isInf x) (hy : f.isInf y) (h : f.sign x = f.sign y) : f.isNaN (Fmt.sub env x y) := by
  have h1 := inf_facts hf hx
  have h2 := inf_facts hf hy
  unfold Fmt.sub
  rw [if_neg (by tauto)]
  have h3 : f.isInf (Fmt.neg y) := by rw [isInf_iff] at *; rw [mag_neg]; exact hy
  have h4 := inf_facts hf h3
  unfold Fmt.add
  rw [if_neg (by tauto), if_pos hx, if_pos ⟨h3, by rw [sign_neg, h]; cases f.sign y <;> simp⟩]
  exact env.isNaN _ _

theorem add_inf (hf : f.Ok) {x y : f.Bits} (hx : f.isInf x) (hy : f.isFinite y) : Fmt.add env x y = x := by
  have h1 := inf_facts hf hx
  have h2 := finite_not hf hy
  unfold Fmt.add
  rw [if_neg (by tauto), if_pos hx, if_neg (by tauto)]

theorem roundTail_inf (hf : f.Ok) (hw : f.mbits < f.bias) {x : f.Bits} (hx : f.isInf x) : roundTail env x x = x := by
  unfold roundTail
  have h1 := sub_inf env hf hx hx rfl
  have h2 : f.isNaN (absMask f &&& Fmt.sub env x x) := by
    rw [absMask_and]; rw [isNaN_iff] at *; rwa [mag_abs]
  rw [(lt_nan hf (Or.inr h2)).2.1, if_neg (by simp), add_inf env hf hx (zero_num env hf hw).1]

theorem roundTail_nan {t x : f.Bits} (ht : f.isNaN t) : f.isNaN (roundTail env t x) := by
  unfold roundTail
  exact add_nan env (Or.inl ht)

theorem round_nonfinite (hf : f.Ok) (hw : f.mbits < f.bias) {tr : f.Bits → f.Bits} (htr : IsTrunc f tr) (x : f.Bits) :
    (f.isInf x → round env tr x = x) ∧ (f.isNaN x → f.isNaN (round env tr x)) := by
  constructor
  · intro hx
    have hax : f.isInf (FloatBits.abs f x) := by rw [isInf_iff] at *; rwa [mag_abs]
    unfold round
    dsimp only
    rw [htr.inf _ hax, (lt_nan hf (Or.inr (sub_inf env hf hax hax rfl))).2.1, if_neg (by simp), add_inf env hf hax (zero_num env hf hw).1, abs_xor]
    apply bits_ext
    · rw [sign_or, sign_abs]; simp
    · rw [mag_or, mag_abs]
  · intro hx
    have hax : f.isNaN (FloatBits.abs f x) := by rw [isNaN_iff] at *; rwa [mag_abs]
    unfold round
    dsimp only
    rw [abs_xor]
    have h1 := htr.nan _ hax
    have h2 : f.isNaN (Fmt.add env (tr (FloatBits.abs f x)) (if f.le (half env) (Fmt.sub env (FloatBits.abs f x) (tr (FloatBits.abs f x))) then Fmt.ofInt env 1 else Fmt.ofInt env 0)) :=
      add_nan env (Or.inl h1)
    rw [isNaN_iff] at h2 ⊢
    rwa [mag_or]

theorem floor_nonfinite (hf : f.Ok) {tr : f.Bits → f.Bits} (htr : IsTrunc f tr) (x : f.Bits) :
    (f.isInf x → floor env tr x = x) ∧ (f.isNaN x → f.isNaN (floor env tr x)) := by
  rw [floor_eq]
  constructor
  · intro hx
    rw [htr.inf x hx, eq_self hf (inf_facts hf hx).1, if_neg (by simp)]
  · intro hx
    rw [(lt_nan hf (Or.inl hx)).1, if_neg (by simp)]
    exact htr.nan x hx

theorem ceil_nonfinite (hf : f.Ok) {tr : f.Bits → f.Bits} (htr : IsTrunc f tr) (x : f.Bits) :
    (f.isInf x → ceil env tr x = x) ∧ (f.isNaN x → f.isNaN (ceil env tr x)) := by
  rw [ceil_eq]
  constructor
  · intro hx
    rw [htr.inf x hx, eq_self hf (inf_facts hf hx).1, if_pos (by simp)]
  · intro hx
    rw [(lt_nan hf (Or.inl (htr.nan x hx))).2.2, (lt_nan hf (Or.inl hx)).1, if_neg (by simp)]
    exact add_nan env (Or.inl (htr.nan x hx))

/-! ## signs -/

theorem sign_of_value {x : f.Bits} : (0 < f.ratValue x → f.sign x = false) ∧ (f.ratValue x < 0 → f.sign x = true) := by
  have h := ratValue_sign (x := x)
  cases hs : f.sign x
  · exact ⟨fun _ => rfl, fun hc => by have := h.1 hs; linarith⟩
  · exact ⟨fun hc => by have := h.2 hs; linarith, fun _ => rfl⟩

theorem floor_sign (hf : f.Ok) (hw : f.mbits < f.bias) {tr : f.Bits → f.Bits} (htr : IsTrunc f tr) {x : f.Bits} (hx : f.isFinite x)
    (hts : f.sign (tr x) = f.sign x) : f.sign (floor env tr x) = f.sign x := by
  have hv := (floor_value env hf hw htr hx).2
  by_cases hc : f.ratValue x < 0
  · rw [sign_of_value.2 hc]
    apply sign_of_value.2
    rw [hv]
    have := Int.floor_le (f.ratValue x)
    linarith
  · rw [floor_eq, lt_zero env hf hw hx, if_neg (by simp; intro _; linarith)]
    exact hts

theorem ceil_sign (hf : f.Ok) (hw : f.mbits < f.bias) {tr : f.Bits → f.Bits} (htr : IsTrunc f tr) {x : f.Bits} (hx : f.isFinite x)
    (hts : f.sign (tr x) = f.sign x) : f.sign (ceil env tr x) = f.sign x := by
  have hv := (ceil_value env hf hw htr hx).2
  by_cases hc : 0 < f.ratValue x
  · rw [sign_of_value.1 hc]
    apply sign_of_value.1
    rw [hv]
    have := Int.le_ceil (f.ratValue x)
    linarith
  · rw [ceil_eq]
    split
    · exact hts
    · rename_i h
      exfalso
      rw [lt_zero env hf hw hx, eq_finite hf (htr.finite x hx) hx, htr.value x hx] at h
      simp at h
      have : f.ratValue x = 0 := le_antisymm (not_lt.1 hc) h.2
      rw [this] at h
      simp [truncZ] at h

theorem roundTail_sign (hf : f.Ok) (hw : f.mbits < f.bias) {t x : f.Bits} (hx : f.isFinite x) (ht : f.isFinite t)
    (htv : f.ratValue t = truncZ (f.ratValue x)) (hz : roundAway (f.ratValue x) = 0) :
    f.sign (roundTail env t x) = (f.sign t && decide (env.mode = .down)) := by
  obtain ⟨hr, hab⟩ := trunc_diff hf x hx
  have hra := roundAway_abs (f.ratValue x)
  rw [floor_half] at hra
  have htz := truncZ_abs (f.ratValue x)
  set v := f.ratValue x with hv
  have hfl : 0 ≤ ⌊|v|⌋ := Int.floor_nonneg.2 (abs_nonneg v)
  rw [hz] at hra
  have hcond : ¬ 1 / 2 ≤ Int.fract |v| ∧ ⌊|v|⌋ = 0 := by
    have hsgn : (if v < 0 then (-1 : ℚ) else 1) ≠ 0 := by split <;> norm_num
    have h2 : (((if 1 / 2 ≤ Int.fract |v| then ⌊|v|⌋ + 1 else ⌊|v|⌋ : ℤ)) : ℚ) = 0 := by
      rcases mul_eq_zero.1 (by push_cast at hra ⊢; exact hra.symm) with h | h
      · exact absurd h hsgn
      · push_cast; exact h
    have h3 : (if 1 / 2 ≤ Int.fract |v| then ⌊|v|⌋ + 1 else ⌊|v|⌋ : ℤ) = 0 := by exact_mod_cast h2
    split at h3
    · omega
    · exact ⟨by assumption, h3⟩
  have hb1 : (1 : ℚ) ≤ 2 ^ (f.bias + 1) := one_le_pow₀ (by norm_num)
  have hfr1 := Int.fract_lt_one |v|
  have hn : IsNum f t (f.sign t) (truncZ v : ℚ) := ⟨ht, htv, rfl⟩
  have hsub := sub_exact env hf (self_num hx) hn (by rw [← hv]; exact hr) (by rw [← hv, hab]; linarith)
  rw [← hv] at hsub
  have hsa := abs_num hsub.1
  rw [hsub.2, hab] at hsa
  have hh := half_num env hf hw
  have hle : f.le (half env) (absMask f &&& Fmt.sub env x t) = decide (1 / 2 ≤ Int.fract |v|) := by
    rw [absMask_and, le_finite hf hh.1 hsa.1, hh.2, hsa.2]
  unfold roundTail
  rw [hle, if_neg (by simpa using hcond.1)]
  have htz0 : (truncZ v : ℚ) = 0 := by rw [htz, hcond.2]; simp
  rw [htz0] at hn
  have := add_exact env hf hn (zero_num env hf hw) (by rw [add_zero]; exact ⟨0, f.emin, by simp, le_refl _, by simp⟩) (by rw [add_zero, abs_zero]; linarith)
  rw [this.3]
  cases f.sign t <;> simp

end StdSimd.Rounding
