import Verif.Proofs.X86FloatConvert
import Verif.Proofs.Hypot
/-! # Conversions of 64-bit integers to `float` with more than one rounding: the error -/
namespace StdSimd.X86FloatConvert
open Spec FloatBits Math

variable {f : Fmt}

/-! ## rounding integers -/

theorem roundTo_int (m : RMode) (n : ℤ) : ∃ k : ℤ, f.roundTo m n = k := by
  unfold Fmt.roundTo
  rcases le_or_gt 0 (f.qexp (n : ℚ)) with h | h
  · obtain ⟨e, he⟩ := Int.eq_ofNat_of_zero_le h
    rw [he]
    exact ⟨m.toInt ((n : ℚ) / 2 ^ (e : ℤ)) * 2 ^ e, by push_cast; rfl⟩
  · obtain ⟨e, he⟩ := Int.eq_ofNat_of_zero_le (a := -f.qexp (n : ℚ)) (by omega)
    have h2 : f.qexp (n : ℚ) = -(e : ℤ) := by omega
    refine ⟨n, ?_⟩
    rw [h2]
    have h3 : (n : ℚ) / 2 ^ (-(e : ℤ)) = ((n * 2 ^ e : ℤ) : ℚ) := by
      rw [zpow_neg]; push_cast; rw [div_inv_eq_mul]; rfl
    rw [h3, toInt_int]
    push_cast
    rw [zpow_neg, zpow_natCast, mul_assoc, mul_inv_cancel₀ (by positivity), mul_one]

/-- Slightly more than `2 ^ -23`. -/
def eps : ℚ := 1 / 8388000

theorem err32 (m : RMode) (n : ℤ) : |Fmt.roundTo ⟨8, 23⟩ m n - n| ≤ eps * |(n : ℚ)| := by
  by_cases h : n = 0
  · subst h
    have := roundTo_rep (f := ⟨8, 23⟩) m (rep_int ok32 (n := 0) (by simp))
    rw [this]; simp
  · have h1 := Hypot.round_err (f := ⟨8, 23⟩) m n
    have h2 : (1 : ℚ) ≤ |(n : ℚ)| := by
      have : 1 ≤ |n| := Int.one_le_abs h
      exact_mod_cast this
    have h3 : Fmt.unitRoundoff ⟨8, 23⟩ m ≤ 1 / 2 ^ 23 := by cases m <;> simp [Fmt.unitRoundoff] <;> norm_num
    have h4 : (2 : ℚ) ^ (⟨8, 23⟩ : Fmt).emin ≤ 1 / 2 ^ 100 := by
      rw [show (⟨8, 23⟩ : Fmt).emin = -149 by decide]
      rw [show (1 : ℚ) / 2 ^ 100 = 2 ^ (-100 : ℤ) by norm_num]
      exact zpow_le_zpow_right₀ (by norm_num) (by norm_num)
    have h5 := mul_le_mul_of_nonneg_right h3 (abs_nonneg (n : ℚ))
    have h6 : (1 : ℚ) / 2 ^ 100 ≤ 1 / 2 ^ 100 * |(n : ℚ)| := by
      have := mul_le_mul_of_nonneg_left h2 (show (0 : ℚ) ≤ 1 / 2 ^ 100 by norm_num)
      linarith
    have h7 : eps * |(n : ℚ)| - (1 / 2 ^ 23 + 1 / 2 ^ 100) * |(n : ℚ)| = (eps - (1 / 2 ^ 23 + 1 / 2 ^ 100)) * |(n : ℚ)| := by ring
    have h8 : 0 ≤ (eps - (1 / 2 ^ 23 + 1 / 2 ^ 100)) * |(n : ℚ)| := mul_nonneg (by norm_num [eps]) (abs_nonneg _)
    linarith

theorem err64 (m : RMode) (n : ℤ) : |Fmt.roundTo ⟨11, 52⟩ m n - n| ≤ 1 / 2 ^ 50 * |(n : ℚ)| := by
  by_cases h : n = 0
  · subst h
    have := roundTo_rep (f := ⟨11, 52⟩) m (rep_int ok64 (n := 0) (by simp))
    rw [this]; simp
  · have h1 := Hypot.round_err (f := ⟨11, 52⟩) m n
    have h2 : (1 : ℚ) ≤ |(n : ℚ)| := by
      have : 1 ≤ |n| := Int.one_le_abs h
      exact_mod_cast this
    have h3 : Fmt.unitRoundoff ⟨11, 52⟩ m ≤ 1 / 2 ^ 52 := by cases m <;> simp [Fmt.unitRoundoff] <;> norm_num
    have h4 : (2 : ℚ) ^ (⟨11, 52⟩ : Fmt).emin ≤ 1 / 2 ^ 52 := by
      rw [show (⟨11, 52⟩ : Fmt).emin = -1074 by decide]
      rw [show (1 : ℚ) / 2 ^ 52 = 2 ^ (-52 : ℤ) by norm_num]
      exact zpow_le_zpow_right₀ (by norm_num) (by norm_num)
    have h5 := mul_le_mul_of_nonneg_right h3 (abs_nonneg (n : ℚ))
    have h6 : (1 : ℚ) / 2 ^ 52 ≤ 1 / 2 ^ 52 * |(n : ℚ)| := by
      have := mul_le_mul_of_nonneg_left h2 (show (0 : ℚ) ≤ 1 / 2 ^ 52 by norm_num)
      linarith
    have h7 : (1 : ℚ) / 2 ^ 50 * |(n : ℚ)| = 4 * (1 / 2 ^ 52 * |(n : ℚ)|) := by ring
    have h8 : 0 ≤ 1 / 2 ^ 52 * |(n : ℚ)| := by positivity
    linarith

/-- An integer that `float` represents: at most 24 significant bits. -/
def Float24 (n : ℤ) : Prop := ∃ (c : ℤ) (e : ℕ), |c| ≤ 2 ^ 24 ∧ n = c * 2 ^ e

theorem Float24.rep {n : ℤ} (h : Float24 n) : Rep ⟨8, 23⟩ (n : ℚ) := by
  obtain ⟨c, e, hc, rfl⟩ := h
  have := rep_scale (rep_int ok32 (n := c) hc) e
  push_cast
  simpa using this

theorem Float24.round {n : ℤ} (h : Float24 n) (m : RMode) : Fmt.roundTo ⟨8, 23⟩ m n = n := roundTo_rep m h.rep

theorem Float24.rep64 {n : ℤ} (h : Float24 n) : Rep ⟨11, 52⟩ (n : ℚ) := by
  obtain ⟨c, e, hc, rfl⟩ := h
  have := rep_scale (rep_int ok64 (n := c) (le_trans hc (by show (2 : ℤ) ^ 24 ≤ 2 ^ 53; norm_num))) e
  push_cast
  simpa using this

theorem float24_small {n : ℤ} (h : |n| ≤ 2 ^ 24) : Float24 n := ⟨n, 0, h, by simp⟩

/-! ## values -/

/-- The finite value of a bit pattern. -/
structure Val (f : Fmt) (x : f.Bits) (v : ℚ) : Prop where
  finite : f.isFinite x
  value : f.ratValue x = v

theorem Val.of {x : f.Bits} {s : Bool} {v : ℚ} (h : IsNum f x s v) : Val f x v := ⟨h.1, h.2⟩

theorem val_round (hf : f.Ok) (m : RMode) (s : Bool) {q : ℚ} (h : |f.roundTo m q| < 2 ^ (f.bias + 1)) : Val f (f.round m s q) (f.roundTo m q) :=
  .of (round_spec hf m s h)

theorem val_add (env : f.Env) (hf : f.Ok) {x y : f.Bits} {a b : ℚ} (hx : Val f x a) (hy : Val f y b)
    (h : |f.roundTo env.mode (a + b)| < 2 ^ (f.bias + 1)) : Val f (Fmt.add env x y) (f.roundTo env.mode (a + b)) := by
  rw [add_finite env hf hx.1 hy.1, hx.2, hy.2]
  exact val_round hf _ _ h

theorem val_mul (env : f.Env) (hf : f.Ok) {x y : f.Bits} {a b : ℚ} (hx : Val f x a) (hy : Val f y b)
    (hr : Rep f (a * b)) (h : |a * b| < 2 ^ (f.bias + 1)) : Val f (Fmt.mul env x y) (a * b) :=
  .of (mul_exact env hf (s := f.sign x) (t := f.sign y) ⟨hx.1, hx.2, rfl⟩ ⟨hy.1, hy.2, rfl⟩ hr h)

theorem val_madd (env : f.Env) (hf : f.Ok) (fused : Bool) {x y z : f.Bits} {a b c : ℚ} (hx : Val f x a) (hy : Val f y b) (hz : Val f z c)
    (hr : Rep f (a * b)) (h1 : |a * b| < 2 ^ (f.bias + 1)) (h : |f.roundTo env.mode (a * b + c)| < 2 ^ (f.bias + 1)) :
    Val f (if fused then Fmt.fma env x y z else Fmt.add env (Fmt.mul env x y) z) (f.roundTo env.mode (a * b + c)) := by
  cases fused
  · rw [if_neg (by simp)]
    exact val_add env hf (val_mul env hf hx hy hr h1) hz h
  · rw [if_pos rfl]
    obtain ⟨a1, a2⟩ := finite_not hf hx.1
    obtain ⟨b1, b2⟩ := finite_not hf hy.1
    obtain ⟨c1, c2⟩ := finite_not hf hz.1
    unfold Fmt.fma
    rw [if_neg (by tauto), if_neg (by tauto), if_neg c2, hx.2, hy.2, hz.2]
    exact val_round hf _ _ h

/-- Rounding to `float` as a function on integers. -/
structure IsR (m : RMode) (R : ℤ → ℤ) : Prop where
  eq : ∀ n : ℤ, Fmt.roundTo ⟨8, 23⟩ m n = R n
  err : ∀ n : ℤ, (8388000 * (R n - n)).natAbs ≤ n.natAbs
  exact : ∀ n : ℤ, Float24 n → R n = n

theorem exists_R (m : RMode) : ∃ R : ℤ → ℤ, IsR m R := by
  choose R hR using fun n : ℤ => roundTo_int (f := ⟨8, 23⟩) m n
  refine ⟨R, hR, fun n => ?_, fun n hn => ?_⟩
  · have := err32 m n
    rw [hR] at this
    unfold eps at this
    have h2 : |((8388000 * (R n - n) : ℤ) : ℚ)| ≤ |(n : ℚ)| := by
      push_cast
      rw [abs_mul, abs_of_pos (show (0 : ℚ) < 8388000 by norm_num)]
      linarith
    have h3 : |8388000 * (R n - n)| ≤ |n| := by exact_mod_cast h2
    rw [Int.abs_eq_natAbs, Int.abs_eq_natAbs] at h3
    exact_mod_cast h3
  · have h := hR n
    rw [hn.round] at h
    exact_mod_cast h.symm

theorem float24_large {n : ℤ} (h : Float24 n) (hn : 2 ^ 40 < n.natAbs) : n % 2 ^ 16 = 0 := by
  obtain ⟨c, e, hc, he⟩ := h
  have h16 : 16 ≤ e := by
    by_contra h1
    have h2 : (2 : ℤ) ^ e ≤ 2 ^ 16 := pow_le_pow_right₀ (by norm_num) (by omega)
    have h3 : |n| ≤ 2 ^ 40 := by
      rw [he, abs_mul, abs_of_pos (show (0 : ℤ) < 2 ^ e by positivity)]
      calc |c| * 2 ^ e ≤ 2 ^ 24 * 2 ^ 16 := by gcongr
        _ = 2 ^ 40 := by norm_num
    rw [Int.abs_eq_natAbs] at h3
    omega
  obtain ⟨j, rfl⟩ := Nat.exists_eq_add_of_le h16
  have : n = (c * 2 ^ j) * 2 ^ 16 := by rw [he]; ring
  generalize c * 2 ^ j = q at this
  omega

theorem float24_hi {n hi : ℤ} (h : Float24 n) (hh : hi = n / 2 ^ 32) : Float24 hi := by
  obtain ⟨c, e, hc, he⟩ := h
  by_cases h1 : 32 ≤ e
  · obtain ⟨j, rfl⟩ := Nat.exists_eq_add_of_le h1
    have : n = (c * 2 ^ j) * 2 ^ 32 := by rw [he]; ring
    refine ⟨c, j, hc, ?_⟩
    generalize c * 2 ^ j = q at this ⊢
    omega
  · have h2 : (2 : ℤ) ^ e ≤ 2 ^ 31 := pow_le_pow_right₀ (by norm_num) (by omega)
    have h3 : |n| ≤ 2 ^ 55 := by
      rw [he, abs_mul, abs_of_pos (show (0 : ℤ) < 2 ^ e by positivity)]
      calc |c| * 2 ^ e ≤ 2 ^ 24 * 2 ^ 31 := by gcongr
        _ = 2 ^ 55 := by norm_num
    rw [abs_le] at h3
    exact float24_small (by rw [abs_le]; omega)

theorem halves_err {m : RMode} {R : ℤ → ℤ} (hR : IsR m R) {n hi a l : ℤ} (hn : n = hi * 2 ^ 32 + a * 2 ^ 16 + l) (ha : 0 ≤ a ∧ a < 2 ^ 16)
    (hl : 0 ≤ l ∧ l < 2 ^ 16) (hh : -2 ^ 31 ≤ hi ∧ hi < 2 ^ 32) :
    (2 ^ 21 * (R (R (R hi * 2 ^ 32 + a * 2 ^ 16) + l) - n)).natAbs ≤ n.natAbs
      ∧ (Float24 n → R (R (R hi * 2 ^ 32 + a * 2 ^ 16) + l) = n) := by
  have e0 := hR.err hi
  have e1 := hR.err (R hi * 2 ^ 32 + a * 2 ^ 16)
  have e2 := hR.err (R (R hi * 2 ^ 32 + a * 2 ^ 16) + l)
  by_cases hs : n.natAbs ≤ 2 ^ 40
  · have h0 : R hi = hi := hR.exact hi (float24_small (by rw [abs_le]; omega))
    have h1 : R (R hi * 2 ^ 32 + a * 2 ^ 16) = n - l := by
      rw [h0, hR.exact]
      · omega
      · refine ⟨hi * 2 ^ 16 + a, 16, ?_, by ring⟩
        rw [abs_le]; omega
    rw [h1] at e2 ⊢
    rw [sub_add_cancel] at e2 ⊢
    exact ⟨by omega, fun h => hR.exact n h⟩
  · constructor
    · clear hR
      generalize R (R (R hi * 2 ^ 32 + a * 2 ^ 16) + l) = k2 at *
      generalize R (R hi * 2 ^ 32 + a * 2 ^ 16) = k1 at *
      generalize R hi = k0 at *
      by_cases h0 : 0 ≤ n
      · omega
      · omega
    · intro h
      have hd := float24_large h (by omega)
      have hl0 : l = 0 := by omega
      subst hl0
      have h0 : R hi = hi := hR.exact hi (float24_hi h (by omega))
      have h1 : hi * 2 ^ 32 + a * 2 ^ 16 = n := by omega
      rw [h0, h1, hR.exact n h, add_zero, hR.exact n h]

theorem u64_err {m : RMode} {R : ℤ → ℤ} (hR : IsR m R) {n hi lo : ℤ} (hn : n = hi * 2 ^ 32 + lo) (hl : 0 ≤ lo ∧ lo < 2 ^ 32)
    (hh : 0 ≤ hi ∧ hi < 2 ^ 32) :
    (2 ^ 21 * (R (R hi * 2 ^ 32 + R lo) - n)).natAbs ≤ n.natAbs ∧ (Float24 n → R (R hi * 2 ^ 32 + R lo) = n) := by
  have e0 := hR.err hi
  have e1 := hR.err lo
  have e2 := hR.err (R hi * 2 ^ 32 + R lo)
  constructor
  · clear hR
    generalize R (R hi * 2 ^ 32 + R lo) = k2 at *
    generalize R lo = k1 at *
    generalize R hi = k0 at *
    omega
  · intro h
    have h0 : R hi = hi := hR.exact hi (float24_hi h (by omega))
    have h1 : R lo = lo := by
      apply hR.exact
      obtain ⟨c, e, hc, he⟩ := id h
      by_cases h8 : e < 8
      · have : hi = 0 := by
          have h2 : (2 : ℤ) ^ e ≤ 2 ^ 7 := pow_le_pow_right₀ (by norm_num) (by omega)
          have h3 : n < 2 ^ 32 := by
            rw [he]
            rw [abs_le] at hc
            calc c * 2 ^ e ≤ 2 ^ 24 * 2 ^ e := by nlinarith [pow_pos (show (0 : ℤ) < 2 by norm_num) e]
              _ ≤ 2 ^ 24 * 2 ^ 7 := by nlinarith
              _ < 2 ^ 32 := by norm_num
          omega
        rw [show lo = n by omega]; exact h
      · by_cases h32 : 32 ≤ e
        · obtain ⟨j, rfl⟩ := Nat.exists_eq_add_of_le h32
          rw [pow_add] at he
          have : lo = 0 := by
            generalize (2 : ℤ) ^ j = p at he
            have : n = (c * p) * 2 ^ 32 := by rw [he]; ring
            generalize c * p = q at this
            omega
          rw [this]; exact float24_small (by norm_num)
        · refine ⟨lo / 2 ^ e, e, ?_, ?_⟩
          · rw [abs_le]
            have h2 : (0 : ℤ) ≤ lo / 2 ^ e := Int.ediv_nonneg hl.1 (by positivity)
            have h3 : lo / 2 ^ e < 2 ^ 24 + 1 := by
              apply Int.ediv_lt_of_lt_mul (by positivity)
              have : (2 : ℤ) ^ 8 ≤ 2 ^ e := pow_le_pow_right₀ (by norm_num) (by omega)
              nlinarith
            omega
          · have hd : (2 : ℤ) ^ e ∣ lo := by
              have h2 : (2 : ℤ) ^ e ∣ n := ⟨c, by rw [he]; ring⟩
              have h3 : (2 : ℤ) ^ e ∣ hi * 2 ^ 32 := dvd_mul_of_dvd_right (pow_dvd_pow 2 (by omega)) _
              have : lo = n - hi * 2 ^ 32 := by omega
              rw [this]; exact dvd_sub h2 h3
            rw [Int.ediv_mul_cancel hd]
    rw [h0, h1, ← hn, hR.exact n h]

/-! ## terms -/

section
variable (env : (⟨8, 23⟩ : Fmt).Env) {R : ℤ → ℤ} (hR : IsR env.mode R)
include hR

theorem R_lt {n : ℤ} (h : |n| ≤ 2 ^ 100) : |Fmt.roundTo ⟨8, 23⟩ env.mode n| < 2 ^ ((⟨8, 23⟩ : Fmt).bias + 1) := by
  rw [hR.eq]
  have e := hR.err n
  rw [show (⟨8, 23⟩ : Fmt).bias + 1 = 128 from rfl]
  have : |R n| < 2 ^ 128 := by rw [abs_le] at h; rw [abs_lt]; omega
  exact_mod_cast this

theorem iadd {x y : (⟨8, 23⟩ : Fmt).Bits} {a b : ℤ} (hx : Val _ x a) (hy : Val _ y b) (h : |a + b| ≤ 2 ^ 100) :
    Val _ (Fmt.add env x y) (R (a + b)) := by
  have e : (a : ℚ) + b = ((a + b : ℤ) : ℚ) := by push_cast; rfl
  have := val_add env ok32 hx hy (by rw [e]; exact R_lt env hR h)
  rwa [e, hR.eq] at this

omit hR in
theorem imul {x y : (⟨8, 23⟩ : Fmt).Bits} {a : ℤ} (j : ℕ) (hx : Val _ x a) (hy : Val _ y ((2 ^ j : ℤ) : ℚ)) (h : |a * 2 ^ j| ≤ 2 ^ 100) :
    Val _ (Fmt.mul env y x) ((a * 2 ^ j : ℤ) : ℚ) := by
  have hr : Rep ⟨8, 23⟩ ((a * 2 ^ j : ℤ) : ℚ) := by
    have h1 := rep_ratValue ok32 x
    rw [hx.2] at h1
    have := rep_scale h1 j
    push_cast; simpa using this
  have e : ((2 ^ j : ℤ) : ℚ) * a = ((a * 2 ^ j : ℤ) : ℚ) := by push_cast; ring
  rw [← e] at hr ⊢
  refine val_mul env ok32 hy hx hr ?_
  rw [e, show (⟨8, 23⟩ : Fmt).bias + 1 = 128 from rfl]
  have : |a * 2 ^ j| < 2 ^ 128 := by omega
  exact_mod_cast this

theorem imadd (fused : Bool) {x y z : (⟨8, 23⟩ : Fmt).Bits} {a c : ℤ} (j : ℕ) (hx : Val _ x a) (hy : Val _ y ((2 ^ j : ℤ) : ℚ)) (hz : Val _ z c)
    (h : |a * 2 ^ j| ≤ 2 ^ 100) (h2 : |a * 2 ^ j + c| ≤ 2 ^ 100) :
    Val _ (if fused then Fmt.fma env x y z else Fmt.add env (Fmt.mul env x y) z) (R (a * 2 ^ j + c)) := by
  have hr : Rep ⟨8, 23⟩ ((a * 2 ^ j : ℤ) : ℚ) := by
    have h1 := rep_ratValue ok32 x
    rw [hx.2] at h1
    have := rep_scale h1 j
    push_cast; simpa using this
  have e : (a : ℚ) * ((2 ^ j : ℤ) : ℚ) = ((a * 2 ^ j : ℤ) : ℚ) := by push_cast; ring
  have e2 : ((a * 2 ^ j : ℤ) : ℚ) + c = ((a * 2 ^ j + c : ℤ) : ℚ) := by push_cast; ring
  rw [← e] at hr
  have := val_madd env ok32 fused hx hy hz hr (by
    rw [e, show (⟨8, 23⟩ : Fmt).bias + 1 = 128 from rfl]
    have : |a * 2 ^ j| < 2 ^ 128 := by omega
    exact_mod_cast this) (by rw [e, e2]; exact R_lt env hR h2)
  rwa [e, e2, hR.eq] at this

theorem iofInt {n : ℤ} (h : |n| ≤ 2 ^ 100) : Val _ (Fmt.ofInt env n) (R n) := by
  rw [← hR.eq]
  exact val_round ok32 env.mode false (R_lt env hR h)

theorem R_le {n : ℤ} (b : ℤ) (h : |n| ≤ b) : |R n| ≤ 2 * b := by
  have e := hR.err n
  rw [abs_le] at h ⊢; omega

/-- `(R hi * 2 ^ 32 + a * 2 ^ 16) + l`, rounded after every operation. -/
theorem halves_val {h m l p : (⟨8, 23⟩ : Fmt).Bits} {hi a lo : ℤ} (hh : Val _ h (R hi)) (hp : Val _ p (2 ^ 32 : ℤ)) (hm : Val _ m ((a * 2 ^ 16 : ℤ) : ℚ))
    (hl : Val _ l lo) (bh : |hi| ≤ 2 ^ 32) (ba : |a| ≤ 2 ^ 16) (bl : |lo| ≤ 2 ^ 16) :
    Val _ (Fmt.add env (Fmt.add env (Fmt.mul env p h) m) l) (R (R (R hi * 2 ^ 32 + a * 2 ^ 16) + lo)) := by
  have b0 := R_le env hR _ bh
  have b1 : |R hi * 2 ^ 32 + a * 2 ^ 16| ≤ 2 ^ 66 := by rw [abs_le] at *; omega
  have b2 := R_le env hR _ b1
  have b3 : |R hi * 2 ^ 32| ≤ 2 ^ 100 := by rw [abs_le] at *; omega
  refine iadd env hR (iadd env hR (imul env 32 hh hp b3) hm (by omega)) hl ?_
  rw [abs_le] at *; omega

theorem halves512_val (fused : Bool) {h m l p : (⟨8, 23⟩ : Fmt).Bits} {hi a lo : ℤ} (hh : Val _ h (R hi)) (hp : Val _ p (2 ^ 32 : ℤ))
    (hm : Val _ m ((a * 2 ^ 16 : ℤ) : ℚ)) (hl : Val _ l lo) (bh : |hi| ≤ 2 ^ 32) (ba : |a| ≤ 2 ^ 16) (bl : |lo| ≤ 2 ^ 16) :
    Val _ (Fmt.add env (if fused then Fmt.fma env h p m else Fmt.add env (Fmt.mul env h p) m) l) (R (R (R hi * 2 ^ 32 + a * 2 ^ 16) + lo)) := by
  have b0 := R_le env hR _ bh
  have b1 : |R hi * 2 ^ 32 + a * 2 ^ 16| ≤ 2 ^ 66 := by rw [abs_le] at *; omega
  have b2 := R_le env hR _ b1
  have b3 : |R hi * 2 ^ 32| ≤ 2 ^ 100 := by rw [abs_le] at *; omega
  refine iadd env hR (imadd env hR fused 32 hh hp hm b3 (by omega)) hl ?_
  rw [abs_le] at *; omega

theorem u64_val (fused : Bool) {h l p : (⟨8, 23⟩ : Fmt).Bits} {hi lo : ℤ} (hh : Val _ h (R hi)) (hp : Val _ p (2 ^ 32 : ℤ))
    (hl : Val _ l (R lo)) (bh : |hi| ≤ 2 ^ 32) (bl : |lo| ≤ 2 ^ 32) :
    Val _ (if fused then Fmt.fma env h p l else Fmt.add env (Fmt.mul env h p) l) (R (R hi * 2 ^ 32 + R lo)) := by
  have b0 := R_le env hR _ bh
  have b1 := R_le env hR _ bl
  refine imadd env hR fused 32 hh hp hl ?_ ?_ <;> (rw [abs_le] at *; omega)

theorem val_small {n : ℤ} (h : Float24 n) (h2 : |n| ≤ 2 ^ 100) : Val _ (Fmt.ofInt env n) n := by
  have := iofInt env hR h2
  rwa [hR.exact n h] at this

end

/-- What is true of the conversions with more than one rounding. -/
def Close (n : ℤ) (r : Nat) : Prop :=
  ∃ (b : (⟨8, 23⟩ : Fmt).Bits) (k : ℤ), r = b.toNat ∧ Val _ b k ∧ (2 ^ 21 * (k - n)).natAbs ≤ n.natAbs ∧ (Float24 n → k = n)

variable {env : Env} {args : Nat → Nat → Nat} {t u : Tm}

theorem lit32 (env : Env) {R : ℤ → ℤ} (hR : IsR env.mode R) : Val ⟨8, 23⟩ (Fmt.ofInt (env.at 4) 0x100000000) (2 ^ 32 : ℤ) :=
  val_small (env.at 4) hR ⟨1, 32, by norm_num, by norm_num⟩ (by norm_num)
theorem lit16 (env : Env) {R : ℤ → ℤ} (hR : IsR env.mode R) : Val ⟨8, 23⟩ (Fmt.ofInt (env.at 4) 0x10000) (2 ^ 16 : ℤ) :=
  val_small (env.at 4) hR ⟨1, 16, by norm_num, by norm_num⟩ (by norm_num)

theorem halves_close {cvt : Tm → Tm} {hi n : ℤ} (hx : t.eval env args < 2 ^ 64)
    (hc : (cvt (.half 1 t)).eval env args = (Fmt.ofInt (env.at 4) hi).toNat) (hb : -2 ^ 31 ≤ hi ∧ hi < 2 ^ 32)
    (hn : n = hi * 2 ^ 32 + (t.eval env args % 2 ^ 32 : ℕ)) : Close n ((halves cvt t).eval env args) := by
  obtain ⟨R, hR⟩ := exists_R env.mode
  have bh : |hi| ≤ 2 ^ 32 := by rw [abs_le]; omega
  generalize hxe : t.eval env args = x at hx hn
  have i1 : intValue true 4 (castBits 4 (intValue false 4 (x / 2 ^ (32 * 0) % 2 ^ 32) / 2 ^ 16)) = ((x % 2 ^ 32 / 2 ^ 16 : ℕ) : ℤ) := by
    unfold castBits intValue; simp only [Bool.false_eq_true, false_and, if_false]; split <;> omega
  have i2 : intValue true 4 ((x / 2 ^ (32 * 0) % 2 ^ 32) &&& 0xffff) = ((x % 2 ^ 16 : ℕ) : ℤ) := by
    rw [and_ffff]; unfold intValue; rw [if_neg] <;> omega
  have ha : x % 2 ^ 32 / 2 ^ 16 < 2 ^ 16 := by omega
  have hl : x % 2 ^ 16 < 2 ^ 16 := by omega
  have hs : x % 2 ^ 32 = x % 2 ^ 32 / 2 ^ 16 * 2 ^ 16 + x % 2 ^ 16 := by omega
  rw [hs] at hn
  have hm := imul (env.at 4) 16 (val_small (env.at 4) hR (n := ((x % 2 ^ 32 / 2 ^ 16 : ℕ) : ℤ)) (float24_small (by rw [abs_le]; omega)) (by rw [abs_le]; omega))
    (lit16 env hR) (by rw [abs_le]; omega)
  have hlv := val_small (env.at 4) hR (n := ((x % 2 ^ 16 : ℕ) : ℤ)) (float24_small (by rw [abs_le]; omega)) (by rw [abs_le]; omega)
  have hv := halves_val (env.at 4) hR (iofInt (env.at 4) hR (n := hi) (by rw [abs_le] at *; omega)) (lit32 env hR) hm hlv bh
    (by rw [abs_le]; omega) (by rw [abs_le]; omega)
  refine ⟨_, _, ?_, hv, halves_err hR (by push_cast at hn ⊢; omega) (by omega) (by omega) hb⟩
  unfold halves
  simp only [Tm.eval]
  rw [hc, hxe, i1, i2]
  simp only [ofNat_toNat]
  rfl

theorem and_high {y : Nat} (h : y < 2 ^ 32) : y &&& 0xffff0000 = y / 2 ^ 16 * 2 ^ 16 := by
  apply Nat.eq_of_testBit_eq
  intro i
  rw [Nat.testBit_and, Nat.testBit_mul_two_pow, Nat.testBit_div_two_pow, show (0xffff0000 : Nat) = (2 ^ 16 - 1) * 2 ^ 16 by norm_num,
    Nat.testBit_mul_two_pow, Nat.testBit_two_pow_sub_one]
  by_cases h1 : 16 ≤ i
  · rw [Nat.sub_add_cancel h1]
    by_cases h2 : i < 32
    · simp [h1]; omega
    · have : y.testBit i = false := Nat.testBit_lt_two_pow (lt_of_lt_of_le h (Nat.pow_le_pow_right (by norm_num) (by omega)))
      simp [this]
  · simp [h1]

theorem halves512_close (hx : t.eval env args < 2 ^ 64) : Close (intValue true 8 (t.eval env args)) ((halves512 t).eval env args) := by
  obtain ⟨R, hR⟩ := exists_R env.mode
  unfold halves512
  simp only [Tm.eval]
  generalize hxe : t.eval env args = x at hx
  have hb := intValue_bounds true hx
  have hb2 : intValue true 8 x < 2 ^ 63 := by unfold intValue; simp only [true_and]; split <;> omega
  have lo := low64 (sgn := true) hx
  rw [high64 (sgn := true) hx]
  generalize intValue true 8 x = n at *
  have hlt : castBits 4 n < 2 ^ 32 := by unfold castBits; omega
  generalize hy : castBits 4 n = y at *
  have i1 : intValue false 4 (y &&& 0xffff0000) = ((y / 2 ^ 16 : ℕ) : ℤ) * 2 ^ 16 := by
    rw [and_high hlt]; unfold intValue; simp only [Bool.false_eq_true, false_and, if_false]; push_cast; rfl
  have i2 : intValue true 4 (y &&& 0xffff) = ((y % 2 ^ 16 : ℕ) : ℤ) := by
    rw [and_ffff]; unfold intValue; rw [if_neg] <;> omega
  have ha : y / 2 ^ 16 < 2 ^ 16 := by omega
  have hm := val_small (env.at 4) hR (n := ((y / 2 ^ 16 : ℕ) : ℤ) * 2 ^ 16) ⟨_, 16, by rw [abs_le]; omega, rfl⟩ (by rw [abs_le]; omega)
  have hlv := val_small (env.at 4) hR (n := ((y % 2 ^ 16 : ℕ) : ℤ)) (float24_small (by rw [abs_le]; omega)) (by rw [abs_le]; omega)
  have hv := halves512_val (env.at 4) hR env.fused (iofInt (env.at 4) hR (n := n / 2 ^ 32) (by rw [abs_le]; omega)) (lit32 env hR) hm hlv
    (by rw [abs_le]; omega) (by rw [abs_le]; omega) (by rw [abs_le]; omega)
  refine ⟨_, _, ?_, hv, halves_err hR (by omega) (by omega) (by omega) (by omega)⟩
  rw [i1, i2]
  simp only [ofNat_toNat]
  rfl

theorem u64Split_close (hx : t.eval env args < 2 ^ 64) : Close (t.eval env args) ((u64Split t).eval env args) := by
  obtain ⟨R, hR⟩ := exists_R env.mode
  unfold u64Split
  simp only [Tm.eval]
  generalize hxe : t.eval env args = x at hx
  have i0 : intValue false 4 (castBits 4 (intValue true 8 (castBits 8 (intValue true 8 x / 2 ^ 32)))) = ((x / 2 ^ 32 : ℕ) : ℤ) := by
    unfold castBits intValue; simp only [Bool.false_eq_true, false_and, if_false, true_and]; (repeat' split) <;> omega
  have i1 : intValue false 4 (castBits 4 (intValue true 8 x)) = ((x % 2 ^ 32 : ℕ) : ℤ) := by
    unfold castBits intValue; simp only [Bool.false_eq_true, false_and, if_false, true_and]; (repeat' split) <;> omega
  have hv := u64_val (env.at 4) hR env.fused (iofInt (env.at 4) hR (n := ((x / 2 ^ 32 : ℕ) : ℤ)) (by rw [abs_le]; omega)) (lit32 env hR)
    (iofInt (env.at 4) hR (n := ((x % 2 ^ 32 : ℕ) : ℤ)) (by rw [abs_le]; omega)) (by rw [abs_le]; omega) (by rw [abs_le]; omega)
  refine ⟨_, _, ?_, hv, u64_err hR (by omega) (by omega) (by omega)⟩
  rw [i0, i1]
  simp only [ofNat_toNat]
  rfl

theorem fcvt_finite (env : Env) {s d : Nat} (hf : (fmt s).Ok) {b : (fmt s).Bits} (h : (fmt s).isFinite b) :
    fcvtTo env s d b = (fmt d).round env.mode ((fmt s).sign b) ((fmt s).ratValue b) := by
  obtain ⟨f1, f2⟩ := finite_not hf h
  unfold fcvtTo
  rw [if_neg f1, if_neg f2]

theorem viaDouble_close (hx : t.eval env args < 2 ^ 64) : Close (intValue true 8 (t.eval env args)) ((Tm.fcvt 8 4 (i64Split true t)).eval env args) := by
  obtain ⟨R, hR⟩ := exists_R env.mode
  have e : (Tm.fcvt 8 4 (i64Split true t)).eval env args
      = (fcvtTo env 8 4 (BitVec.ofNat _ ((i64Split true t).eval env args))).toNat := rfl
  rw [e, eval_i64Split true hx]
  have hb := intValue_bounds true hx
  generalize intValue true 8 (t.eval env args) = n at *
  obtain ⟨k, hk⟩ := roundTo_int (f := ⟨11, 52⟩) env.mode n
  have he := err64 env.mode n
  rw [hk] at he
  have he2 : (2 ^ 50 * (k - n)).natAbs ≤ n.natAbs := by
    have h2 : |((2 ^ 50 * (k - n) : ℤ) : ℚ)| ≤ |(n : ℚ)| := by
      have h1 : ((2 ^ 50 * (k - n) : ℤ) : ℚ) = 1125899906842624 * ((k : ℚ) - n) := by push_cast; ring
      rw [h1, abs_mul, abs_of_pos (show (0 : ℚ) < 1125899906842624 by norm_num)]
      linarith
    have h3 : |2 ^ 50 * (k - n)| ≤ |n| := by exact_mod_cast h2
    rw [Int.abs_eq_natAbs, Int.abs_eq_natAbs] at h3
    exact_mod_cast h3
  have hkb : |k| ≤ 2 ^ 65 := by rw [abs_le]; omega
  have hv : Val ⟨11, 52⟩ (Fmt.round ⟨11, 52⟩ env.mode false n) k := by
    rw [← hk]
    refine val_round ok64 _ _ ?_
    rw [hk, show (⟨11, 52⟩ : Fmt).bias + 1 = 1024 from rfl]
    have h1 : |(k : ℚ)| ≤ 2 ^ 65 := by exact_mod_cast hkb
    exact lt_of_le_of_lt h1 (pow_lt_pow_right₀ (by norm_num) (by norm_num))
  generalize hbb : Fmt.round ⟨11, 52⟩ env.mode false (n : ℚ) = b at *
  refine ⟨fcvtTo env 8 4 b, R k, ?_, ?_, ?_, ?_⟩
  · rw [show BitVec.ofNat (fmt 8).width b.toNat = b from ofNat_toNat (f := ⟨11, 52⟩) b]
    rfl
  · rw [fcvt_finite env (s := 8) (d := 4) ok64 (b := b) hv.1, show (fmt 8).ratValue b = k from hv.2, ← hR.eq]
    exact val_round ok32 _ _ (R_lt (env.at 4) hR (by rw [abs_le] at *; omega))
  · have := hR.err k
    omega
  · intro h
    have : k = n := by
      rw [roundTo_rep _ h.rep64] at hk
      exact_mod_cast hk.symm
    rw [this, hR.exact n h]

theorem rounded_close {sgn : Bool} (hx : t.eval env args < 2 ^ 64) (hu : u ∈ rounded ⟨false, sgn, 8⟩ t) :
    Close (intValue sgn 8 (t.eval env args)) (u.eval env args) := by
  unfold rounded at hu
  cases sgn
  · simp at hu
    have e : intValue false 8 (t.eval env args) = (t.eval env args : ℤ) := rfl
    rw [e]
    rcases hu with rfl | rfl
    · have hlt : (Tm.half 1 t).eval env args < 2 ^ 32 := Nat.mod_lt _ (by norm_num)
      refine halves_close hx (eval_u32Split hlt) (by omega) ?_
      simp only [Tm.eval]; omega
    · exact u64Split_close hx
  · simp at hu
    rcases hu with rfl | rfl | rfl
    · refine halves_close hx (hi := intValue true 4 (t.eval env args / 2 ^ 32)) ?_ ?_ ?_
      · have : t.eval env args / 2 ^ (32 * 1) % 2 ^ 32 = t.eval env args / 2 ^ 32 := by omega
        simp only [Tm.eval]; rw [this]
      · unfold intValue; simp only [true_and]; split <;> omega
      · unfold intValue; simp only [true_and]; (repeat' split) <;> omega
    · exact halves512_close hx
    · exact viaDouble_close hx

end StdSimd.X86FloatConvert
