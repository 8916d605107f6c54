import Verif.Proofs.Math
import Verif.Model.Hypot
import Mathlib.Tactic.Linarith
import Mathlib.Tactic.Positivity
import Mathlib.Data.Nat.Sqrt
/-!
# Proofs about `hypot`
-/
namespace StdSimd.Hypot
open Spec FloatBits Math
open StdSimd.Rounding

variable {f : Fmt} (env : f.Env)

/-! ## errors of rounding -/

/-- Half a unit or a whole unit. -/
def slack (m : RMode) : ℚ := if m = .nearest then 1 / 2 else 1

theorem slack_le (m : RMode) : 0 < slack m ∧ slack m ≤ 1 := by unfold slack; split <;> norm_num

theorem unit_eq (m : RMode) : f.unitRoundoff m = slack m / 2 ^ f.mbits := rfl

theorem unit_pos (m : RMode) : 0 < f.unitRoundoff m := by
  rw [unit_eq]; exact div_pos (slack_le m).1 (by positivity)

theorem toInt_err (m : RMode) (q : ℚ) : |(m.toInt q : ℚ) - q| ≤ slack m := by
  by_cases h : m = .nearest
  · subst h; exact roundEven_close q
  · have hs : slack m = 1 := by unfold slack; rw [if_neg h]
    obtain ⟨h1, h2⟩ := toInt_bounds m q
    have h1' : (⌊q⌋ : ℚ) ≤ m.toInt q := by exact_mod_cast h1
    have h2' : (m.toInt q : ℚ) ≤ ⌈q⌉ := by exact_mod_cast h2
    have h3 := Int.lt_floor_add_one q
    have h4 := Int.ceil_lt_add_one q
    rw [hs, abs_le]; constructor <;> linarith

theorem round_err (m : RMode) (q : ℚ) : |f.roundTo m q - q| ≤ f.unitRoundoff m * |q| + 2 ^ f.emin := by
  have hq : (0 : ℚ) < 2 ^ f.qexp q := by positivity
  have h1 := toInt_err m (q / 2 ^ f.qexp q)
  have h2 : |f.roundTo m q - q| ≤ slack m * 2 ^ f.qexp q := by
    have e : f.roundTo m q - q = (m.toInt (q / 2 ^ f.qexp q) - q / 2 ^ f.qexp q) * 2 ^ f.qexp q := by
      unfold Fmt.roundTo; rw [sub_mul, div_mul_cancel₀ _ hq.ne']
    rw [e, abs_mul, abs_of_pos hq]
    exact mul_le_mul_of_nonneg_right h1 hq.le
  have hu := unit_pos (f := f) m
  have he : (0 : ℚ) < 2 ^ f.emin := by positivity
  by_cases h0 : q = 0
  · subst h0
    rw [show f.roundTo m 0 = 0 by unfold Fmt.roundTo; rw [zero_div, show (0 : ℚ) = ((0 : ℤ) : ℚ) by simp, toInt_int]; simp]
    simp; positivity
  refine le_trans h2 ?_
  obtain ⟨hs1, hs2⟩ := slack_le m
  rcases le_total (Int.log 2 |q| - f.mbits) f.emin with h | h
  · have : f.qexp q = f.emin := max_eq_right h
    rw [this]
    have : slack m * 2 ^ f.emin ≤ 1 * 2 ^ f.emin := mul_le_mul_of_nonneg_right hs2 he.le
    have : 0 ≤ f.unitRoundoff m * |q| := by positivity
    linarith
  · have : f.qexp q = Int.log 2 |q| - f.mbits := max_eq_left h
    rw [this, unit_eq, zpow_sub₀ (by norm_num), zpow_natCast]
    have := (abs_zpow_log h0).1
    have h3 : slack m * (2 ^ Int.log 2 |q| / 2 ^ f.mbits) ≤ slack m / 2 ^ f.mbits * |q| := by
      rw [div_mul_eq_mul_div, mul_div_assoc']
      apply div_le_div_of_nonneg_right _ (by positivity)
      exact mul_le_mul_of_nonneg_left this hs1.le
    linarith

/-- Rounding does not go below one. -/
theorem one_le_roundTo (hf : f.Ok) (m : RMode) {q : ℚ} (h : 1 ≤ q) (h2 : q < 2 ^ f.mbits) : 1 ≤ f.roundTo m q := by
  have h0 : (0 : ℚ) < q := by linarith
  have hk : f.qexp q ≤ 0 := by
    unfold Fmt.qexp
    refine max_le ?_ (by have := emin_le hf; omega)
    rw [abs_of_pos h0]
    have h3 := (log_bounds h0).1
    have : (2 : ℚ) ^ Int.log 2 q < 2 ^ (f.mbits : ℤ) := by rw [zpow_natCast]; linarith
    have := (zpow_lt_zpow_iff_right₀ (by norm_num : (1 : ℚ) < 2)).1 this
    omega
  obtain ⟨k, hk'⟩ : ∃ k : ℕ, f.qexp q = -(k : ℤ) := ⟨(-f.qexp q).toNat, by omega⟩
  unfold Fmt.roundTo
  rw [hk', zpow_neg, zpow_natCast, div_inv_eq_mul]
  have h4 : (((2 ^ k : ℤ)) : ℚ) ≤ q * 2 ^ k := by
    push_cast
    have : (0 : ℚ) < 2 ^ k := by positivity
    nlinarith
  have h5 := toInt_mono m h4
  rw [toInt_int] at h5
  have h6 : (2 : ℚ) ^ k ≤ m.toInt (q * 2 ^ k) := by exact_mod_cast h5
  rw [← div_eq_mul_inv, le_div_iff₀ (by positivity)]; linarith

/-! ## square roots -/

theorem sqrt_bounds (m : RMode) {q : ℚ} (h : 1 ≤ q) :
    1 ≤ m.sqrt q ∧ ((m.sqrt q : ℚ) - slack m) ^ 2 ≤ q ∧ q ≤ ((m.sqrt q : ℚ) + slack m) ^ 2 := by
  obtain ⟨n, hn⟩ : ∃ n : ℕ, ⌊q⌋ = n := ⟨⌊q⌋.toNat, by have : 0 ≤ ⌊q⌋ := Int.floor_nonneg.2 (by linarith); omega⟩
  have hn1 : 1 ≤ n := by have : 1 ≤ ⌊q⌋ := Int.le_floor.2 (by simpa using h); omega
  have e : ⌊q⌋.toNat = n := by omega
  have f1 : (n : ℚ) ≤ q := by have := Int.floor_le q; rw [hn] at this; simpa using this
  have f2 : q < n + 1 := by have := Int.lt_floor_add_one q; rw [hn] at this; simpa using this
  set s := Nat.sqrt n with hs
  have s1 : s * s ≤ n := Nat.sqrt_le n
  have s2 : n + 1 ≤ (s + 1) * (s + 1) := Nat.succ_le_succ_sqrt n
  have s0 : 1 ≤ s := Nat.sqrt_pos.2 hn1
  have g1 : (s : ℚ) ^ 2 ≤ q := by
    have : ((s * s : ℕ) : ℚ) ≤ n := by exact_mod_cast s1
    push_cast at this; nlinarith
  have g2 : q < ((s : ℚ) + 1) ^ 2 := by
    have : ((n + 1 : ℕ) : ℚ) ≤ ((s + 1) * (s + 1) : ℕ) := by exact_mod_cast s2
    push_cast at this; nlinarith
  have g0 : (1 : ℚ) ≤ s := by exact_mod_cast s0
  have key : m.sqrt q = if m = .up then (if (s : ℚ) ^ 2 = q then s else s + 1) else if m = .nearest then
      (if q < (s + 1 / 2 : ℚ) ^ 2 then s else if (s + 1 / 2 : ℚ) ^ 2 < q then s + 1 else if Even s then s else s + 1) else s := by
    unfold RMode.sqrt; rw [e]; cases m <;> rfl
  rw [key]
  unfold slack
  by_cases h1 : m = .nearest
  · subst h1
    rw [if_neg (by decide), if_pos rfl, if_pos rfl]
    split_ifs with a b c <;> refine ⟨by first | exact s0 | exact Nat.le_add_left _ _, ?_, ?_⟩ <;> push_cast <;> nlinarith
  rw [if_neg h1, if_neg h1]
  split_ifs <;> refine ⟨by first | exact s0 | exact Nat.le_add_left _ _, ?_, ?_⟩ <;> push_cast <;> nlinarith

theorem le_sqrt (m : RMode) {q : ℚ} {n : ℕ} (h : (n : ℚ) ^ 2 ≤ q) : n ≤ m.sqrt q := by
  have h1 : n * n ≤ ⌊q⌋.toNat := by
    have : ((n * n : ℕ) : ℤ) ≤ ⌊q⌋ := Int.le_floor.2 (by push_cast; nlinarith)
    omega
  have h2 : n ≤ Nat.sqrt ⌊q⌋.toNat := Nat.le_sqrt.2 h1
  unfold RMode.sqrt
  cases m <;> dsimp only
  · split_ifs <;> omega
  · exact h2
  · split_ifs <;> omega
  · exact h2

theorem sqrt_le (m : RMode) {q : ℚ} {n : ℕ} (h0 : 0 ≤ q) (h : q ≤ (n : ℚ) ^ 2) : m.sqrt q ≤ n := by
  have hk : (Nat.sqrt ⌊q⌋.toNat : ℚ) ^ 2 ≤ q := by
    have h1 := Nat.sqrt_le ⌊q⌋.toNat
    have h2 : ((Nat.sqrt ⌊q⌋.toNat * Nat.sqrt ⌊q⌋.toNat : ℕ) : ℤ) ≤ ⌊q⌋ := by
      have : 0 ≤ ⌊q⌋ := Int.floor_nonneg.2 h0
      omega
    have := Int.le_floor.1 h2
    push_cast at this; nlinarith
  have hle : Nat.sqrt ⌊q⌋.toNat ≤ n := by
    by_contra hc
    have : (n : ℚ) + 1 ≤ Nat.sqrt ⌊q⌋.toNat := by exact_mod_cast (show n + 1 ≤ _ by omega)
    have : (0 : ℚ) ≤ n := by positivity
    nlinarith
  unfold RMode.sqrt
  set s := Nat.sqrt ⌊q⌋.toNat with hs
  rcases Nat.lt_or_ge s n with hl | hl
  · cases m <;> dsimp only <;> (try split_ifs) <;> omega
  · have : s = n := by omega
    have hq : (s : ℚ) ^ 2 = q := by rw [this] at hk ⊢; linarith
    have h0 : (0 : ℚ) ≤ s := by positivity
    cases m <;> dsimp only
    · rw [if_pos (by nlinarith)]; omega
    · omega
    · rw [if_pos hq]; omega
    · omega

theorem rep_le {n : ℕ} {e : ℤ} (h : n ≤ 2 ^ (f.mbits + 1)) (he : f.emin ≤ e) : Rep f ((n : ℚ) * 2 ^ e) := by
  rcases Nat.lt_or_ge n (2 ^ (f.mbits + 1)) with h1 | h1
  · refine ⟨n, e, ?_, he, by simp⟩
    rw [abs_of_nonneg (by positivity)]; exact_mod_cast h1
  · have : n = 2 ^ (f.mbits + 1) := by omega
    refine ⟨2 ^ f.mbits, e + 1, ?_, by omega, ?_⟩
    · rw [abs_of_nonneg (by positivity), pow_succ]; have : (0 : ℤ) < 2 ^ f.mbits := by positivity
      omega
    · rw [this, zpow_add₀ (by norm_num)]; push_cast; ring

/-- What is needed about the square root of a positive number. -/
structure SqrtOk (f : Fmt) (m : RMode) (s t : ℚ) : Prop where
  lower : t ^ 2 * (1 - f.unitRoundoff m) ^ 2 ≤ s
  upper : s ≤ t ^ 2 * (1 + f.unitRoundoff m) ^ 2
  pos : 0 < t
  one : 1 ≤ s → s < 2 ^ f.mbits → 1 ≤ t

theorem sqrtTo_spec (hf : f.Ok) (hw : f.mbits < f.bias) (m : RMode) {s : ℚ} (h1 : 2 ^ f.emin ≤ s) (h2 : s < 2 ^ (f.bias + 1)) :
    SqrtOk f m s (f.sqrtTo m s) ∧ Rep f (f.sqrtTo m s) ∧ f.sqrtTo m s < 2 ^ (f.bias + 1) := by
  have he0 : (0 : ℚ) < 2 ^ f.emin := by positivity
  have hs : 0 < s := by linarith
  obtain ⟨l1, l2⟩ := log_bounds hs
  set L := Int.log 2 s with hL
  have two : (1 : ℚ) < 2 := by norm_num
  have hLlo : f.emin ≤ L := by
    have : (2 : ℚ) ^ f.emin < 2 ^ (L + 1) := lt_of_le_of_lt h1 l2
    have := (zpow_lt_zpow_iff_right₀ two).1 this
    omega
  have hLhi : L ≤ f.bias := by
    have : (2 : ℚ) ^ L < 2 ^ ((f.bias + 1 : ℕ) : ℤ) := by rw [zpow_natCast]; linarith
    have := (zpow_lt_zpow_iff_right₀ two).1 this
    omega
  have hem : f.emin = 1 - f.bias - f.mbits := rfl
  have he : f.sqrtExp s = L / 2 - f.mbits := by
    unfold Fmt.sqrtExp; rw [← hL]; exact max_eq_left (by omega)
  set e := f.sqrtExp s with hee
  have hp : (0 : ℚ) < 2 ^ (2 * e) := by positivity
  set q := s / 2 ^ (2 * e) with hq
  have hsq : s = q * 2 ^ (2 * e) := by rw [hq, div_mul_cancel₀ _ hp.ne']
  have hq1 : ((2 ^ f.mbits : ℕ) : ℚ) ^ 2 ≤ q := by
    rw [hq, le_div_iff₀ hp]
    refine le_trans ?_ l1
    push_cast
    rw [← pow_mul, ← zpow_natCast, ← zpow_add₀ (by norm_num)]
    apply zpow_le_zpow_right₀ (by norm_num)
    push_cast; omega
  have hq2 : q ≤ ((2 ^ (f.mbits + 1) : ℕ) : ℚ) ^ 2 := by
    rw [hq, div_le_iff₀ hp]
    refine le_trans l2.le ?_
    push_cast
    rw [← pow_mul, ← zpow_natCast, ← zpow_add₀ (by norm_num)]
    apply zpow_le_zpow_right₀ (by norm_num)
    push_cast; omega
  have hmp : (1 : ℚ) ≤ 2 ^ f.mbits := one_le_pow₀ (by norm_num)
  have hq0 : 1 ≤ q := by push_cast at hq1; nlinarith
  obtain ⟨b1, b2, b3⟩ := sqrt_bounds m hq0
  have n1 := le_sqrt m hq1
  have n2 := sqrt_le m (by linarith) hq2
  have ht : f.sqrtTo m s = (m.sqrt q : ℚ) * 2 ^ e := rfl
  set n := m.sqrt q with hn
  have n1' : (2 : ℚ) ^ f.mbits ≤ n := by exact_mod_cast n1
  have hd : slack m ≤ f.unitRoundoff m * n := by
    rw [unit_eq, div_mul_eq_mul_div, le_div_iff₀ (by positivity)]
    exact mul_le_mul_of_nonneg_left n1' (slack_le m).1.le
  have hu := unit_pos (f := f) m
  have hu1 : f.unitRoundoff m ≤ 1 := by
    rw [unit_eq, div_le_one (by positivity)]; exact le_trans (slack_le m).2 hmp
  have ht2 : f.sqrtTo m s ^ 2 = (n : ℚ) ^ 2 * 2 ^ (2 * e) := by
    rw [ht, mul_pow, ← zpow_natCast (2 ^ e : ℚ) 2, ← zpow_mul]; push_cast; rw [mul_comm e 2]
  have hn0 : (0 : ℚ) < n := by linarith
  refine ⟨⟨?_, ?_, ?_, ?_⟩, ?_, ?_⟩
  · rw [ht2, hsq, mul_right_comm]
    apply mul_le_mul_of_nonneg_right _ hp.le
    refine le_trans ?_ b2
    rw [← mul_pow]
    apply pow_le_pow_left₀ (mul_nonneg hn0.le (by linarith))
    linarith [mul_comm f.unitRoundoff]
  · rw [ht2, mul_right_comm]
    rw [hsq]
    apply mul_le_mul_of_nonneg_right _ hp.le
    refine le_trans b3 ?_
    rw [← mul_pow]
    apply pow_le_pow_left₀ (add_nonneg hn0.le (slack_le m).1.le)
    linarith
  · rw [ht]; positivity
  · intro g1 g2
    have hL0 : L / 2 - f.mbits ≤ 0 := by
      have : (2 : ℚ) ^ L < 2 ^ (f.mbits : ℤ) := by rw [zpow_natCast]; linarith
      have := (zpow_lt_zpow_iff_right₀ two).1 this
      omega
    obtain ⟨k, hk⟩ : ∃ k : ℕ, e = -(k : ℤ) := ⟨(-e).toNat, by omega⟩
    have : ((2 ^ k : ℕ) : ℚ) ^ 2 ≤ q := by
      rw [hq, le_div_iff₀ hp, hk]; push_cast
      rw [← pow_mul, ← zpow_natCast, ← zpow_add₀ (by norm_num), show ((k * 2 : ℕ) : ℤ) + 2 * -(k : ℤ) = 0 by push_cast; ring]
      simpa using g1
    have n3 := le_sqrt m this
    have n3' : (2 : ℚ) ^ k ≤ n := by exact_mod_cast n3
    rw [ht, hk, zpow_neg, zpow_natCast, ← div_eq_mul_inv, le_div_iff₀ (by positivity)]; linarith
  · rw [ht]; exact rep_le n2 (by rw [he]; omega)
  · rw [ht]
    have n2' : (n : ℚ) ≤ 2 ^ (f.mbits + 1) := by exact_mod_cast n2
    have : (n : ℚ) * 2 ^ e ≤ 2 ^ (f.mbits + 1) * 2 ^ e := mul_le_mul_of_nonneg_right n2' (by positivity)
    refine lt_of_le_of_lt this ?_
    rw [← zpow_natCast, ← zpow_natCast, ← zpow_add₀ (by norm_num)]
    apply zpow_lt_zpow_right₀ two
    push_cast; omega

theorem sqrt_val (hf : f.Ok) (hw : f.mbits < f.bias) {x : f.Bits} {s : ℚ} (hx : IsNum f x false s) (hs : 0 < s) :
    IsNum f (Fmt.sqrt env x) false (f.sqrtTo env.mode s) ∧ SqrtOk f env.mode s (f.sqrtTo env.mode s) ∧ Rep f (f.sqrtTo env.mode s) := by
  obtain ⟨c1, c2⟩ := finite_not hf hx.1
  have hz : ¬ f.isZero x := by
    intro h
    rw [isZero_iff] at h
    have := ratValue_mag x
    rw [h, unit_zero, hx.2] at this
    simp at this; linarith
  have h1 := abs_ge_quantum hz
  have h2 := ratValue_lt hf hx.1
  rw [hx.2, abs_of_pos hs] at h1 h2
  obtain ⟨a, b, c⟩ := sqrtTo_spec hf hw env.mode h1 h2
  have key := ofMag_encode hf false b a.pos.le c
  refine ⟨?_, a, b⟩
  unfold Fmt.sqrt
  rw [if_neg c1, if_neg hz, if_neg (by rw [hx.3]; simp), if_neg c2, hx.2]
  simpa using key

theorem sqrt_num (hf : f.Ok) (hw : f.mbits < f.bias) {x : f.Bits} {s : ℚ} (hx : IsNum f x false s) (hs : 0 < s) :
    ∃ t, IsNum f (Fmt.sqrt env x) false t ∧ SqrtOk f env.mode s t ∧ Rep f t := ⟨_, sqrt_val env hf hw hx hs⟩

/-! ## sums of squares -/

/-- The properties of binary32 and binary64 that are used. -/
structure HOk (f : Fmt) : Prop where
  ok : f.Ok
  int : f.mbits < f.bias
  mant : 8 ≤ f.mbits
  tiny : f.emin ≤ -(4 * f.mbits + 12 : ℕ)

theorem hok32 : HOk ⟨8, 23⟩ := by constructor <;> decide
theorem hok64 : HOk ⟨11, 52⟩ := by constructor <;> decide

theorem unit_le (g : HOk f) (m : RMode) : f.unitRoundoff m ≤ 1 / 256 := by
  rw [unit_eq, div_le_iff₀ (by positivity)]
  have : (2 : ℚ) ^ 8 ≤ 2 ^ f.mbits := pow_le_pow_right₀ (by norm_num) g.mant
  have := (slack_le m).2
  linarith

/-- Subnormal numbers are negligible. -/
theorem tiny_le (g : HOk f) (m : RMode) : 256 * 2 ^ f.emin ≤ f.unitRoundoff m ^ 2 * (2 ^ (-(f.mbits : ℤ))) ^ 2 := by
  have h1 : (1 / 2 : ℚ) * 2 ^ (-(f.mbits : ℤ)) ≤ f.unitRoundoff m := by
    rw [unit_eq, zpow_neg, zpow_natCast, div_eq_mul_inv]
    apply mul_le_mul_of_nonneg_right _ (by positivity)
    unfold slack; split <;> norm_num
  have h2 : (2 : ℚ) ^ f.emin ≤ 2 ^ (-(4 * f.mbits + 12 : ℕ) : ℤ) := zpow_le_zpow_right₀ (by norm_num) g.tiny
  have h3 : (0 : ℚ) < 2 ^ (-(f.mbits : ℤ)) := by positivity
  have h4 : (2 : ℚ) ^ (-(4 * f.mbits + 12 : ℕ) : ℤ) = (2 ^ (-(f.mbits : ℤ))) ^ 4 / 4096 := by
    rw [zpow_neg, zpow_neg, zpow_natCast, zpow_natCast, pow_add, pow_mul, inv_pow, ← pow_mul, ← pow_mul, mul_comm 4, mul_inv]
    norm_num [div_eq_mul_inv]
  set a := (2 : ℚ) ^ (-(f.mbits : ℤ)) with ha
  have h5 : (1 / 2 * a) ^ 2 ≤ f.unitRoundoff m ^ 2 := pow_le_pow_left₀ (by positivity) h1 2
  have h6 : (1 / 2 * a) ^ 2 * a ^ 2 ≤ f.unitRoundoff m ^ 2 * a ^ 2 := mul_le_mul_of_nonneg_right h5 (by positivity)
  have h7 : 0 < a ^ 4 := by positivity
  rw [h4] at h2
  nlinarith

theorem tiny_pos (g : HOk f) : (0 : ℚ) < 2 ^ f.emin ∧ (2 : ℚ) ^ f.emin ≤ 1 / 4096 := by
  refine ⟨by positivity, ?_⟩
  have : (2 : ℚ) ^ f.emin ≤ 2 ^ (-12 : ℤ) := zpow_le_zpow_right₀ (by norm_num) (by have := g.tiny; push_cast at this; omega)
  norm_num at this ⊢; linarith

theorem pow_bias (g : HOk f) : (64 : ℚ) ≤ 2 ^ (f.bias + 1) ∧ (64 : ℚ) ≤ 2 ^ f.mbits := by
  have h1 : (2 : ℚ) ^ 8 ≤ 2 ^ f.mbits := pow_le_pow_right₀ (by norm_num) g.mant
  have h2 : (2 : ℚ) ^ f.mbits ≤ 2 ^ (f.bias + 1) := pow_le_pow_right₀ (by norm_num) (by have := g.int; omega)
  constructor <;> linarith

/-- A rounded nonnegative result. -/
theorem round_nonneg (g : HOk f) (m : RMode) {q : ℚ} (h0 : 0 ≤ q) (h1 : q ≤ 20) :
    ∃ s, IsNum f (f.round m false q) false s ∧ |s - q| ≤ f.unitRoundoff m * q + 2 ^ f.emin ∧ 0 ≤ s ∧ (1 ≤ q → 1 ≤ s) ∧ (q = 0 → s = 0) := by
  have he := round_err (f := f) m q
  have hu := unit_le g m
  have hu0 := unit_pos (f := f) m
  obtain ⟨ht0, ht⟩ := tiny_pos g
  obtain ⟨hb, hb2⟩ := pow_bias g
  have hs := (roundTo_sign (f := f) m).1 h0
  rw [abs_of_nonneg h0] at he
  have hl : |f.roundTo m q| < 2 ^ (f.bias + 1) := by
    rw [abs_of_nonneg hs]
    have := (abs_le.1 he).2
    nlinarith
  have := round_spec g.ok m false hl
  rw [show (if q = 0 then false else decide (q < 0)) = false by split <;> simp [h0]] at this
  refine ⟨_, this, he, hs, fun h => one_le_roundTo g.ok m h (by linarith), fun h => ?_⟩
  rw [h]
  exact roundTo_rep m ⟨0, f.emin, by simp, le_refl _, by simp⟩

theorem mul_fin (hf : f.Ok) {x y : f.Bits} {s t : Bool} {a b : ℚ} (hx : IsNum f x s a) (hy : IsNum f y t b) :
    Fmt.mul env x y = f.round env.mode (s ^^ t) (a * b) := by
  obtain ⟨c1, c2⟩ := finite_not hf hx.1
  obtain ⟨d1, d2⟩ := finite_not hf hy.1
  unfold Fmt.mul
  rw [if_neg (by tauto), if_neg (by tauto), hx.2, hy.2, hx.3, hy.3]

theorem add_fin (hf : f.Ok) {x y : f.Bits} {a b : ℚ} (hx : IsNum f x false a) (hy : IsNum f y false b) :
    Fmt.add env x y = f.round env.mode false (a + b) := by
  rw [add_finite env hf hx.1 hy.1, hx.2, hy.2, hx.3, hy.3, if_pos rfl]

theorem fma_fin (hf : f.Ok) {x y z : f.Bits} {a b c : ℚ} (hx : IsNum f x false a) (hy : IsNum f y false b) (hz : IsNum f z false c) :
    Fmt.fma env x y z = f.round env.mode false (a * b + c) := by
  obtain ⟨c1, c2⟩ := finite_not hf hx.1
  obtain ⟨d1, d2⟩ := finite_not hf hy.1
  obtain ⟨e1, e2⟩ := finite_not hf hz.1
  unfold Fmt.fma
  rw [if_neg (by tauto), if_neg (by tauto), if_neg e2, hx.2, hy.2, hz.2, hx.3, hy.3, hz.3]
  simp

theorem sq_num (g : HOk f) {x : f.Bits} {a : ℚ} (hx : IsNum f x false a) (h0 : 0 ≤ a) (h2 : a ≤ 9 / 4) :
    ∃ s, IsNum f (Fmt.mul env x x) false s ∧ |s - a ^ 2| ≤ f.unitRoundoff env.mode * a ^ 2 + 2 ^ f.emin ∧ 0 ≤ s ∧ (1 ≤ a → 1 ≤ s) ∧ (a = 0 → s = 0) := by
  rw [mul_fin env g.ok hx hx]
  obtain ⟨s, h1, h3, h4, h5, h6⟩ := round_nonneg g env.mode (q := a * a) (by positivity) (by nlinarith)
  exact ⟨s, by simpa using h1, by rwa [sq], h4, fun h => h5 (by nlinarith), fun h => h6 (by rw [h, zero_mul])⟩

/-- Combining two errors. -/
theorem combine {w η a b A B s : ℚ} (hw : 0 < w) (hw1 : w ≤ 1 / 256) (hη : 0 < η) (ha : |a - A| ≤ w * A + η)
    (hb : |b - B| ≤ w * B + η) (hs : |s - (a + b)| ≤ w * (a + b) + η) :
    |s - (A + B)| ≤ (2 * w + w ^ 2) * (A + B) + 4 * η := by
  rw [abs_le] at *
  obtain ⟨a1, a2⟩ := ha
  obtain ⟨b1, b2⟩ := hb
  obtain ⟨s1, s2⟩ := hs
  have h1 : w * (a + b) ≤ w * ((A + B) + w * (A + B) + 2 * η) := mul_le_mul_of_nonneg_left (by linarith) hw.le
  have h2 : w * η ≤ 1 / 256 * η := mul_le_mul_of_nonneg_right hw1 hη.le
  constructor <;> nlinarith

theorem sumForms_num (g : HOk f) {ss : f.Bits → f.Bits → f.Bits} (hss : ss ∈ sumForms env) {x y : f.Bits} {a b : ℚ} (hx : IsNum f x false a)
    (hy : IsNum f y false b) (ha : 0 ≤ a) (ha2 : a ≤ 9 / 4) (hb : 0 ≤ b) (hb2 : b ≤ 9 / 4) :
    ∃ s, IsNum f (ss x y) false s ∧
      |s - (a ^ 2 + b ^ 2)| ≤ (2 * f.unitRoundoff env.mode + f.unitRoundoff env.mode ^ 2) * (a ^ 2 + b ^ 2) + 4 * 2 ^ f.emin ∧ 0 ≤ s ∧
      (1 ≤ a → 1 ≤ s) ∧ (a = 0 → b = 0 → s = 0) := by
  have hu := unit_le g env.mode
  have hu0 := unit_pos (f := f) env.mode
  obtain ⟨ht0, ht⟩ := tiny_pos g
  set w := f.unitRoundoff env.mode with hw
  obtain ⟨p, p1, p2, p3, p4, p5⟩ := sq_num env g hx ha ha2
  obtain ⟨q, q1, q2, q3, q4, q5⟩ := sq_num env g hy hb hb2
  have hpq : p ≤ 6 ∧ q ≤ 6 := by
    rw [abs_le] at p2 q2
    constructor <;> nlinarith
  have triv : ∀ c : ℚ, 0 ≤ c → |c - c| ≤ w * c + 2 ^ f.emin := fun c hc => by rw [sub_self, abs_zero]; positivity
  simp only [sumForms, List.mem_cons, List.mem_nil_iff, or_false] at hss
  rcases hss with rfl | rfl | rfl
  · obtain ⟨s, s1, s2, s3, s4, s5⟩ := round_nonneg g env.mode (q := p + q) (by linarith) (by linarith)
    exact ⟨s, by beta_reduce; rw [add_fin env g.ok p1 q1]; exact s1, combine hu0 hu ht0 p2 q2 s2, s3, fun h => s4 (by linarith [p4 h]),
      fun h1 h2 => s5 (by rw [p5 h1, q5 h2]; simp)⟩
  · obtain ⟨s, s1, s2, s3, s4, s5⟩ := round_nonneg g env.mode (q := a ^ 2 + q) (by positivity) (by nlinarith)
    refine ⟨s, by beta_reduce; rw [fma_fin env g.ok hx hx q1, ← sq]; exact s1, combine hu0 hu ht0 (triv _ (by positivity)) q2 s2, s3, fun h => s4 (by nlinarith),
      fun h1 h2 => s5 (by rw [h1, q5 h2]; simp)⟩
  · obtain ⟨s, s1, s2, s3, s4, s5⟩ := round_nonneg g env.mode (q := p + b ^ 2) (by positivity) (by nlinarith)
    refine ⟨s, ?_, combine hu0 hu ht0 p2 (triv _ (by positivity)) s2, s3, fun h => s4 (by nlinarith [p4 h]),
      fun h1 h2 => s5 (by rw [p5 h1, h2]; simp)⟩
    show IsNum f (Fmt.fma env y y (Fmt.mul env x x)) _ _
    rw [fma_fin env g.ok hy hy p1, ← sq, add_comm]; exact s1

theorem addForms_num (g : HOk f) {as : f.Bits → f.Bits → f.Bits} (has : as ∈ addForms env) {x y : f.Bits} {a b : ℚ} (hx : IsNum f x false a)
    (hy : IsNum f y false b) (ha : 0 ≤ a) (ha2 : a ≤ 11) (hb : 0 ≤ b) (hb2 : b ≤ 9 / 4) :
    ∃ s, IsNum f (as x y) false s ∧
      |s - (a + b ^ 2)| ≤ (2 * f.unitRoundoff env.mode + f.unitRoundoff env.mode ^ 2) * (a + b ^ 2) + 4 * 2 ^ f.emin ∧ 0 ≤ s ∧
      (1 ≤ b → 1 ≤ s) := by
  have hu := unit_le g env.mode
  have hu0 := unit_pos (f := f) env.mode
  obtain ⟨ht0, ht⟩ := tiny_pos g
  set w := f.unitRoundoff env.mode with hw
  obtain ⟨q, q1, q2, q3, q4, q5⟩ := sq_num env g hy hb hb2
  have hpq : q ≤ 6 := by
    rw [abs_le] at q2
    nlinarith
  have triv : ∀ c : ℚ, 0 ≤ c → |c - c| ≤ w * c + 2 ^ f.emin := fun c hc => by rw [sub_self, abs_zero]; positivity
  simp only [addForms, List.mem_cons, List.mem_nil_iff, or_false] at has
  rcases has with rfl | rfl
  · obtain ⟨s, s1, s2, s3, s4, s5⟩ := round_nonneg g env.mode (q := a + q) (by linarith) (by linarith)
    exact ⟨s, by beta_reduce; rw [add_fin env g.ok hx q1]; exact s1, combine hu0 hu ht0 (triv _ ha) q2 s2, s3, fun h => s4 (by linarith [q4 h])⟩
  · obtain ⟨s, s1, s2, s3, s4, s5⟩ := round_nonneg g env.mode (q := a + b ^ 2) (by positivity) (by nlinarith)
    refine ⟨s, ?_, combine hu0 hu ht0 (triv _ ha) (triv _ (by positivity)) s2, s3, fun h => s4 (by nlinarith)⟩
    show IsNum f (Fmt.fma env y y x) _ _
    rw [fma_fin env g.ok hy hy hx, ← sq, add_comm]; exact s1

/-! ## scaling -/

/-- Multiplying with a power of two rounds only if the result is subnormal. -/
theorem scale_err (m : RMode) {L : ℚ} (h : Rep f L) (j : ℤ) : |f.roundTo m (L * 2 ^ j) - L * 2 ^ j| ≤ 2 ^ f.emin := by
  obtain ⟨n, e, h1, h2, h3⟩ := h
  have eq : L * 2 ^ j = n * 2 ^ (e + j) := by rw [h3, zpow_add₀ (by norm_num)]; ring
  rw [eq]
  by_cases hj : f.emin ≤ e + j
  · rw [roundTo_rep m ⟨n, e + j, h1, hj, rfl⟩, sub_self, abs_zero]; positivity
  by_cases hn : n = 0
  · subst hn
    rw [show (((0 : ℤ) : ℚ) * 2 ^ (e + j)) = 0 by simp, roundTo_rep m ⟨0, f.emin, by simp, le_refl _, by simp⟩, sub_self, abs_zero]; positivity
  set q := (n : ℚ) * 2 ^ (e + j) with hq
  have hq0 : q ≠ 0 := by rw [hq]; have : (n : ℚ) ≠ 0 := by exact_mod_cast hn
                         positivity
  have hql : f.qexp q = f.emin := by
    unfold Fmt.qexp
    apply max_eq_right
    have h4 := (abs_zpow_log hq0).1
    have h5 : |q| < 2 ^ ((f.mbits + 1 : ℕ) : ℤ) * 2 ^ (e + j) := by
      rw [hq, abs_mul, abs_of_pos (show (0 : ℚ) < 2 ^ (e + j) by positivity)]
      apply mul_lt_mul_of_pos_right _ (by positivity)
      rw [zpow_natCast]; exact_mod_cast h1
    rw [← zpow_add₀ (by norm_num)] at h5
    have := (zpow_lt_zpow_iff_right₀ (by norm_num : (1 : ℚ) < 2)).1 (lt_of_le_of_lt h4 h5)
    push_cast at this; omega
  have hp : (0 : ℚ) < 2 ^ f.qexp q := by positivity
  have e1 : f.roundTo m q - q = (m.toInt (q / 2 ^ f.qexp q) - q / 2 ^ f.qexp q) * 2 ^ f.qexp q := by
    unfold Fmt.roundTo; rw [sub_mul, div_mul_cancel₀ _ hp.ne']
  rw [e1, abs_mul, abs_of_pos hp, hql]
  have := le_trans (toInt_err m (q / 2 ^ f.qexp q)) (slack_le m).2
  rw [hql] at this
  nlinarith [show (0 : ℚ) < 2 ^ f.emin by positivity]

theorem rep_up {t : ℚ} (h : Rep f t) (h1 : 1 ≤ t) {k : ℤ} (hk : 1 - (f.bias : ℤ) ≤ k) : Rep f (2 ^ k * t) := by
  obtain ⟨n, e1, e2, -⟩ := h.significand (by positivity)
  refine ⟨n, f.qexp t + k, e2, ?_, ?_⟩
  · have : 0 ≤ Int.log 2 |t| := by
      rw [abs_of_pos (by linarith)]
      have := (log_bounds (show 0 < t by linarith)).2
      have h3 : (2 : ℚ) ^ (0 : ℤ) < 2 ^ (Int.log 2 t + 1) := by rw [zpow_zero]; linarith
      have := (zpow_lt_zpow_iff_right₀ (by norm_num : (1 : ℚ) < 2)).1 h3
      omega
    have : Int.log 2 |t| - f.mbits ≤ f.qexp t := le_max_left _ _
    unfold Fmt.emin; omega
  · rw [zpow_add₀ (by norm_num), ← mul_assoc, ← e1, mul_comm]

/-- Square root and final scaling. -/
theorem finish (g : HOk f) {E x : f.Bits} {k : ℤ} {S s κ c : ℚ} (hE : IsNum f E false (2 ^ k)) (hk : 1 - (f.bias : ℤ) ≤ k)
    (hx : IsNum f x false s) (hs : |s - S| ≤ κ * f.unitRoundoff env.mode * S) (hκ0 : 0 ≤ κ) (hκ : κ ≤ 7 / 2) (hc : κ + 5 / 2 ≤ c) (hc6 : c ≤ 6) (hS : 0 < S)
    (hS2 : S ≤ 12) (hone : 1 ≤ s ∨ k = 1 - (f.bias : ℤ)) :
    ∃ v, 0 ≤ v ∧ |v ^ 2 - S * (2 ^ k) ^ 2| ≤ c * f.unitRoundoff env.mode * (S * (2 ^ k) ^ 2) ∧
      Fmt.mul env E (Fmt.sqrt env x) = f.round env.mode false v ∧
      ((1 + c * f.unitRoundoff env.mode) * (S * (2 ^ k) ^ 2) < (2 ^ (f.bias + 1)) ^ 2 → f.isFinite (Fmt.mul env E (Fmt.sqrt env x))) := by
  have hu := unit_le g env.mode
  have hu0 := unit_pos (f := f) env.mode
  set w := f.unitRoundoff env.mode with hw
  have hs' := abs_le.1 hs
  have hwS : w * S ≤ 1 / 256 * S := mul_le_mul_of_nonneg_right hu hS.le
  have hκw : κ * w ≤ 7 / 512 := by nlinarith
  have hs0 : 0 < s := by nlinarith
  obtain ⟨t, t1, t2, t3⟩ := sqrt_num env g.ok g.int hx hs0
  have tp := t2.pos
  have hlo := t2.lower
  have hup := t2.upper
  rw [← hw] at hlo hup
  have hmul : Fmt.mul env E (Fmt.sqrt env x) = f.round env.mode false (2 ^ k * t) := by
    rw [mul_fin env g.ok hE t1]; rfl
  have hcw : c * w ≤ 6 / 256 := by nlinarith
  have c1 : (κ + 5 / 2) * w ≤ c * w := mul_le_mul_of_nonneg_right hc hu0.le
  have c2 : c * w * w ≤ 6 / 256 * w := mul_le_mul_of_nonneg_right hcw hu0.le
  have c0 : 0 ≤ c := by linarith
  have c3 : 0 ≤ c * w * w * w := by positivity
  have c4 : 0 ≤ c * w * w := by positivity
  have c5 : w * w ≤ 1 / 256 * w := mul_le_mul_of_nonneg_right hu hu0.le
  have c6 : 0 < w * w := by positivity
  have b1 : t ^ 2 ≤ (1 + c * w) * S := by
    have h1 : (1 + κ * w) ≤ (1 + c * w) * (1 - w) ^ 2 := by
      have : (1 + c * w) * (1 - w) ^ 2 = 1 + c * w - 2 * w - 2 * (c * w * w) + w * w + c * w * w * w := by ring
      rw [this]; linarith
    have h2 : t ^ 2 * (1 - w) ^ 2 ≤ (1 + c * w) * S * (1 - w) ^ 2 := by
      calc t ^ 2 * (1 - w) ^ 2 ≤ s := hlo
        _ ≤ (1 + κ * w) * S := by linarith [hs'.2]
        _ ≤ (1 + c * w) * (1 - w) ^ 2 * S := mul_le_mul_of_nonneg_right h1 hS.le
        _ = _ := by ring
    exact le_of_mul_le_mul_right h2 (by have : (0 : ℚ) < 1 - w := by linarith
                                        positivity)
  have b2 : (1 - c * w) * S ≤ t ^ 2 := by
    have h1 : (1 - c * w) * (1 + w) ^ 2 ≤ (1 - κ * w) := by
      have : (1 - c * w) * (1 + w) ^ 2 = 1 - c * w + 2 * w - 2 * (c * w * w) + w * w - c * w * w * w := by ring
      rw [this]; linarith
    have h2 : (1 - c * w) * S * (1 + w) ^ 2 ≤ t ^ 2 * (1 + w) ^ 2 := by
      calc (1 - c * w) * S * (1 + w) ^ 2 = (1 - c * w) * (1 + w) ^ 2 * S := by ring
        _ ≤ (1 - κ * w) * S := mul_le_mul_of_nonneg_right h1 hS.le
        _ ≤ s := by linarith [hs'.1]
        _ ≤ _ := hup
    exact le_of_mul_le_mul_right h2 (by positivity)
  have hp : (0 : ℚ) < 2 ^ k := by positivity
  have b3 : (2 ^ k * t) ^ 2 ≤ (1 + c * w) * (S * (2 ^ k) ^ 2) := by
    rw [mul_pow]
    have : (2 ^ k : ℚ) ^ 2 * t ^ 2 ≤ (2 ^ k) ^ 2 * ((1 + c * w) * S) := mul_le_mul_of_nonneg_left b1 (by positivity)
    linarith
  refine ⟨2 ^ k * t, by positivity, ?_, hmul, ?_⟩
  · rw [abs_le]
    refine ⟨?_, by linarith⟩
    rw [mul_pow]
    have : (2 ^ k : ℚ) ^ 2 * ((1 - c * w) * S) ≤ (2 ^ k) ^ 2 * t ^ 2 := mul_le_mul_of_nonneg_left b2 (by positivity)
    linarith
  · intro hfin
    rw [hmul]
    rcases hone with h1 | h1
    · have hs64 : s < 2 ^ f.mbits := by
        have := (pow_bias g).2
        nlinarith
      have ht1 := t2.one h1 hs64
      have hr := rep_up t3 ht1 hk
      have hl : 2 ^ k * t < 2 ^ (f.bias + 1) := by
        refine lt_of_pow_lt_pow_left₀ 2 (by positivity) (lt_of_le_of_lt b3 hfin)
      exact (round_exact g.ok env.mode false hr (by rw [abs_of_pos (by positivity)]; exact hl)).1
    · have ht : t ≤ 4 := by nlinarith
      have hk1 : (2 : ℚ) ^ k ≤ 1 := by
        rw [h1]
        have := (bias_eq g.ok).2
        exact zpow_le_one_of_nonpos₀ (by norm_num) (by omega)
      obtain ⟨_, h2, _⟩ := round_nonneg g env.mode (q := 2 ^ k * t) (by positivity)
        (le_trans (mul_le_mul hk1 ht tp.le (by norm_num)) (by norm_num))
      exact h2.1

theorem xor_ones {n a : Nat} (h : a < 2 ^ n) : a ^^^ (2 ^ n - 1) = 2 ^ n - (a + 1) := by
  apply Nat.eq_of_testBit_eq
  intro i
  rw [Nat.testBit_xor, Nat.testBit_two_pow_sub_one, Nat.testBit_two_pow_sub_succ h]
  by_cases hi : i < n
  · simp [hi]
  · have : a.testBit i = false := Nat.testBit_lt_two_pow (lt_of_lt_of_le h (Nat.pow_le_pow_right (by omega) (by omega)))
    simp [hi, this]

/-- A power of two. -/
theorem pow_num (hf : f.Ok) {x : f.Bits} {e : Nat} (hs : f.sign x = false) (hm : mag f x = e * 2 ^ f.mbits) (h1 : 1 ≤ e) (h2 : e ≤ 2 * f.bias) :
    IsNum f x false (2 ^ ((e : ℤ) - f.bias)) := by
  have hp := Nat.two_pow_pos f.mbits
  have he : f.expo x = e := by rw [expo_eq, hm, Nat.mul_div_cancel _ hp]
  have hma : f.mant x = 0 := by rw [mant_eq, hm, Nat.mul_mod_left]
  have hb := bias_eq hf
  refine ⟨by unfold Fmt.isFinite; omega, ?_, hs⟩
  rw [ratValue_normal (by omega), hs, he, hma]
  have : ((e : ℤ) - f.bias) = (f.mbits : ℤ) + ((e : ℤ) - f.bias - f.mbits) := by ring
  conv_rhs => rw [this, zpow_add₀ (by norm_num), zpow_natCast]
  push_cast; simp

theorem andInf_mag (hf : f.Ok) (x : f.Bits) : mag f (x &&& infBits f) = f.expo x * 2 ^ f.mbits := by
  have h := and_inf hf x
  unfold mag
  rw [h]
  apply Nat.mod_eq_of_lt
  rw [Nat.pow_add]
  exact Nat.mul_lt_mul_of_pos_right (expo_lt x) (Nat.two_pow_pos _)

theorem andInf_num (hf : f.Ok) {x : f.Bits} (h : f.isNormal x) : IsNum f (x &&& infBits f) false (2 ^ ((f.expo x : ℤ) - f.bias)) := by
  have hb := bias_eq hf
  have he := expo_lt x
  have h1 := h.1
  have h2 := h.2
  apply pow_num hf _ (andInf_mag hf x) (by omega) (by omega)
  rw [sign_and, (mag_inf hf).2]; simp

theorem rep_pow {k : ℤ} (h : f.emin ≤ k) : Rep f ((2 : ℚ) ^ k) := by
  refine ⟨1, k, ?_, h, by simp⟩
  rw [abs_one]
  exact one_lt_pow₀ (by norm_num) (by omega)

theorem invert_num (hf : f.Ok) (hw : f.mbits < f.bias) {x : f.Bits} (h : f.isNormal x) :
    IsNum f (invert env (x &&& infBits f)) false (2 ^ ((f.bias : ℤ) - f.expo x)) := by
  have hb := bias_eq hf
  have he := expo_lt x
  have h1 := h.1
  have h2 := h.2
  have hm : mag f ((x &&& infBits f) ^^^ infBits f) = (2 ^ f.ebits - (f.expo x + 1)) * 2 ^ f.mbits := by
    rw [mag_xor, andInf_mag hf, (mag_inf hf).1, ← xor_ones he]
    show _ ^^^ ((2 ^ f.ebits - 1) * 2 ^ f.mbits) = _
    rw [← Nat.shiftLeft_eq, ← Nat.shiftLeft_eq, ← Nat.shiftLeft_eq, Nat.shiftLeft_xor_distrib]
  have hs : f.sign ((x &&& infBits f) ^^^ infBits f) = false := by
    rw [sign_xor, sign_and, (mag_inf hf).2]; simp
  have n1 := pow_num hf hs hm (by omega) (by omega)
  have n2 := half_num env hf hw
  have hv : (2 : ℚ) ^ (((2 ^ f.ebits - (f.expo x + 1) : ℕ) : ℤ) - f.bias) * (1 / 2) = 2 ^ ((f.bias : ℤ) - f.expo x) := by
    have : (((2 ^ f.ebits - (f.expo x + 1) : ℕ) : ℤ) - f.bias) = ((f.bias : ℤ) - f.expo x) + 1 := by omega
    rw [this, zpow_add₀ (by norm_num), zpow_one]; ring
  have hm1 := hf.2
  have hem : f.emin = 1 - f.bias - f.mbits := rfl
  have hl : (2 : ℚ) ^ ((f.bias : ℤ) - f.expo x) < 2 ^ (f.bias + 1) := by
    rw [← zpow_natCast]; exact zpow_lt_zpow_right₀ (by norm_num) (by push_cast; omega)
  have n3 := mul_exact env hf n1 n2 (by rw [hv]; exact rep_pow (by omega)) (by rw [hv, abs_of_pos (by positivity)]; exact hl)
  rw [hv] at n3
  have : (0 : ℚ) < 2 ^ ((f.bias : ℤ) - f.expo x) := by positivity
  rw [if_neg this.ne', decide_eq_false (by linarith)] at n3
  exact n3

theorem setExponent_num (hf : f.Ok) {x : f.Bits} (h : f.isNormal x) (hs : f.sign x = false) :
    IsNum f (setExponent x) false (f.ratValue x * 2 ^ ((f.bias : ℤ) - f.expo x)) := by
  have hb := bias_eq hf
  have hp := Nat.two_pow_pos f.mbits
  have he := expo_lt x
  have hma : 2 ^ f.mbits - 1 < 2 ^ (f.ebits + f.mbits) := by
    have : 2 ^ f.mbits ≤ 2 ^ (f.ebits + f.mbits) := Nat.pow_le_pow_right (by omega) (by omega)
    omega
  have hone : (f.bias + 0) * 2 ^ f.mbits < 2 ^ (f.ebits + f.mbits) := by
    rw [Nat.pow_add]; exact Nat.mul_lt_mul_of_pos_right (by omega) hp
  obtain ⟨c1, c2⟩ := pos_const (f := f) hma
  obtain ⟨d1, d2⟩ := pos_const (f := f) hone
  have hsg : f.sign (setExponent x) = false := by
    unfold setExponent mantMask powBits
    rw [Math.sign_or, sign_and, c2, d2]; simp
  have hmg : mag f (setExponent x) = f.bias * 2 ^ f.mbits + f.mant x := by
    unfold setExponent mantMask powBits
    rw [Math.mag_or, mag_and, c1, d1, mag_eq x]
    have e1 : (f.expo x * 2 ^ f.mbits + f.mant x) &&& (2 ^ f.mbits - 1) = f.mant x := by
      rw [Nat.and_two_pow_sub_one_eq_mod, Nat.mul_comm, Nat.mul_add_mod, Nat.mod_eq_of_lt (mant_lt x)]
    rw [e1, Nat.add_zero]
    have := split_or (m := f.mbits) (a := 0) (b := f.mant x) (c := f.bias) (d := 0) (mant_lt x) hp
    simpa using this
  have hex : f.expo (setExponent x) = f.bias := by
    rw [expo_eq, hmg, Nat.mul_comm, Nat.mul_add_div hp, Nat.div_eq_of_lt (mant_lt x), Nat.add_zero]
  have hmt : f.mant (setExponent x) = f.mant x := by
    rw [mant_eq, hmg, Nat.mul_comm, Nat.mul_add_mod, Nat.mod_eq_of_lt (mant_lt x)]
  refine ⟨by unfold Fmt.isFinite; omega, ?_, hsg⟩
  rw [ratValue_normal (by omega), ratValue_normal h.2, hsg, hs, hex, hmt, mul_assoc _ (2 ^ ((f.expo x : ℤ) - f.bias - f.mbits) : ℚ), ← zpow_add₀ (by norm_num)]
  congr 2; ring

theorem minBits_num (hf : f.Ok) : IsNum f (minBits f) false (2 ^ (1 - (f.bias : ℤ))) := by
  have hb := bias_eq hf
  have hl : 2 ^ f.mbits < 2 ^ (f.ebits + f.mbits) := Nat.pow_lt_pow_right (by omega) (by have := hf.1; omega)
  obtain ⟨a, b⟩ := pos_const (f := f) hl
  have := pow_num hf (x := minBits f) (e := 1) b (by rw [one_mul]; exact a) (by omega) (by omega)
  simpa using this

/-- The scale of the larger operand: `2 ^ k`. -/
structure Scale (f : Fmt) (env : f.Env) (hi : f.Bits) (H : ℚ) (k : ℤ) : Prop where
  scale : IsNum f (slowScale env hi).1 false (2 ^ (-k))
  exp : IsNum f (slowScale env hi).2 false (2 ^ k)
  low : 1 - (f.bias : ℤ) ≤ k
  lt : H * 2 ^ (-k) < 2
  h1 : IsNum f (Fmt.mul env hi (slowScale env hi).1) false (H * 2 ^ (-k))
  pos : 0 < H → 2 ^ (-(f.mbits : ℤ)) ≤ H * 2 ^ (-k)
  one : 1 ≤ H * 2 ^ (-k) ∨ k = 1 - (f.bias : ℤ)
  fast : f.isNormal hi → slowScale env hi = (invert env (hi &&& infBits f), hi &&& infBits f) ∧
    Fmt.mul env hi (slowScale env hi).1 = setExponent hi

theorem exact_nonneg (hf : f.Ok) {x y : f.Bits} {a b : ℚ} (hx : IsNum f x false a) (hy : IsNum f y false b) (h0 : 0 ≤ a * b) (hr : Rep f (a * b))
    (hl : a * b < 2 ^ (f.bias + 1)) : IsNum f (Fmt.mul env x y) false (a * b) := by
  have := mul_exact env hf hx hy hr (by rwa [abs_of_nonneg h0])
  rwa [show (if a * b = 0 then false ^^ false else decide (a * b < 0)) = false by split <;> simp [h0]] at this

theorem scale_ok (g : HOk f) {hi : f.Bits} {H : ℚ} (hh : IsNum f hi false H) : ∃ k, Scale f env hi H k := by
  have hb := bias_eq g.ok
  have hH0 : 0 ≤ H := by have := (ratValue_sign (x := hi)).1 hh.3; rwa [hh.2] at this
  have hmin := minBits_num g.ok
  have hle : f.le (minBits f) hi = decide ((2 : ℚ) ^ (1 - (f.bias : ℤ)) ≤ H) := by
    rw [le_finite g.ok hmin.1 hh.1, hmin.2, hh.2]
  have hem : f.emin = 1 - f.bias - f.mbits := rfl
  have h64 := pow_bias g
  by_cases hn : f.isNormal hi
  · have hv := abs_normal hn.2
    rw [hh.2, abs_of_nonneg hH0] at hv
    have hex : 1 ≤ f.expo hi := by have := hn.2; omega
    have hle' : f.le (minBits f) hi = true := by
      rw [hle, decide_eq_true_eq]
      refine le_trans (zpow_le_zpow_right₀ (by norm_num) (by omega)) hv.1
    have e : slowScale env hi = (invert env (hi &&& infBits f), hi &&& infBits f) := by
      unfold slowScale; rw [hle']; rfl
    have hneg : -((f.expo hi : ℤ) - f.bias) = (f.bias : ℤ) - f.expo hi := by ring
    have n1 := invert_num env g.ok g.int hn
    have n2 := andInf_num g.ok hn
    have hp : (0 : ℚ) < 2 ^ ((f.expo hi : ℤ) - f.bias) := by positivity
    have v1 : 1 ≤ H * 2 ^ (-((f.expo hi : ℤ) - f.bias)) := by rw [zpow_neg, ← div_eq_mul_inv, le_div_iff₀ hp]; linarith [hv.1]
    have v2 : H * 2 ^ (-((f.expo hi : ℤ) - f.bias)) < 2 := by
      rw [zpow_neg, ← div_eq_mul_inv, div_lt_iff₀ hp]
      have := hv.2
      rw [zpow_add₀ (by norm_num)] at this; linarith
    have n3 := setExponent_num g.ok hn hh.3
    rw [hh.2, ← hneg] at n3
    rw [← hneg] at n1
    have n4 : IsNum f (Fmt.mul env hi (invert env (hi &&& infBits f))) false (H * 2 ^ (-((f.expo hi : ℤ) - f.bias))) := by
      refine exact_nonneg env g.ok hh n1 (by linarith) ?_ (by linarith)
      rw [← n3.2]; exact rep_ratValue g.ok _
    refine ⟨(f.expo hi : ℤ) - f.bias, by rw [e]; exact n1, by rw [e]; exact n2, by omega, v2, by rw [e]; exact n4, fun _ => ?_, Or.inl v1, fun _ => ⟨e, ?_⟩⟩
    · refine le_trans (zpow_le_one_of_nonpos₀ (by norm_num) (by omega)) v1
    · rw [e]; exact finite_ext (by rw [n4.3, n3.3]) (by rw [n4.2, n3.2])
  · have he : f.expo hi = 0 := by
      by_contra hc
      exact hn ⟨hh.1, hc⟩
    have hv := abs_small he
    rw [hh.2, abs_of_nonneg hH0] at hv
    have hle' : f.le (minBits f) hi = false := by
      rw [hle, decide_eq_false_iff_not]; linarith
    have e : slowScale env hi = (powBits f (f.bias - 1), minBits f) := by
      unfold slowScale; rw [hle']; rfl
    have n1 := powBits_num (f := f) g.ok (k := f.bias - 1) (by omega)
    have hneg : (2 : ℚ) ^ (f.bias - 1) = 2 ^ (-(1 - (f.bias : ℤ))) := by
      rw [← zpow_natCast]; congr 1; omega
    have v2 : H * 2 ^ (-(1 - (f.bias : ℤ))) < 1 := by
      rw [zpow_neg, ← div_eq_mul_inv, div_lt_iff₀ (by positivity)]; linarith
    have v0 : 0 ≤ H * 2 ^ (-(1 - (f.bias : ℤ))) := by positivity
    have hr : Rep f (H * 2 ^ (f.bias - 1)) := by
      apply rep_scale; rw [← hh.2]; exact rep_ratValue g.ok _
    rw [hneg] at n1 hr
    refine ⟨1 - (f.bias : ℤ), by rw [e]; exact n1, by rw [e]; exact hmin, le_refl _, by linarith, ?_, fun h => ?_, Or.inr rfl, fun h => absurd h hn⟩
    · rw [e]
      refine exact_nonneg env g.ok hh n1 v0 hr (by linarith)
    · have hz : ¬ f.isZero hi := by
        intro hz
        rw [isZero_iff] at hz
        have := ratValue_mag hi
        rw [hz, unit_zero, hh.2] at this
        simp at this; linarith
      have := abs_ge_quantum hz
      rw [hh.2, abs_of_pos h] at this
      have h3 : (2 : ℚ) ^ (-(f.mbits : ℤ)) = 2 ^ (1 - (f.bias : ℤ) - f.mbits) * 2 ^ (-(1 - (f.bias : ℤ))) := by
        rw [← zpow_add₀ (by norm_num)]; congr 1; ring
      rw [h3]
      exact mul_le_mul_of_nonneg_right this (by positivity)

/-- Scaling a smaller operand. -/
theorem scale_lo (g : HOk f) {c lo : f.Bits} {L : ℚ} {j : ℤ} (hc : IsNum f c false (2 ^ j)) (hl : IsNum f lo false L) (h2 : L * 2 ^ j ≤ 2) :
    ∃ l, IsNum f (Fmt.mul env lo c) false l ∧ |l - L * 2 ^ j| ≤ 2 ^ f.emin ∧ 0 ≤ l ∧ l ≤ 9 / 4 := by
  have hL0 : 0 ≤ L := by have := (ratValue_sign (x := lo)).1 hl.3; rwa [hl.2] at this
  have hr : Rep f L := by rw [← hl.2]; exact rep_ratValue g.ok _
  have he := scale_err env.mode hr j
  have h0 : 0 ≤ L * 2 ^ j := by positivity
  have hs := (roundTo_sign (f := f) env.mode).1 h0
  have ht := tiny_pos g
  have hb := pow_bias g
  have he' := abs_le.1 he
  refine ⟨_, ?_, he, hs, by linarith⟩
  rw [mul_fin env g.ok hl hc]
  have := round_spec g.ok env.mode (false ^^ false) (q := L * 2 ^ j) (by rw [abs_of_nonneg hs]; linarith)
  rwa [show (if L * 2 ^ j = 0 then false ^^ false else decide (L * 2 ^ j < 0)) = false by split <;> simp [h0]] at this

/-! ## errors of the whole computation -/

theorem sq_close {b B η : ℚ} (h : |b - B| ≤ η) (hb : 0 ≤ b) (hb2 : b ≤ 9 / 4) (hB : 0 ≤ B) (hB2 : B ≤ 2) : |b ^ 2 - B ^ 2| ≤ 5 * η := by
  have e : b ^ 2 - B ^ 2 = (b - B) * (b + B) := by ring
  have hη : 0 ≤ η := le_trans (abs_nonneg _) h
  rw [e, abs_mul, abs_of_nonneg (show 0 ≤ b + B by linarith)]
  calc |b - B| * (b + B) ≤ η * 5 := mul_le_mul h (by linarith) (by linarith) hη
    _ = 5 * η := by ring

theorem tiny_sq (g : HOk f) (m : RMode) {a : ℚ} (ha : 2 ^ (-(f.mbits : ℤ)) ≤ a) : 256 * 2 ^ f.emin ≤ f.unitRoundoff m ^ 2 * a ^ 2 := by
  refine le_trans (tiny_le g m) (mul_le_mul_of_nonneg_left ?_ (by positivity))
  exact pow_le_pow_left₀ (by positivity) ha 2

theorem err2 {w η a b B s : ℚ} (hw : 0 < w) (hw1 : w ≤ 1 / 256) (hη : 0 < η) (ht : 256 * η ≤ w ^ 2 * a ^ 2) (hb : |b ^ 2 - B ^ 2| ≤ 5 * η)
    (hs : |s - (a ^ 2 + b ^ 2)| ≤ (2 * w + w ^ 2) * (a ^ 2 + b ^ 2) + 4 * η) : |s - (a ^ 2 + B ^ 2)| ≤ 5 / 2 * w * (a ^ 2 + B ^ 2) := by
  rw [abs_le] at *
  have hS : 0 ≤ a ^ 2 + B ^ 2 := by positivity
  have hw2 : w ^ 2 ≤ 1 / 256 * w := by rw [sq]; exact mul_le_mul_of_nonneg_right hw1 hw.le
  have h1 : w ^ 2 * a ^ 2 ≤ w ^ 2 * (a ^ 2 + B ^ 2) := mul_le_mul_of_nonneg_left (by nlinarith [sq_nonneg B]) (by positivity)
  have h2 : w ^ 2 * (a ^ 2 + B ^ 2) ≤ 1 / 256 * w * (a ^ 2 + B ^ 2) := mul_le_mul_of_nonneg_right hw2 hS
  have h3 : (2 * w + w ^ 2) * (a ^ 2 + b ^ 2) ≤ (2 * w + w ^ 2) * (a ^ 2 + B ^ 2 + 5 * η) :=
    mul_le_mul_of_nonneg_left (by linarith) (by positivity)
  have h4 : (2 * w + w ^ 2) * η ≤ 1 * η := mul_le_mul_of_nonneg_right (by nlinarith) hη.le
  have h5 : 0 ≤ w * (a ^ 2 + B ^ 2) := by positivity
  constructor <;> nlinarith

theorem err3 {w η a b B c C l s : ℚ} (hw : 0 < w) (hw1 : w ≤ 1 / 256) (hη : 0 < η) (ht : 256 * η ≤ w ^ 2 * a ^ 2)
    (hb : |b ^ 2 - B ^ 2| ≤ 5 * η) (hc : |c ^ 2 - C ^ 2| ≤ 5 * η) (hB : B ^ 2 ≤ a ^ 2) (hC : C ^ 2 ≤ a ^ 2)
    (hl : |l - (b ^ 2 + c ^ 2)| ≤ (2 * w + w ^ 2) * (b ^ 2 + c ^ 2) + 4 * η)
    (hs : |s - (l + a ^ 2)| ≤ (2 * w + w ^ 2) * (l + a ^ 2) + 4 * η) :
    |s - (a ^ 2 + B ^ 2 + C ^ 2)| ≤ 7 / 2 * w * (a ^ 2 + B ^ 2 + C ^ 2) := by
  rw [abs_le] at *
  set u := 2 * w + w ^ 2 with hu
  have hw2 : w ^ 2 ≤ 1 / 256 * w := by rw [sq]; exact mul_le_mul_of_nonneg_right hw1 hw.le
  have hu0 : 0 < u := by positivity
  have hu1 : u ≤ 513 / 256 * w := by linarith
  have hu2 : u ≤ 1 / 100 := by linarith
  set P := B ^ 2 + C ^ 2 with hP
  set A := a ^ 2 with hA
  have hA0 : 0 ≤ A := by positivity
  have hP0 : 0 ≤ P := by positivity
  have hPA : P ≤ 2 * A := by linarith
  have l1 : l ≤ P + 10 * η + u * (P + 10 * η) + 4 * η := by
    have : u * (b ^ 2 + c ^ 2) ≤ u * (P + 10 * η) := mul_le_mul_of_nonneg_left (by linarith [hb.2, hc.2]) hu0.le
    linarith [hl.2, hb.2, hc.2]
  have l2 : P - 10 * η - u * (P + 10 * η) - 4 * η ≤ l := by
    have : u * (b ^ 2 + c ^ 2) ≤ u * (P + 10 * η) := mul_le_mul_of_nonneg_left (by linarith [hb.2, hc.2]) hu0.le
    linarith [hl.1, hb.1, hc.1]
  have uη : u * η ≤ 1 / 100 * η := mul_le_mul_of_nonneg_right hu2 hη.le
  have uP : u * P ≤ 1 / 100 * P := mul_le_mul_of_nonneg_right hu2 hP0
  have l3 : l ≤ 101 / 100 * P + 15 * η := by linarith
  have s3 : u * (l + A) ≤ u * (101 / 100 * P + 15 * η + A) := mul_le_mul_of_nonneg_left (by linarith) hu0.le
  have u1 : u * P ≤ 513 / 256 * w * P := mul_le_mul_of_nonneg_right hu1 hP0
  have u2 : u * A ≤ 513 / 256 * w * A := mul_le_mul_of_nonneg_right hu1 hA0
  have wP : w * P ≤ w * (2 * A) := mul_le_mul_of_nonneg_left hPA hw.le
  have w2A : w ^ 2 * A ≤ 1 / 256 * w * A := mul_le_mul_of_nonneg_right hw2 hA0
  have wA0 : 0 ≤ w * A := by positivity
  have e : a ^ 2 + B ^ 2 + C ^ 2 = A + P := by rw [hP, hA]; ring
  have h0 : -(7 / 2 * w * (A + P)) ≤ s - (A + P) ∧ s - (A + P) ≤ 7 / 2 * w * (A + P) := by
    constructor <;> nlinarith [hs.1, hs.2]
  have e' : A + B ^ 2 + C ^ 2 = A + P := by rw [hP]; ring
  rw [e']; exact h0

/-! ## max and min -/

theorem max_num (hf : f.Ok) {a b : f.Bits} {A B : ℚ} (ha : IsNum f a false A) (hb : IsNum f b false B) : IsNum f (max a b) false (Max.max A B) := by
  unfold max
  rw [lt_finite hf hb.1 ha.1, hb.2, ha.2]
  by_cases h : B < A
  · rw [decide_eq_true h, if_pos rfl, max_eq_left h.le]; exact ha
  · rw [decide_eq_false h, max_eq_right (by linarith)]; exact hb
theorem min_num (hf : f.Ok) {a b : f.Bits} {A B : ℚ} (ha : IsNum f a false A) (hb : IsNum f b false B) : IsNum f (min a b) false (Min.min A B) := by
  unfold min
  rw [lt_finite hf ha.1 hb.1, hb.2, ha.2]
  by_cases h : A < B
  · rw [decide_eq_true h, if_pos rfl, min_eq_left h.le]; exact ha
  · rw [decide_eq_false h, min_eq_right (by linarith)]; exact hb

theorem max_cases (a b : f.Bits) : max a b = a ∨ max a b = b := by unfold max; split <;> simp
theorem min_cases (a b : f.Bits) : min a b = a ∨ min a b = b := by unfold min; split <;> simp

theorem num_zero (hf : f.Ok) {x : f.Bits} {s : Bool} {v : ℚ} (h : IsNum f x s v) : f.isZero x ↔ v = 0 := by
  constructor
  · intro hz
    rw [isZero_iff] at hz
    have := ratValue_mag x
    rw [hz, unit_zero, h.2] at this
    simpa using this
  · intro hv
    by_contra hz
    have := abs_ge_quantum hz
    rw [h.2, hv, abs_zero] at this
    have h2 : (0 : ℚ) < 2 ^ (1 - (f.bias : ℤ) - f.mbits) := by positivity
    linarith

theorem num_eq_zero (hf : f.Ok) {x : f.Bits} {s : Bool} {v : ℚ} (h : IsNum f x s v) : f.eq x 0 = decide (v = 0) := by
  rw [eq_zero hf h.1]; exact decide_eq_decide.2 (num_zero hf h)

theorem un_iff (hf : f.Ok) (x y : f.Bits) : isunordered f (isnanEq f) x y = decide (f.isNaN x ∨ f.isNaN y) := by
  unfold isunordered
  rw [isnanEq_iff hf, isnanEq_iff hf, Bool.decide_or]

theorem isInf_abs (x : f.Bits) : f.isInf (FloatBits.abs f x) ↔ f.isInf x := by rw [isInf_iff, isInf_iff, mag_abs]
theorem isNaN_abs (x : f.Bits) : f.isNaN (FloatBits.abs f x) ↔ f.isNaN x := by rw [isNaN_iff, isNaN_iff, mag_abs]
theorem isNormal_abs (x : f.Bits) : f.isNormal (FloatBits.abs f x) ↔ f.isNormal x := by rw [isNormal_iff, isNormal_iff, mag_abs]
theorem isZero_abs (x : f.Bits) : f.isZero (FloatBits.abs f x) ↔ f.isZero x := by rw [isZero_iff, isZero_iff, mag_abs]

/-! ## two operands -/

/-- `__r` of the slower path. -/
def raw2 (ss : f.Bits → f.Bits → f.Bits) (hi lo : f.Bits) : f.Bits :=
  Fmt.mul env (slowScale env hi).2 (Fmt.sqrt env (ss (Fmt.mul env hi (slowScale env hi).1) (Fmt.mul env lo (slowScale env hi).1)))

theorem slow_eq (hf : f.Ok) (ss : f.Bits → f.Bits → f.Bits) (qnan x y : f.Bits) :
    slow env ss qnan x y =
      if f.isInf x ∨ f.isInf y then infBits f else if f.isNaN x ∨ f.isNaN y then qnan else
        if f.eq (min (FloatBits.abs f y) (FloatBits.abs f x)) 0 then max (FloatBits.abs f x) (FloatBits.abs f y)
        else raw2 env ss (max (FloatBits.abs f x) (FloatBits.abs f y)) (min (FloatBits.abs f y) (FloatBits.abs f x)) := by
  unfold slow raw2
  dsimp only
  rw [un_iff hf, isinf_iff' hf, isinf_iff' hf, ← Bool.decide_or]
  simp only [isInf_abs]
  by_cases h1 : f.isInf x ∨ f.isInf y
  · simp [h1]
  · by_cases h2 : f.isNaN x ∨ f.isNaN y
    · simp [h1, h2]
    · simp only [h1, h2, decide_false, Bool.or_false, if_false]
      cases f.eq (min (FloatBits.abs f y) (FloatBits.abs f x)) 0 <;> simp

theorem raw2_spec (g : HOk f) {ss : f.Bits → f.Bits → f.Bits} (hss : ss ∈ sumForms env) {hi lo : f.Bits} {H L : ℚ} (hh : IsNum f hi false H)
    (hl : IsNum f lo false L) (hL : 0 ≤ L) (hLH : L ≤ H) (hH : 0 < H) :
    ∃ v, 0 ≤ v ∧ |v ^ 2 - (H ^ 2 + L ^ 2)| ≤ 5 * f.unitRoundoff env.mode * (H ^ 2 + L ^ 2) ∧ raw2 env ss hi lo = f.round env.mode false v ∧
      ((1 + 5 * f.unitRoundoff env.mode) * (H ^ 2 + L ^ 2) < (2 ^ (f.bias + 1)) ^ 2 → f.isFinite (raw2 env ss hi lo)) := by
  obtain ⟨k, sc⟩ := scale_ok env g hh
  have hp : (0 : ℚ) < 2 ^ (-k) := by positivity
  have hLk : L * 2 ^ (-k) ≤ H * 2 ^ (-k) := mul_le_mul_of_nonneg_right hLH hp.le
  obtain ⟨l, l1, l2, l3, l4⟩ := scale_lo env g sc.scale hl (by linarith [sc.lt])
  have ha0 : 0 < H * 2 ^ (-k) := by positivity
  obtain ⟨s, s1, s2, s3, s4, -⟩ := sumForms_num env g hss sc.h1 l1 ha0.le (by linarith [sc.lt]) l3 l4
  have e := err2 (unit_pos _) (unit_le g _) (tiny_pos g).1 (tiny_sq g env.mode (sc.pos hH))
    (sq_close l2 l3 l4 (by positivity) (by linarith [sc.lt])) s2
  have hS0 : 0 < (H * 2 ^ (-k)) ^ 2 + (L * 2 ^ (-k)) ^ 2 := by positivity
  have hS2 : (H * 2 ^ (-k)) ^ 2 + (L * 2 ^ (-k)) ^ 2 ≤ 12 := by
    have : 0 ≤ L * 2 ^ (-k) := by positivity
    nlinarith [sc.lt]
  have back : ((H * 2 ^ (-k)) ^ 2 + (L * 2 ^ (-k)) ^ 2) * (2 ^ k) ^ 2 = H ^ 2 + L ^ 2 := by
    have : (2 : ℚ) ^ (-k) * 2 ^ k = 1 := by rw [← zpow_add₀ (by norm_num)]; simp
    calc _ = (H ^ 2 + L ^ 2) * (2 ^ (-k) * 2 ^ k) ^ 2 := by ring
      _ = _ := by rw [this]; ring
  have := finish env g sc.exp sc.low s1 e (by norm_num) (by norm_num) (le_refl (5 / 2 + 5 / 2 : ℚ)) (by norm_num) hS0 hS2
    (sc.one.imp s4 id)
  rw [back] at this
  norm_num at this ⊢
  exact this

theorem sumSq_two (x y : f.Bits) : f.sumSq [x, y] = f.ratValue x ^ 2 + f.ratValue y ^ 2 := by simp [Fmt.sumSq]

theorem max_min_sq (X Y : ℚ) : Max.max X Y ^ 2 + Min.min Y X ^ 2 = X ^ 2 + Y ^ 2 := by
  rcases le_total X Y with h | h
  · rw [max_eq_right h, min_eq_right h]; ring
  · rw [max_eq_left h, min_eq_left h]

/-- A number is its own rounding. -/
theorem num_round (hf : f.Ok) (m : RMode) {x : f.Bits} {v : ℚ} (h : IsNum f x false v) : x = f.round m false v := by
  have h0 : 0 ≤ v := by have := (ratValue_sign (x := x)).1 h.3; rwa [h.2] at this
  have h1 := ratValue_lt hf h.1
  rw [h.2] at h1
  have := round_exact hf m false (q := v) (by rw [← h.2]; exact rep_ratValue hf _) h1
  rw [show (if v = 0 then false else decide (v < 0)) = false by split <;> simp [h0]] at this
  exact finite_ext (by rw [h.3, this.3]) (by rw [h.2, this.2])

theorem slow_spec (g : HOk f) {ss : f.Bits → f.Bits → f.Bits} (hss : ss ∈ sumForms env) {qnan : f.Bits} (hq : f.isNaN qnan) (x y : f.Bits) :
    f.IsHypot env.mode 5 [x, y] (slow env ss qnan x y) := by
  have hz0 : ∀ z : f.Bits, f.isZero z → f.isFinite z := by
    intro z hz; rw [isZero_iff] at hz; rw [isFinite_iff, hz]; exact (inf_lt g.ok).2.2
  have key : f.isFinite x → f.isFinite y → slow env ss qnan x y =
      if Min.min |f.ratValue y| |f.ratValue x| = 0 then max (FloatBits.abs f x) (FloatBits.abs f y)
        else raw2 env ss (max (FloatBits.abs f x) (FloatBits.abs f y)) (min (FloatBits.abs f y) (FloatBits.abs f x)) := by
    intro hx hy
    obtain ⟨x1, x2⟩ := finite_not g.ok hx
    obtain ⟨y1, y2⟩ := finite_not g.ok hy
    rw [slow_eq env g.ok, if_neg (by tauto), if_neg (by tauto), num_eq_zero g.ok (min_num g.ok (abs_num hy) (abs_num hx))]
    simp only [decide_eq_true_eq]
  have acc : f.isFinite x → f.isFinite y → ∃ v, 0 ≤ v ∧ |v ^ 2 - f.sumSq [x, y]| ≤ 5 * f.unitRoundoff env.mode * f.sumSq [x, y] ∧
      slow env ss qnan x y = f.round env.mode false v ∧
      ((1 + 5 * f.unitRoundoff env.mode) * f.sumSq [x, y] < (2 ^ (f.bias + 1)) ^ 2 → f.isFinite (slow env ss qnan x y)) := by
    intro hx hy
    have nh := max_num g.ok (abs_num hx) (abs_num hy)
    have nl := min_num g.ok (abs_num hy) (abs_num hx)
    have hS : f.sumSq [x, y] = Max.max |f.ratValue x| |f.ratValue y| ^ 2 + Min.min |f.ratValue y| |f.ratValue x| ^ 2 := by
      rw [sumSq_two, max_min_sq, sq_abs, sq_abs]
    have hl0 : 0 ≤ Min.min |f.ratValue y| |f.ratValue x| := le_min (abs_nonneg _) (abs_nonneg _)
    have hlh : Min.min |f.ratValue y| |f.ratValue x| ≤ Max.max |f.ratValue x| |f.ratValue y| := le_trans (min_le_right _ _) (le_max_left _ _)
    have hu := unit_pos (f := f) env.mode
    rw [key hx hy, hS]
    split
    · rename_i h0
      refine ⟨_, le_trans hl0 hlh, ?_, num_round g.ok _ nh, fun _ => nh.1⟩
      rw [h0]; simp; positivity
    · rename_i h0
      exact raw2_spec env g hss nh nl hl0 hlh (lt_of_lt_of_le (lt_of_le_of_ne hl0 (Ne.symm h0)) hlh)
  refine ⟨?_, ?_, ?_, ?_, ?_⟩
  · intro h
    have : f.isInf x ∨ f.isInf y := by simpa using h
    rw [slow_eq env g.ok, if_pos this, isInf_iff]
    exact mag_inf g.ok
  · intro h1 h2
    have h1' : ¬ (f.isInf x ∨ f.isInf y) := by simpa using h1
    have h2' : f.isNaN x ∨ f.isNaN y := by simpa using h2
    rw [slow_eq env g.ok, if_neg h1', if_pos h2']; exact hq
  · intro as a bs hxs ha hz
    have cases : (a = x ∧ f.isZero y) ∨ (a = y ∧ f.isZero x) := by
      match as, hxs with
      | [], h => simp only [List.nil_append, List.cons.injEq] at h; obtain ⟨rfl, rfl⟩ := h; exact Or.inl ⟨rfl, hz _ (by simp)⟩
      | [b], h => simp only [List.cons_append, List.nil_append, List.cons.injEq] at h; obtain ⟨rfl, rfl, -⟩ := h; exact Or.inr ⟨rfl, hz _ (by simp)⟩
      | b :: c :: d, h => exact absurd (congrArg List.length h) (by simp)
    have fin : f.isFinite x ∧ f.isFinite y := by
      rcases cases with ⟨rfl, h⟩ | ⟨rfl, h⟩
      · exact ⟨ha, hz0 _ h⟩
      · exact ⟨hz0 _ h, ha⟩
    have nh := max_num g.ok (abs_num fin.1) (abs_num fin.2)
    have hv : ∀ z : f.Bits, f.isZero z → |f.ratValue z| = 0 := by
      intro z h; rw [(num_zero g.ok (self_num (hz0 z h))).1 h, abs_zero]
    rw [key fin.1 fin.2]
    rcases cases with ⟨rfl, h⟩ | ⟨rfl, h⟩
    · rw [if_pos (by rw [hv y h]; exact min_eq_left (abs_nonneg _))]
      rw [hv y h, max_eq_left (abs_nonneg _)] at nh
      exact ⟨nh.1, nh.3, nh.2⟩
    · rw [if_pos (by rw [hv x h]; exact min_eq_right (abs_nonneg _))]
      rw [hv x h, max_eq_right (abs_nonneg _)] at nh
      exact ⟨nh.1, nh.3, nh.2⟩
  · intro h
    obtain ⟨v, a, b, c, -⟩ := acc (h x (by simp)) (h y (by simp))
    exact ⟨v, a, b, c⟩
  · intro h hl
    obtain ⟨v, a, b, c, d⟩ := acc (h x (by simp)) (h y (by simp))
    exact d hl

theorem fast_eq_slow (g : HOk f) (ss : f.Bits → f.Bits → f.Bits) (qnan : f.Bits) {x y : f.Bits} (hx : f.isNormal x) (hy : f.isNormal y) :
    fast env ss x y = slow env ss qnan x y := by
  obtain ⟨x1, x2⟩ := finite_not g.ok hx.1
  obtain ⟨y1, y2⟩ := finite_not g.ok hy.1
  have hn : f.isNormal (max (FloatBits.abs f x) (FloatBits.abs f y)) := by
    rcases max_cases (FloatBits.abs f x) (FloatBits.abs f y) with h | h <;> rw [h, isNormal_abs] <;> assumption
  have hz : ¬ f.isZero (min (FloatBits.abs f y) (FloatBits.abs f x)) := by
    have := Nat.two_pow_pos f.mbits
    rw [isNormal_iff] at hx hy
    rcases min_cases (FloatBits.abs f y) (FloatBits.abs f x) with h | h <;> rw [h, isZero_abs, isZero_iff] <;> omega
  have nh := max_num g.ok (abs_num hx.1) (abs_num hy.1)
  have nl := min_num g.ok (abs_num hy.1) (abs_num hx.1)
  obtain ⟨k, sc⟩ := scale_ok env g nh
  obtain ⟨e1, e2⟩ := sc.fast hn
  rw [slow_eq env g.ok, if_neg (by tauto), if_neg (by tauto), eq_zero g.ok nl.1, decide_eq_false hz]
  unfold raw2
  rw [e2, e1]
  rfl

/-! ## three operands -/

theorem round_not_nan (hf : f.Ok) (m : RMode) (z : Bool) (q : ℚ) : ¬ f.isNaN (f.round m z q) := by
  have hi := inf_lt hf
  unfold Fmt.round
  dsimp only
  rw [isNaN_iff]
  have e : f.infMag = inf f := rfl
  split_ifs <;> rw [mag_ofMag _ (by omega)] <;> omega

theorem add_nan_iff (hf : f.Ok) {y z : f.Bits} (hy : ¬ f.isInf y) (hz : ¬ f.isInf z) : f.isNaN (Fmt.add env y z) ↔ f.isNaN y ∨ f.isNaN z := by
  constructor
  · intro h
    by_contra hc
    have fy : f.isFinite y := by rw [isFinite_iff]; rw [isInf_iff, isNaN_iff] at *; omega
    have fz : f.isFinite z := by rw [isFinite_iff]; rw [isInf_iff, isNaN_iff] at *; rw [isNaN_iff] at hc; omega
    rw [add_finite env hf fy fz] at h
    exact round_not_nan hf _ _ _ h
  · exact add_nan env

/-- `__lo` of the slower path. -/
def rawLo (ss : f.Bits → f.Bits → f.Bits) (hi l0 l1 : f.Bits) : f.Bits :=
  ss (Fmt.mul env l0 (slowScale env hi).1) (Fmt.mul env l1 (slowScale env hi).1)
/-- `__r` of the slower path. -/
def raw3 (ss as : f.Bits → f.Bits → f.Bits) (hi l0 l1 : f.Bits) : f.Bits :=
  Fmt.mul env (slowScale env hi).2 (Fmt.sqrt env (as (rawLo env ss hi l0 l1) (Fmt.mul env hi (slowScale env hi).1)))

/-- The largest operand. -/
def hi3 (x y z : f.Bits) : f.Bits := max (max (FloatBits.abs f x) (FloatBits.abs f y)) (FloatBits.abs f z)
def lo0 (x y z : f.Bits) : f.Bits := min (FloatBits.abs f z) (max (FloatBits.abs f x) (FloatBits.abs f y))
def lo1 (x y : f.Bits) : f.Bits := min (FloatBits.abs f y) (FloatBits.abs f x)

theorem slow3_eq (hf : f.Ok) (ss as : f.Bits → f.Bits → f.Bits) (qnan x y z : f.Bits) :
    slow3 env ss as qnan x y z =
      if f.isInf x ∨ f.isInf y ∨ f.isInf z then infBits f else if f.isNaN x ∨ f.isNaN y ∨ f.isNaN z then qnan else
        if f.eq (rawLo env ss (hi3 x y z) (lo0 x y z) (lo1 x y)) 0 then hi3 x y z
        else raw3 env ss as (hi3 x y z) (lo0 x y z) (lo1 x y) := by
  unfold slow3 raw3 rawLo hi3 lo0 lo1
  dsimp only
  rw [un_iff hf, isinf_iff' hf, isinf_iff' hf, isinf_iff' hf, ← Bool.decide_or, ← Bool.decide_or]
  simp only [isInf_abs]
  by_cases h1 : f.isInf x ∨ f.isInf y ∨ f.isInf z
  · have h1' : (f.isInf x ∨ f.isInf y) ∨ f.isInf z := by tauto
    simp only [h1, h1', decide_true, Bool.or_true, Bool.not_true, if_true, Bool.false_eq_true, if_false]
  · have h1' : ¬ ((f.isInf x ∨ f.isInf y) ∨ f.isInf z) := by tauto
    simp only [add_nan_iff env hf (show ¬ f.isInf y by tauto) (show ¬ f.isInf z by tauto)]
    by_cases h2 : f.isNaN x ∨ f.isNaN y ∨ f.isNaN z
    · simp [h1, h1', h2]
    · simp only [h1, h1', h2, decide_false, Bool.or_false, if_false]
      generalize f.eq _ 0 = b
      cases b <;> simp

theorem scale_back (H L C : ℚ) (k : ℤ) :
    ((H * 2 ^ (-k)) ^ 2 + (L * 2 ^ (-k)) ^ 2 + (C * 2 ^ (-k)) ^ 2) * (2 ^ k) ^ 2 = H ^ 2 + L ^ 2 + C ^ 2 := by
  have : (2 : ℚ) ^ (-k) * 2 ^ k = 1 := by rw [← zpow_add₀ (by norm_num)]; simp
  calc _ = (H ^ 2 + L ^ 2 + C ^ 2) * (2 ^ (-k) * 2 ^ k) ^ 2 := by ring
    _ = _ := by rw [this]; ring

/-- If the computed sum of the squares of the smaller operands is zero, they do not matter. -/
theorem negligible {H L C p w t b c : ℚ} (hp : 0 < p) (hu : 0 < w) (hu1 : w ≤ 1 / 256) (ht : 0 < t)
    (tq : 15 * t ≤ w ^ 2 * (H * p) ^ 2)
    (sb : |b ^ 2 - (L * p) ^ 2| ≤ 5 * t) (sc : |c ^ 2 - (C * p) ^ 2| ≤ 5 * t)
    (l2 : |0 - (b ^ 2 + c ^ 2)| ≤ (2 * w + w ^ 2) * (b ^ 2 + c ^ 2) + 4 * t) :
    |H ^ 2 - (H ^ 2 + L ^ 2 + C ^ 2)| ≤ 6 * w * (H ^ 2 + L ^ 2 + C ^ 2) := by
  have hneg : (L * p) ^ 2 + (C * p) ^ 2 ≤ 15 * t := by
    have h1 := (abs_le.1 l2).1
    have h2 : (2 * w + w ^ 2) * (b ^ 2 + c ^ 2) ≤ 1 / 100 * (b ^ 2 + c ^ 2) :=
      mul_le_mul_of_nonneg_right (by nlinarith) (by positivity)
    have := (abs_le.1 sb).1
    have := (abs_le.1 sc).1
    linarith
  have hu2 : w ^ 2 ≤ w := by nlinarith
  have h6 : (L * p) ^ 2 + (C * p) ^ 2 ≤ w * (H * p) ^ 2 := by
    have : w ^ 2 * (H * p) ^ 2 ≤ w * (H * p) ^ 2 := mul_le_mul_of_nonneg_right hu2 (by positivity)
    linarith
  have h7 : L ^ 2 + C ^ 2 ≤ w * H ^ 2 := by
    rw [mul_pow, mul_pow, mul_pow] at h6
    have hp2 : (0 : ℚ) < p ^ 2 := by positivity
    have : (L ^ 2 + C ^ 2) * p ^ 2 ≤ (w * H ^ 2) * p ^ 2 := by linarith
    exact le_of_mul_le_mul_right this hp2
  rw [abs_le]
  have h8 : 0 ≤ w * H ^ 2 := by positivity
  have h9 : 0 ≤ w * (L ^ 2 + C ^ 2) := by positivity
  constructor <;> linarith [sq_nonneg L, sq_nonneg C, h8, h9, h7]

theorem raw3_spec (g : HOk f) {ss as : f.Bits → f.Bits → f.Bits} (hss : ss ∈ sumForms env) (has : as ∈ addForms env)
    {hi l0 l1 : f.Bits} {H L C : ℚ} (hh : IsNum f hi false H)
    (hl : IsNum f l0 false L) (hc : IsNum f l1 false C) (hL : 0 ≤ L) (hLH : L ≤ H) (hC : 0 ≤ C) (hCH : C ≤ H) (hH : 0 < H) :
    (∃ v, 0 ≤ v ∧ |v ^ 2 - (H ^ 2 + L ^ 2 + C ^ 2)| ≤ 6 * f.unitRoundoff env.mode * (H ^ 2 + L ^ 2 + C ^ 2) ∧
      raw3 env ss as hi l0 l1 = f.round env.mode false v ∧
      ((1 + 6 * f.unitRoundoff env.mode) * (H ^ 2 + L ^ 2 + C ^ 2) < (2 ^ (f.bias + 1)) ^ 2 → f.isFinite (raw3 env ss as hi l0 l1))) ∧
    f.isFinite (rawLo env ss hi l0 l1) ∧
    (f.isZero (rawLo env ss hi l0 l1) → |H ^ 2 - (H ^ 2 + L ^ 2 + C ^ 2)| ≤ 6 * f.unitRoundoff env.mode * (H ^ 2 + L ^ 2 + C ^ 2)) := by
  obtain ⟨k, sc⟩ := scale_ok env g hh
  have hp : (0 : ℚ) < 2 ^ (-k) := by positivity
  have hLk : L * 2 ^ (-k) ≤ H * 2 ^ (-k) := mul_le_mul_of_nonneg_right hLH hp.le
  have hCk : C * 2 ^ (-k) ≤ H * 2 ^ (-k) := mul_le_mul_of_nonneg_right hCH hp.le
  have hL0 : 0 ≤ L * 2 ^ (-k) := by positivity
  have hC0 : 0 ≤ C * 2 ^ (-k) := by positivity
  obtain ⟨b, b1, b2, b3, b4⟩ := scale_lo env g sc.scale hl (by linarith [sc.lt])
  obtain ⟨c, c1, c2, c3, c4⟩ := scale_lo env g sc.scale hc (by linarith [sc.lt])
  have ha0 : 0 < H * 2 ^ (-k) := by positivity
  have hu := unit_pos (f := f) env.mode
  have hu1 := unit_le g env.mode
  have ht := tiny_pos g
  obtain ⟨l, l1', l2, l3, -, -⟩ := sumForms_num env g hss b1 c1 b3 b4 c3 c4
  have hl11 : l ≤ 11 := by
    have := (abs_le.1 l2).2
    have h1 : b ^ 2 + c ^ 2 ≤ 81 / 8 := by nlinarith
    have h2 : (2 * f.unitRoundoff env.mode + f.unitRoundoff env.mode ^ 2) * (b ^ 2 + c ^ 2) ≤ 1 / 100 * (81 / 8) :=
      mul_le_mul (by nlinarith) h1 (by positivity) (by norm_num)
    linarith [ht.2]
  obtain ⟨s, s1, s2, s3, s4⟩ := addForms_num env g has l1' sc.h1 l3 hl11 ha0.le (by linarith [sc.lt])
  have sb := sq_close b2 b3 b4 hL0 (by linarith [sc.lt])
  have scc := sq_close c2 c3 c4 hC0 (by linarith [sc.lt])
  have tq := tiny_sq g env.mode (sc.pos hH)
  have hB : (L * 2 ^ (-k)) ^ 2 ≤ (H * 2 ^ (-k)) ^ 2 := pow_le_pow_left₀ hL0 hLk 2
  have hCq : (C * 2 ^ (-k)) ^ 2 ≤ (H * 2 ^ (-k)) ^ 2 := pow_le_pow_left₀ hC0 hCk 2
  have e := err3 hu hu1 ht.1 tq sb scc hB hCq l2 s2
  have hS0 : 0 < (H * 2 ^ (-k)) ^ 2 + (L * 2 ^ (-k)) ^ 2 + (C * 2 ^ (-k)) ^ 2 := by positivity
  have hS2 : (H * 2 ^ (-k)) ^ 2 + (L * 2 ^ (-k)) ^ 2 + (C * 2 ^ (-k)) ^ 2 ≤ 12 := by nlinarith [sc.lt]
  have := finish env g sc.exp sc.low s1 e (by norm_num) (by norm_num) (le_refl (7 / 2 + 5 / 2 : ℚ)) (by norm_num) hS0 hS2
    (sc.one.imp s4 id)
  rw [scale_back] at this
  refine ⟨by norm_num at this ⊢; exact this, l1'.1, fun hz => ?_⟩
  have hl0 : l = 0 := (num_zero g.ok l1').1 hz
  rw [hl0] at l2
  exact negligible hp hu hu1 ht.1 (by linarith [ht.1]) sb scc l2

theorem sumSq_three (x y z : f.Bits) : f.sumSq [x, y, z] = f.ratValue x ^ 2 + f.ratValue y ^ 2 + f.ratValue z ^ 2 := by
  simp [Fmt.sumSq, add_assoc]

theorem max_min_sq3 (X Y Z : ℚ) :
    Max.max (Max.max X Y) Z ^ 2 + Min.min Z (Max.max X Y) ^ 2 + Min.min Y X ^ 2 = X ^ 2 + Y ^ 2 + Z ^ 2 := by
  rw [max_min_sq, add_right_comm, max_min_sq]

/-- The operands, sorted. -/
structure Sorted (f : Fmt) (x y z : f.Bits) (H L C : ℚ) : Prop where
  hi : IsNum f (hi3 x y z) false H
  l0 : IsNum f (lo0 x y z) false L
  l1 : IsNum f (lo1 x y) false C
  sum : f.sumSq [x, y, z] = H ^ 2 + L ^ 2 + C ^ 2
  L0 : 0 ≤ L
  LH : L ≤ H
  C0 : 0 ≤ C
  CH : C ≤ H
  H_eq : H = Max.max (Max.max |f.ratValue x| |f.ratValue y|) |f.ratValue z|
  L_eq : L = Min.min |f.ratValue z| (Max.max |f.ratValue x| |f.ratValue y|)
  C_eq : C = Min.min |f.ratValue y| |f.ratValue x|

theorem sorted (hf : f.Ok) {x y z : f.Bits} (hx : f.isFinite x) (hy : f.isFinite y) (hz : f.isFinite z) : ∃ H L C, Sorted f x y z H L C := by
  refine ⟨_, _, _, ⟨max_num hf (max_num hf (abs_num hx) (abs_num hy)) (abs_num hz), min_num hf (abs_num hz) (max_num hf (abs_num hx) (abs_num hy)),
    min_num hf (abs_num hy) (abs_num hx), ?_, ?_, ?_, ?_, ?_, rfl, rfl, rfl⟩⟩
  · rw [sumSq_three, max_min_sq3, sq_abs, sq_abs, sq_abs]
  · exact le_min (abs_nonneg _) (le_trans (abs_nonneg _) (le_max_left _ _))
  · exact le_trans (min_le_left _ _) (le_max_right _ _)
  · exact le_min (abs_nonneg _) (abs_nonneg _)
  · exact le_trans (min_le_right _ _) (le_trans (le_max_left _ _) (le_max_left _ _))

theorem rawLo_zero (g : HOk f) {ss : f.Bits → f.Bits → f.Bits} (hss : ss ∈ sumForms env) {hi l0 l1 : f.Bits} {H : ℚ} (hh : IsNum f hi false H)
    (hl : IsNum f l0 false 0) (hc : IsNum f l1 false 0) : f.eq (rawLo env ss hi l0 l1) 0 = true := by
  obtain ⟨k, sc⟩ := scale_ok env g hh
  have z : ∀ {l : f.Bits}, IsNum f l false 0 → IsNum f (Fmt.mul env l (slowScale env hi).1) false 0 := by
    intro l hl
    have := exact_nonneg env g.ok hl sc.scale (by simp) (by simpa using ⟨0, f.emin, by simp, le_refl _, by simp⟩) (by simp)
    simpa using this
  obtain ⟨s, s1, -, -, -, s5⟩ := sumForms_num env g hss (z hl) (z hc) (le_refl _) (by norm_num) (le_refl _) (by norm_num)
  rw [s5 rfl rfl] at s1
  unfold rawLo
  rw [num_eq_zero g.ok s1]; simp

theorem rawLo_sign (g : HOk f) {ss : f.Bits → f.Bits → f.Bits} (hss : ss ∈ sumForms env) {x y z : f.Bits} {H L C : ℚ} (so : Sorted f x y z H L C) :
    f.sign (rawLo env ss (hi3 x y z) (lo0 x y z) (lo1 x y)) = false := by
  obtain ⟨k, sc⟩ := scale_ok env g so.hi
  have hp : (0 : ℚ) < 2 ^ (-k) := by positivity
  have hLk : L * 2 ^ (-k) ≤ H * 2 ^ (-k) := mul_le_mul_of_nonneg_right so.LH hp.le
  have hCk : C * 2 ^ (-k) ≤ H * 2 ^ (-k) := mul_le_mul_of_nonneg_right so.CH hp.le
  obtain ⟨b, b1, -, b3, b4⟩ := scale_lo env g sc.scale so.l0 (by linarith [sc.lt])
  obtain ⟨c, c1, -, c3, c4⟩ := scale_lo env g sc.scale so.l1 (by linarith [sc.lt])
  obtain ⟨l, l1, -⟩ := sumForms_num env g hss b1 c1 b3 b4 c3 c4
  exact l1.3

theorem slow3_fin (hf : f.Ok) (ss as : f.Bits → f.Bits → f.Bits) (qnan : f.Bits) {x y z : f.Bits} (hx : f.isFinite x) (hy : f.isFinite y)
    (hz : f.isFinite z) : slow3 env ss as qnan x y z =
      if f.eq (rawLo env ss (hi3 x y z) (lo0 x y z) (lo1 x y)) 0 then hi3 x y z
        else raw3 env ss as (hi3 x y z) (lo0 x y z) (lo1 x y) := by
  have := finite_not hf hx
  have := finite_not hf hy
  have := finite_not hf hz
  rw [slow3_eq env hf, if_neg (by tauto), if_neg (by tauto)]

theorem slow3_spec (g : HOk f) {ss as : f.Bits → f.Bits → f.Bits} (hss : ss ∈ sumForms env) (has : as ∈ addForms env)
    {qnan : f.Bits} (hq : f.isNaN qnan) (x y z : f.Bits) : f.IsHypot env.mode 6 [x, y, z] (slow3 env ss as qnan x y z) := by
  have hz0 : ∀ z : f.Bits, f.isZero z → f.isFinite z := by
    intro z hz; rw [isZero_iff] at hz; rw [isFinite_iff, hz]; exact (inf_lt g.ok).2.2
  have hv : ∀ z : f.Bits, f.isZero z → |f.ratValue z| = 0 := by
    intro z h; rw [(num_zero g.ok (self_num (hz0 z h))).1 h, abs_zero]
  have hu := unit_pos (f := f) env.mode
  have acc : f.isFinite x → f.isFinite y → f.isFinite z →
      ∃ v, 0 ≤ v ∧ |v ^ 2 - f.sumSq [x, y, z]| ≤ 6 * f.unitRoundoff env.mode * f.sumSq [x, y, z] ∧
      slow3 env ss as qnan x y z = f.round env.mode false v ∧
      ((1 + 6 * f.unitRoundoff env.mode) * f.sumSq [x, y, z] < (2 ^ (f.bias + 1)) ^ 2 → f.isFinite (slow3 env ss as qnan x y z)) := by
    intro hx hy hz
    obtain ⟨H, L, C, so⟩ := sorted g.ok hx hy hz
    rw [slow3_fin env g.ok _ _ _ hx hy hz, so.sum]
    by_cases hH : H = 0
    · have hL : L = 0 := le_antisymm (hH ▸ so.LH) so.L0
      have hC : C = 0 := le_antisymm (hH ▸ so.CH) so.C0
      have e := rawLo_zero env g hss so.hi (hL ▸ so.l0) (hC ▸ so.l1)
      rw [e, if_pos rfl]
      refine ⟨H, by rw [hH], ?_, num_round g.ok _ so.hi, fun _ => so.hi.1⟩
      rw [hH, hL, hC]; simp
    have hH0 : 0 < H := lt_of_le_of_ne (le_trans so.L0 so.LH) (Ne.symm hH)
    obtain ⟨r1, r2, r3⟩ := raw3_spec env g hss has so.hi so.l0 so.l1 so.L0 so.LH so.C0 so.CH hH0
    rw [eq_zero g.ok r2]
    by_cases h0 : f.isZero (rawLo env ss (hi3 x y z) (lo0 x y z) (lo1 x y))
    · rw [decide_eq_true h0, if_pos rfl]
      exact ⟨H, hH0.le, r3 h0, num_round g.ok _ so.hi, fun _ => so.hi.1⟩
    · rw [decide_eq_false h0, if_neg (by simp)]
      exact r1
  refine ⟨?_, ?_, ?_, ?_, ?_⟩
  · intro h
    have : f.isInf x ∨ f.isInf y ∨ f.isInf z := by simpa using h
    rw [slow3_eq env g.ok, if_pos this, isInf_iff]
    exact mag_inf g.ok
  · intro h1 h2
    have h1' : ¬ (f.isInf x ∨ f.isInf y ∨ f.isInf z) := by simpa using h1
    have h2' : f.isNaN x ∨ f.isNaN y ∨ f.isNaN z := by simpa using h2
    rw [slow3_eq env g.ok, if_neg h1', if_pos h2']; exact hq
  · intro as' a bs hxs ha hz
    have cases : (a = x ∧ f.isZero y ∧ f.isZero z) ∨ (a = y ∧ f.isZero x ∧ f.isZero z) ∨ (a = z ∧ f.isZero x ∧ f.isZero y) := by
      match as', hxs with
      | [], h =>
        simp only [List.nil_append, List.cons.injEq] at h; obtain ⟨rfl, rfl⟩ := h
        exact Or.inl ⟨rfl, hz _ (by simp), hz _ (by simp)⟩
      | [b], h =>
        simp only [List.cons_append, List.nil_append, List.cons.injEq] at h; obtain ⟨rfl, rfl, rfl⟩ := h
        exact Or.inr (Or.inl ⟨rfl, hz _ (by simp), hz _ (by simp)⟩)
      | [b, c], h =>
        simp only [List.cons_append, List.nil_append, List.cons.injEq] at h; obtain ⟨rfl, rfl, rfl, -⟩ := h
        exact Or.inr (Or.inr ⟨rfl, hz _ (by simp), hz _ (by simp)⟩)
      | b :: c :: d :: e, h => exact absurd (congrArg List.length h) (by simp)
    have fin : f.isFinite x ∧ f.isFinite y ∧ f.isFinite z := by
      rcases cases with ⟨rfl, h1, h2⟩ | ⟨rfl, h1, h2⟩ | ⟨rfl, h1, h2⟩
      · exact ⟨ha, hz0 _ h1, hz0 _ h2⟩
      · exact ⟨hz0 _ h1, ha, hz0 _ h2⟩
      · exact ⟨hz0 _ h1, hz0 _ h2, ha⟩
    obtain ⟨H, L, C, so⟩ := sorted g.ok fin.1 fin.2.1 fin.2.2
    have hv0 : L = 0 ∧ C = 0 ∧ H = |f.ratValue a| := by
      rw [so.L_eq, so.C_eq, so.H_eq]
      rcases cases with ⟨rfl, h1, h2⟩ | ⟨rfl, h1, h2⟩ | ⟨rfl, h1, h2⟩ <;> rw [hv _ h1, hv _ h2]
      · simp
      · simp
      · simp
    rw [slow3_fin env g.ok _ _ _ fin.1 fin.2.1 fin.2.2, rawLo_zero env g hss so.hi (hv0.1 ▸ so.l0) (hv0.2.1 ▸ so.l1), if_pos rfl]
    exact ⟨so.hi.1, so.hi.3, by rw [so.hi.2, hv0.2.2]⟩
  · intro h
    obtain ⟨v, a, b, c, -⟩ := acc (h x (by simp)) (h y (by simp)) (h z (by simp))
    exact ⟨v, a, b, c⟩
  · intro h hl
    obtain ⟨v, a, b, c, d⟩ := acc (h x (by simp)) (h y (by simp)) (h z (by simp))
    exact d hl

theorem fast3_eq (g : HOk f) (ss as : f.Bits → f.Bits → f.Bits) {x y z : f.Bits} (hx : f.isNormal x) (hy : f.isNormal y) (hz : f.isNormal z) :
    fast3 env ss as x y z = raw3 env ss as (hi3 x y z) (lo0 x y z) (lo1 x y) := by
  have hn : f.isNormal (hi3 x y z) := by
    unfold hi3
    rcases max_cases (max (FloatBits.abs f x) (FloatBits.abs f y)) (FloatBits.abs f z) with h | h <;> rw [h]
    · rcases max_cases (FloatBits.abs f x) (FloatBits.abs f y) with h | h <;> rw [h, isNormal_abs] <;> assumption
    · rwa [isNormal_abs]
  obtain ⟨H, L, C, so⟩ := sorted g.ok hx.1 hy.1 hz.1
  obtain ⟨k, sc⟩ := scale_ok env g so.hi
  obtain ⟨e1, e2⟩ := sc.fast hn
  unfold raw3 rawLo
  rw [e2, e1]
  rfl

theorem normal_pos {x : f.Bits} (h : f.isNormal x) : 0 < |f.ratValue x| := lt_of_lt_of_le (by positivity) (abs_normal h.2).1

theorem fast3_spec (g : HOk f) {ss as : f.Bits → f.Bits → f.Bits} (hss : ss ∈ sumForms env) (has : as ∈ addForms env)
    {x y z : f.Bits} (hx : f.isNormal x) (hy : f.isNormal y) (hz : f.isNormal z) : f.IsHypot env.mode 6 [x, y, z] (fast3 env ss as x y z) := by
  have := finite_not g.ok hx.1
  have := finite_not g.ok hy.1
  have := finite_not g.ok hz.1
  obtain ⟨H, L, C, so⟩ := sorted g.ok hx.1 hy.1 hz.1
  have hH0 : 0 < H := by
    rw [so.H_eq]; exact lt_of_lt_of_le (normal_pos hz) (le_max_right _ _)
  obtain ⟨⟨v, v1, v2, v3, v4⟩, -, -⟩ := raw3_spec env g hss has so.hi so.l0 so.l1 so.L0 so.LH so.C0 so.CH hH0
  rw [fast3_eq env g _ _ hx hy hz]
  refine ⟨?_, ?_, ?_, ?_, ?_⟩
  · intro h
    have : f.isInf x ∨ f.isInf y ∨ f.isInf z := by simpa using h
    tauto
  · intro _ h2
    have h2' : f.isNaN x ∨ f.isNaN y ∨ f.isNaN z := by simpa using h2
    tauto
  · intro as' a bs hxs ha hz'
    have nz : ∀ w : f.Bits, f.isNormal w → ¬ f.isZero w := fun w hw h => hw.2 h.1
    have : f.isZero x ∨ f.isZero y := by
      match as', hxs with
      | [], h => simp only [List.nil_append, List.cons.injEq] at h; obtain ⟨rfl, rfl⟩ := h; exact Or.inr (hz' _ (by simp))
      | b :: c, h => simp only [List.cons_append, List.cons.injEq] at h; obtain ⟨rfl, -⟩ := h; exact Or.inl (hz' _ (by simp))
    rcases this with h | h
    · exact absurd h (nz _ hx)
    · exact absurd h (nz _ hy)
  · intro _; rw [so.sum]; exact ⟨v, v1, v2, v3⟩
  · intro _; rw [so.sum]; exact v4

/-! ## one operand dominates, rounding to nearest -/

theorem sqrt_near {q : ℚ} {N : ℕ} (hN : 1 ≤ N) (h1 : 1 ≤ q) (h2 : ((N : ℚ) - 1 / 2) ^ 2 < q) (h3 : q < ((N : ℚ) + 1 / 2) ^ 2) :
    RMode.nearest.sqrt q = N := by
  obtain ⟨a, b, c⟩ := sqrt_bounds .nearest h1
  rw [show slack .nearest = 1 / 2 from rfl] at b c
  set n := RMode.nearest.sqrt q with hn
  have hN' : (1 : ℚ) ≤ N := by exact_mod_cast hN
  have hn' : (1 : ℚ) ≤ n := by exact_mod_cast a
  have e1 : (n : ℚ) - 1 / 2 < N + 1 / 2 := lt_of_pow_lt_pow_left₀ 2 (by linarith) (lt_of_le_of_lt b h3)
  have e2 : (N : ℚ) - 1 / 2 < n + 1 / 2 := lt_of_pow_lt_pow_left₀ 2 (by linarith) (lt_of_lt_of_le h2 c)
  have e3 : n < N + 1 := by
    have : (n : ℚ) < ((N + 1 : ℕ) : ℚ) := by push_cast; linarith
    exact_mod_cast this
  have e4 : N < n + 1 := by
    have : (N : ℚ) < ((n + 1 : ℕ) : ℚ) := by push_cast; linarith
    exact_mod_cast this
  omega

theorem rep_one_two (hw : f.mbits < f.bias) {h : ℚ} (hr : Rep f h) (h1 : 1 ≤ h) (h2 : h < 2) :
    ∃ N : ℕ, 1 ≤ N ∧ h = N * 2 ^ (-(f.mbits : ℤ)) ∧ h ≤ 2 - 2 ^ (-(f.mbits : ℤ)) := by
  obtain ⟨n, e1, e2, e3⟩ := hr.significand (by linarith)
  have hlog : Int.log 2 |h| = 0 := by
    rw [abs_of_pos (by linarith)]
    apply le_antisymm
    · by_contra hc
      have : (2 : ℚ) ^ (1 : ℤ) ≤ h := (Int.zpow_le_iff_le_log (b := 2) (by norm_num) (by linarith)).2 (by omega)
      norm_num at this; linarith
    · rw [← Int.zpow_le_iff_le_log (b := 2) (by norm_num) (by linarith)]; simpa using h1
  have hq : f.qexp h = -(f.mbits : ℤ) := by
    unfold Fmt.qexp; rw [hlog]; unfold Fmt.emin
    rw [zero_sub]; apply max_eq_left; omega
  rw [hq] at e1
  have hp : (0 : ℚ) < 2 ^ (-(f.mbits : ℤ)) := by positivity
  have hn : 0 < n := by
    have : (0 : ℚ) < n := by
      by_contra hc
      have : (n : ℚ) * 2 ^ (-(f.mbits : ℤ)) ≤ 0 := mul_nonpos_of_nonpos_of_nonneg (by linarith) hp.le
      linarith
    exact_mod_cast this
  obtain ⟨N, rfl⟩ : ∃ N : ℕ, n = N := ⟨n.toNat, by omega⟩
  refine ⟨N, by exact_mod_cast hn, by simpa using e1, ?_⟩
  have hpow : (2 : ℚ) ^ (f.mbits : ℕ) * 2 ^ (-(f.mbits : ℤ)) = 1 := by
    rw [zpow_neg, zpow_natCast]; field_simp
  have h3 : N < 2 * 2 ^ f.mbits := by
    have : (N : ℚ) * 2 ^ (-(f.mbits : ℤ)) < (2 * 2 ^ f.mbits) * 2 ^ (-(f.mbits : ℤ)) := by
      rw [mul_assoc, hpow]; push_cast at e1; linarith
    have := lt_of_mul_lt_mul_right this hp.le
    exact_mod_cast this
  have h4 : (N : ℚ) ≤ 2 * 2 ^ f.mbits - 1 := by
    have : ((N + 1 : ℕ) : ℚ) ≤ ((2 * 2 ^ f.mbits : ℕ) : ℚ) := by exact_mod_cast h3
    push_cast at this; linarith
  rw [e1]; push_cast
  calc (N : ℚ) * 2 ^ (-(f.mbits : ℤ)) ≤ (2 * 2 ^ f.mbits - 1) * 2 ^ (-(f.mbits : ℤ)) := mul_le_mul_of_nonneg_right h4 hp.le
    _ = _ := by rw [sub_mul, mul_assoc, hpow]; ring

/-- The arithmetic of `sqrt_sq`. -/
theorem sqrt_sq_arith {p h s t : ℚ} (hp : 0 < p) (hp1 : p ≤ 1 / 256) (h1 : 1 ≤ h) (h2 : h ≤ 2 - p) (ht0 : 0 < t) (ht : 1024 * t ≤ p ^ 2)
    (he : |s - h ^ 2| ≤ p / 2 * h ^ 2 + t) : (h - p / 2) ^ 2 < s ∧ s < (h + p / 2) ^ 2 ∧ s < 4 := by
  obtain ⟨a, b⟩ := abs_le.1 he
  have k1 : p / 2 ≤ h - h ^ 2 / 2 := by nlinarith
  have k2 : p / 2 * p ≤ p * (h - h ^ 2 / 2) := by
    have := mul_le_mul_of_nonneg_left k1 hp.le; linarith
  refine ⟨?_, ?_, ?_⟩
  · nlinarith
  · nlinarith
  · have : h ^ 2 ≤ (2 - p) ^ 2 := pow_le_pow_left₀ (by linarith) h2 2
    nlinarith

theorem sqrt_sq (g : HOk f) {h : ℚ} (hr : Rep f h) (h1 : 1 ≤ h) (h2 : h < 2) : f.sqrtTo .nearest (f.roundTo .nearest (h ^ 2)) = h := by
  obtain ⟨N, n1, n2, n3⟩ := rep_one_two g.int hr h1 h2
  set p := (2 : ℚ) ^ (-(f.mbits : ℤ)) with hp
  have hp0 : 0 < p := by positivity
  have hu : f.unitRoundoff .nearest = p / 2 := by
    rw [unit_eq, show slack .nearest = 1 / 2 from rfl, hp, zpow_neg, zpow_natCast]; ring
  have hu1 := unit_le g .nearest
  have hp1 : p ≤ 1 / 256 := by
    rw [hp, zpow_neg, zpow_natCast, inv_eq_one_div]
    have : (2 : ℚ) ^ 8 ≤ 2 ^ f.mbits := pow_le_pow_right₀ (by norm_num) g.mant
    rw [div_le_div_iff₀ (by positivity) (by norm_num)]; linarith
  have ht := tiny_le g .nearest
  rw [hu] at ht
  have he := round_err (f := f) .nearest (h ^ 2)
  rw [hu, abs_of_nonneg (sq_nonneg h)] at he
  have ht2 : 1024 * (2 : ℚ) ^ f.emin ≤ p ^ 2 := by
    have : p ^ 2 * p ^ 2 ≤ p ^ 2 * 1 := mul_le_mul_of_nonneg_left (by nlinarith) (by positivity)
    have e : (p / 2) ^ 2 * p ^ 2 = p ^ 2 * p ^ 2 / 4 := by ring
    rw [← hp, e] at ht
    linarith
  obtain ⟨a, b, c⟩ := sqrt_sq_arith hp0 hp1 h1 n3 (by positivity) ht2 he
  have h1s : 1 ≤ f.roundTo .nearest (h ^ 2) := by
    obtain ⟨s, i1, -, -, i2, -⟩ := round_nonneg g .nearest (q := h ^ 2) (by positivity) (by nlinarith)
    have : (1 : ℚ) ≤ h ^ 2 := by nlinarith
    have := i2 this
    have hl : |f.roundTo .nearest (h ^ 2)| < 2 ^ (f.bias + 1) := by
      have := (pow_bias g).1
      rw [abs_of_nonneg ((roundTo_sign (f := f) .nearest).1 (by positivity))]; linarith
    have k := (round_spec g.ok .nearest false hl).2
    rw [i1.2] at k
    linarith
  set s := f.roundTo .nearest (h ^ 2) with hs
  have hexp : f.sqrtExp s = -(f.mbits : ℤ) := by
    have e0 : 0 ≤ Int.log 2 s := by
      rw [← Int.zpow_le_iff_le_log (b := 2) (by norm_num) (by linarith)]; simpa using h1s
    have e1 : Int.log 2 s < 2 := by
      by_contra hc
      have : (2 : ℚ) ^ (2 : ℤ) ≤ s := (Int.zpow_le_iff_le_log (b := 2) (by norm_num) (by linarith)).2 (by omega)
      norm_num at this; linarith
    unfold Fmt.sqrtExp
    rw [show Int.log 2 s / 2 = 0 by omega, zero_sub]
    apply max_eq_left
    have := g.tiny; push_cast at this; omega
  have hq : s / 2 ^ (2 * f.sqrtExp s) = s / p ^ 2 := by
    rw [hexp, hp, two_mul, zpow_add₀ (by norm_num), sq]
  unfold Fmt.sqrtTo
  rw [hq, hexp, sqrt_near (N := N) n1, ← hp, n2]
  · rw [le_div_iff₀ (by positivity)]; nlinarith
  · rw [lt_div_iff₀ (by positivity)]
    calc ((N : ℚ) - 1 / 2) ^ 2 * p ^ 2 = (h - p / 2) ^ 2 := by rw [n2]; ring
      _ < s := a
  · rw [div_lt_iff₀ (by positivity)]
    calc s < (h + p / 2) ^ 2 := b
      _ = ((N : ℚ) + 1 / 2) ^ 2 * p ^ 2 := by rw [n2]; ring

/-- `__lo + __h1 * __h1` if `__lo` is zero. -/
theorem addForms_zero (g : HOk f) {as : f.Bits → f.Bits → f.Bits} (has : as ∈ addForms env) {x y : f.Bits} {b : ℚ} (hx : IsNum f x false 0)
    (hy : IsNum f y false b) (hb : 0 ≤ b) (hb2 : b < 2) : IsNum f (as x y) false (f.roundTo env.mode (b ^ 2)) := by
  have hs := (roundTo_sign (f := f) env.mode).1 (show 0 ≤ b ^ 2 by positivity)
  have he := (abs_le.1 (round_err (f := f) env.mode (b ^ 2))).2
  have hu := unit_le g env.mode
  have hu0 := unit_pos (f := f) env.mode
  have hbb := (pow_bias g).1
  have ht := (tiny_pos g).2
  rw [abs_of_nonneg (sq_nonneg b)] at he
  have hl : |f.roundTo env.mode (b ^ 2)| < 2 ^ (f.bias + 1) := by rw [abs_of_nonneg hs]; nlinarith
  have key := round_spec g.ok env.mode false hl
  rw [show (if b ^ 2 = 0 then false else decide (b ^ 2 < 0)) = false by split <;> simp [sq_nonneg b]] at key
  simp only [addForms, List.mem_cons, List.mem_nil_iff, or_false] at has
  rcases has with rfl | rfl
  · have hm : IsNum f (Fmt.mul env y y) false (f.roundTo env.mode (b ^ 2)) := by
      rw [mul_fin env g.ok hy hy, ← sq]; exact key
    beta_reduce
    rw [add_fin env g.ok hx hm, zero_add]
    have hr : f.roundTo env.mode (f.roundTo env.mode (b ^ 2)) = f.roundTo env.mode (b ^ 2) := roundTo_rep _ (rep_roundTo _ _)
    have := round_spec g.ok env.mode false (by rw [hr]; exact hl)
    rw [hr] at this
    rwa [show (if f.roundTo env.mode (b ^ 2) = 0 then false else decide (f.roundTo env.mode (b ^ 2) < 0)) = false by split <;> simp [hs]] at this
  · beta_reduce
    rw [fma_fin env g.ok hy hy hx, add_zero, ← sq]; exact key

theorem num_unique {x y : f.Bits} {s : Bool} {q : ℚ} (hx : IsNum f x s q) (hy : IsNum f y s q) : x = y :=
  finite_ext (by rw [hx.3, hy.3]) (by rw [hx.2, hy.2])

theorem normal_ge {x : f.Bits} (h : f.isNormal x) : (2 : ℚ) ^ (1 - (f.bias : ℤ)) ≤ |f.ratValue x| :=
  le_trans (zpow_le_zpow_right₀ (by norm_num) (by have := h.2; omega)) (abs_normal h.2).1

theorem raw3_dominated (g : HOk f) (hm : env.mode = .nearest) {ss as : f.Bits → f.Bits → f.Bits} (has : as ∈ addForms env)
    {hi l0 l1 : f.Bits} {H : ℚ} (hh : IsNum f hi false H) (hn : f.isNormal hi) (hz : IsNum f (rawLo env ss hi l0 l1) false 0) :
    raw3 env ss as hi l0 l1 = hi := by
  obtain ⟨k, sc⟩ := scale_ok env g hh
  have hH0 : 0 ≤ H := by have := (ratValue_sign (x := hi)).1 hh.3; rwa [hh.2] at this
  have hH := normal_ge hn
  rw [hh.2, abs_of_nonneg hH0] at hH
  have hp : (0 : ℚ) < 2 ^ (-k) := by positivity
  have hk : (2 : ℚ) ^ (-k) * 2 ^ k = 1 := by rw [← zpow_add₀ (by norm_num)]; simp
  have h1 : 1 ≤ H * 2 ^ (-k) := by
    rcases sc.one with h | h
    · exact h
    · rw [← h] at hH
      have := mul_le_mul_of_nonneg_right hH hp.le
      linarith
  have n1 := addForms_zero env g has hz sc.h1 (by linarith) sc.lt
  have hr : Rep f (H * 2 ^ (-k)) := by have := rep_ratValue g.ok (Fmt.mul env hi (slowScale env hi).1); rwa [sc.h1.2] at this
  have hs0 : 0 < f.roundTo env.mode ((H * 2 ^ (-k)) ^ 2) := by
    have := one_le_roundTo g.ok env.mode (q := (H * 2 ^ (-k)) ^ 2) (by nlinarith) (by have := (pow_bias g).2; nlinarith [sc.lt])
    linarith
  have n2 := (sqrt_val env g.ok g.int n1 hs0).1
  rw [hm, sqrt_sq g hr h1 sc.lt] at n2
  have hv : 2 ^ k * (H * 2 ^ (-k)) = H := by rw [mul_comm, mul_assoc, hk, mul_one]
  have n3 := exact_nonneg env g.ok sc.exp n2 (by rw [hv]; exact hH0) (by rw [hv, ← hh.2]; exact rep_ratValue g.ok hi)
    (by rw [hv]; have := ratValue_lt g.ok hh.1; rwa [hh.2, abs_of_nonneg hH0] at this)
  rw [hv] at n3
  exact num_unique n3 hh

theorem hi3_normal {x y z : f.Bits} (hx : f.isNormal x) (hy : f.isNormal y) (hz : f.isNormal z) : f.isNormal (hi3 x y z) := by
  unfold hi3
  rcases max_cases (max (FloatBits.abs f x) (FloatBits.abs f y)) (FloatBits.abs f z) with h | h <;> rw [h]
  · rcases max_cases (FloatBits.abs f x) (FloatBits.abs f y) with h | h <;> rw [h, isNormal_abs] <;> assumption
  · rwa [isNormal_abs]

/-- Both paths agree if rounding to nearest. -/
theorem fast3_eq_slow3 (g : HOk f) (hm : env.mode = .nearest) {ss as : f.Bits → f.Bits → f.Bits} (hss : ss ∈ sumForms env) (has : as ∈ addForms env)
    (qnan : f.Bits) {x y z : f.Bits} (hx : f.isNormal x) (hy : f.isNormal y) (hz : f.isNormal z) :
    fast3 env ss as x y z = slow3 env ss as qnan x y z := by
  obtain ⟨H, L, C, so⟩ := sorted g.ok hx.1 hy.1 hz.1
  have hH0 : 0 < H := by rw [so.H_eq]; exact lt_of_lt_of_le (normal_pos hz) (le_max_right _ _)
  rw [fast3_eq env g _ _ hx hy hz, slow3_fin env g.ok _ _ _ hx.1 hy.1 hz.1]
  obtain ⟨-, r2, -⟩ := raw3_spec env g hss has so.hi so.l0 so.l1 so.L0 so.LH so.C0 so.CH hH0
  rw [eq_zero g.ok r2]
  by_cases h0 : f.isZero (rawLo env ss (hi3 x y z) (lo0 x y z) (lo1 x y))
  · rw [decide_eq_true h0, if_pos rfl]
    refine raw3_dominated env g hm has so.hi (hi3_normal hx hy hz) ?_
    have hs := rawLo_sign env g hss so
    have := (num_zero g.ok (self_num r2)).1 h0
    exact ⟨r2, this, hs⟩
  · rw [decide_eq_false h0, if_neg (by simp)]

/-! ## whole vectors -/

theorem hypot_eq (g : HOk f) {ss : f.Bits → f.Bits → f.Bits} (qnan : f.Bits) {nrm : f.Bits → Bool} (hn : ∀ x, nrm x = decide (f.isNormal x))
    (xs ys : List f.Bits) : hypot env ss qnan nrm xs ys = List.zipWith (slow env ss qnan) xs ys := by
  unfold hypot
  split
  · rename_i h
    rw [Bool.and_eq_true, List.all_eq_true, List.all_eq_true] at h
    obtain ⟨h1, h2⟩ := h
    induction xs generalizing ys with
    | nil => simp
    | cons x xs ih =>
      cases ys with
      | nil => simp
      | cons y ys =>
        simp only [List.zipWith_cons_cons]
        rw [fast_eq_slow env g ss qnan (of_decide_eq_true (hn x ▸ h1 x (by simp))) (of_decide_eq_true (hn y ▸ h2 y (by simp))),
          ih ys (fun a ha => h1 a (by simp [ha])) (fun a ha => h2 a (by simp [ha]))]
  · rfl

theorem hypot3_eq (g : HOk f) (hm : env.mode = .nearest) {ss as : f.Bits → f.Bits → f.Bits} (hss : ss ∈ sumForms env) (has : as ∈ addForms env)
    (qnan : f.Bits) {nrm : f.Bits → Bool} (hn : ∀ x, nrm x = decide (f.isNormal x)) (xs : List (f.Bits × f.Bits × f.Bits)) :
    hypot3 env ss as qnan nrm xs = xs.map fun p => slow3 env ss as qnan p.1 p.2.1 p.2.2 := by
  unfold hypot3
  split
  · rename_i h
    rw [Bool.and_eq_true, Bool.and_eq_true, List.all_eq_true, List.all_eq_true, List.all_eq_true] at h
    obtain ⟨⟨h1, h2⟩, h3⟩ := h
    apply List.map_congr_left
    intro p hp
    exact fast3_eq_slow3 env g hm hss has qnan (of_decide_eq_true (hn _ ▸ h1 p hp)) (of_decide_eq_true (hn _ ▸ h2 p hp))
      (of_decide_eq_true (hn _ ▸ h3 p hp))
  · rfl

theorem hypot3_spec (g : HOk f) {ss as : f.Bits → f.Bits → f.Bits} (hss : ss ∈ sumForms env) (has : as ∈ addForms env)
    {qnan : f.Bits} (hq : f.isNaN qnan) {nrm : f.Bits → Bool} (hn : ∀ x, nrm x = decide (f.isNormal x)) (xs : List (f.Bits × f.Bits × f.Bits)) :
    List.Forall₂ (fun p r => f.IsHypot env.mode 6 [p.1, p.2.1, p.2.2] r) xs (hypot3 env ss as qnan nrm xs) := by
  unfold hypot3
  split
  · rename_i h
    rw [Bool.and_eq_true, Bool.and_eq_true, List.all_eq_true, List.all_eq_true, List.all_eq_true] at h
    obtain ⟨⟨h1, h2⟩, h3⟩ := h
    rw [List.forall₂_map_right_iff, List.forall₂_same]
    intro p hp
    exact fast3_spec env g hss has (of_decide_eq_true (hn _ ▸ h1 p hp)) (of_decide_eq_true (hn _ ▸ h2 p hp)) (of_decide_eq_true (hn _ ▸ h3 p hp))
  · rw [List.forall₂_map_right_iff, List.forall₂_same]
    exact fun p _ => slow3_spec env g hss has hq _ _ _

/-! ## symmetries -/

theorem slow_abs (hf : f.Ok) (ss : f.Bits → f.Bits → f.Bits) (qnan : f.Bits) {x y x' y' : f.Bits} (hx : FloatBits.abs f x = FloatBits.abs f x')
    (hy : FloatBits.abs f y = FloatBits.abs f y') : slow env ss qnan x y = slow env ss qnan x' y' := by
  have e1 : f.isInf x ↔ f.isInf x' := by rw [← isInf_abs, hx, isInf_abs]
  have e2 : f.isInf y ↔ f.isInf y' := by rw [← isInf_abs, hy, isInf_abs]
  have e3 : f.isNaN x ↔ f.isNaN x' := by rw [← isNaN_abs, hx, isNaN_abs]
  have e4 : f.isNaN y ↔ f.isNaN y' := by rw [← isNaN_abs, hy, isNaN_abs]
  rw [slow_eq env hf, slow_eq env hf]
  simp only [e1, e2, e3, e4, hx, hy]

theorem slow_comm (hf : f.Ok) (ss : f.Bits → f.Bits → f.Bits) (qnan x y : f.Bits) : slow env ss qnan x y = slow env ss qnan y x := by
  rw [slow_eq env hf, slow_eq env hf]
  by_cases h1 : f.isInf x ∨ f.isInf y
  · rw [if_pos h1, if_pos h1.symm]
  rw [if_neg h1, if_neg (show ¬ (f.isInf y ∨ f.isInf x) from fun h => h1 h.symm)]
  by_cases h2 : f.isNaN x ∨ f.isNaN y
  · rw [if_pos h2, if_pos h2.symm]
  rw [if_neg h2, if_neg (show ¬ (f.isNaN y ∨ f.isNaN x) from fun h => h2 h.symm)]
  have fx : f.isFinite x := by rw [isFinite_iff]; rw [isInf_iff, isInf_iff, isNaN_iff, isNaN_iff] at *; omega
  have fy : f.isFinite y := by rw [isFinite_iff]; rw [isInf_iff, isInf_iff, isNaN_iff, isNaN_iff] at *; omega
  have e1 : max (FloatBits.abs f x) (FloatBits.abs f y) = max (FloatBits.abs f y) (FloatBits.abs f x) :=
    num_unique (max_num hf (abs_num fx) (abs_num fy)) (by rw [max_comm]; exact max_num hf (abs_num fy) (abs_num fx))
  have e2 : min (FloatBits.abs f y) (FloatBits.abs f x) = min (FloatBits.abs f x) (FloatBits.abs f y) :=
    num_unique (min_num hf (abs_num fy) (abs_num fx)) (by rw [min_comm]; exact min_num hf (abs_num fx) (abs_num fy))
  rw [e1, e2]

/-! ## ARMv7 NEON -/

theorem mul_nan {x y : f.Bits} (h : f.isNaN x ∨ f.isNaN y) : f.isNaN (Fmt.mul env x y) := by
  unfold Fmt.mul; rw [if_pos h]; exact env.isNaN _ _

theorem sumForms_nan {ss : f.Bits → f.Bits → f.Bits} (hss : ss ∈ sumForms env) {x : f.Bits} (h : f.isNaN x) (y : f.Bits) : f.isNaN (ss x y) := by
  simp only [sumForms, List.mem_cons, List.mem_nil_iff, or_false] at hss
  rcases hss with rfl | rfl | rfl <;> beta_reduce
  · exact add_nan env (Or.inl (mul_nan env (Or.inl h)))
  · unfold Fmt.fma; rw [if_pos (by tauto)]; exact env.isNaN _ _
  · unfold Fmt.fma; rw [if_pos (by have := mul_nan env (x := x) (y := x) (Or.inl h); tauto)]; exact env.isNaN _ _

theorem lt_inf (hf : f.Ok) {y : f.Bits} (hy : f.isFinite y) : f.lt y (infBits f) = true := by
  obtain ⟨i1, i2, i3⟩ := inf_lt hf
  obtain ⟨m1, m2⟩ := mag_inf hf
  have n1 := (finite_not hf hy).1
  have n2 : ¬ f.isNaN (infBits f) := by rw [isNaN_iff, m1]; omega
  rw [lt_eq hf, unordered_eq hf, decide_eq_false (by tauto)]
  rw [isFinite_iff] at hy
  unfold ikey
  rw [m1, m2]
  cases f.sign y <;> simp <;> omega

theorem mul_inf {x y : f.Bits} (hx : f.isInf x) (nx : ¬ f.isNaN x) (ny : ¬ f.isNaN y) (zx : ¬ f.isZero x) (zy : ¬ f.isZero y) :
    Fmt.mul env x y = f.ofMag (f.sign x ^^ f.sign y) f.infMag := by
  unfold Fmt.mul; rw [if_neg (by tauto), if_pos (Or.inl hx), if_neg (by tauto)]

theorem neon_inf (hf : f.Ok) (hw : f.mbits < f.bias) (h3 : 3 < f.bias) {ss : f.Bits → f.Bits → f.Bits} (hss : ss ∈ sumForms env) {x y : f.Bits} (hx : f.isInf x)
    (hy : f.isFinite y) : f.isNaN (neon env ss x y) := by
  obtain ⟨i1, i2, i3⟩ := inf_lt hf
  obtain ⟨m1, m2⟩ := mag_inf hf
  have ninf : ¬ f.isNaN (infBits f) := by rw [isNaN_iff, m1]; omega
  have zinf : ¬ f.isZero (infBits f) := by rw [isZero_iff, m1]; omega
  have iinf : f.isInf (infBits f) := by rw [isInf_iff, m1]
  have hax : FloatBits.abs f x = infBits f := by
    apply bits_ext
    · rw [sign_abs, m2]
    · rw [mag_abs, m1]; rwa [isInf_iff] at hx
  have hhi : max (FloatBits.abs f x) (FloatBits.abs f y) = infBits f := by
    unfold max; rw [hax, lt_inf hf (abs_num hy).1, if_pos rfl]
  have hz : f.isZero (0 : f.Bits) := by rw [isZero_iff]; exact (pos_const (Nat.two_pow_pos _)).1
  have he : mag f (eighth f) = (f.bias - 3) * 2 ^ f.mbits ∧ f.sign (eighth f) = false := by
    refine pos_const (lt_trans ?_ i1)
    have hbe := bias_eq hf
    unfold inf; exact Nat.mul_lt_mul_of_pos_right (by omega) (Nat.two_pow_pos _)
  have hel : (f.bias - 3) * 2 ^ f.mbits < inf f := by
    have hbe := bias_eq hf
    unfold inf; exact Nat.mul_lt_mul_of_pos_right (by omega) (Nat.two_pow_pos _)
  have hep : 0 < (f.bias - 3) * 2 ^ f.mbits := Nat.mul_pos (by omega) (Nat.two_pow_pos _)
  have hm1 : Fmt.mul env (infBits f) (eighth f) = infBits f := by
    rw [mul_inf env iinf ninf (by rw [isNaN_iff, he.1]; omega) zinf (by rw [isZero_iff, he.1]; omega), m2, he.2]
    unfold Fmt.ofMag infBits; simp; rfl
  have hm2 : f.isZero (Fmt.mul env (0 : f.Bits) (Rounding.half env)) := by
    have hfin : f.isFinite (0 : f.Bits) := by rw [isFinite_iff]; rw [isZero_iff] at hz; omega
    have h0 : IsNum f (0 : f.Bits) false 0 := ⟨hfin, (num_zero hf (self_num hfin)).1 hz, (pos_const (Nat.two_pow_pos _)).2⟩
    have := exact_nonneg env hf h0 (half_num env hf hw) (by simp) (by simpa using ⟨0, f.emin, by simp, le_refl _, by simp⟩) (by simp)
    rw [zero_mul] at this
    exact (num_zero hf this).2 rfl
  unfold neon
  dsimp only
  rw [hhi, BitVec.and_self, lt_inf hf (powBits_num hf (Nat.zero_le _)).1, if_pos rfl, hm1, BitVec.xor_self, eq_zero' hf, decide_eq_false zinf,
    if_neg (by simp)]
  refine mul_nan env (Or.inr ?_)
  have : f.isNaN (ss (Fmt.mul env (infBits f) (Fmt.mul env (0#f.width) (Rounding.half env)))
      (Fmt.mul env (min (FloatBits.abs f y) (FloatBits.abs f x)) (Fmt.mul env (0#f.width) (Rounding.half env)))) := by
    apply sumForms_nan env hss
    change f.isZero (Fmt.mul env (0#f.width) (Rounding.half env)) at hm2
    generalize Fmt.mul env (0#f.width) (Rounding.half env) = z at *
    unfold Fmt.mul
    rw [if_neg, if_pos (Or.inl iinf), if_pos (Or.inr hm2)]
    · exact env.isNaN _ _
    · intro h
      rcases h with h | h
      · exact ninf h
      · rw [isZero_iff] at hm2; rw [isNaN_iff, hm2] at h; omega
  unfold Fmt.sqrt
  rw [if_pos this]; exact env.isNaN _ _

end StdSimd.Hypot
