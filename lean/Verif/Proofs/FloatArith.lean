import Verif.Spec.FloatArith
import Verif.Proofs.FloatBits
import Verif.Proofs.Float
/-!
# Lemmas about IEEE arithmetic on bit patterns
-/
namespace StdSimd.FloatBits
open Spec

variable {f : Fmt}

/-- A number of the format's precision, without upper limit of the exponent. -/
def Rep (f : Fmt) (v : ℚ) : Prop := ∃ n e : ℤ, |n| < 2 ^ (f.mbits + 1) ∧ f.emin ≤ e ∧ v = n * 2 ^ e

theorem Rep.neg {v : ℚ} (h : Rep f v) : Rep f (-v) := by
  obtain ⟨n, e, h1, h2, h3⟩ := h
  exact ⟨-n, e, by rwa [abs_neg], h2, by rw [h3]; push_cast; ring⟩

theorem Rep.abs {v : ℚ} (h : Rep f v) : Rep f |v| := by
  rcases abs_choice v with e | e <;> rw [e]
  · exact h
  · exact h.neg

theorem bias_eq (hf : f.Ok) : 2 ^ f.ebits = 2 * f.bias + 2 ∧ 1 ≤ f.bias := by
  have h := hf.1
  unfold Fmt.bias
  obtain ⟨k, hk⟩ : ∃ k, f.ebits = k + 2 := ⟨f.ebits - 2, by omega⟩
  rw [hk, show k + 2 - 1 = k + 1 by omega, Nat.pow_succ 2 (k + 1), Nat.pow_succ]
  have := Nat.two_pow_pos k
  omega

theorem emin_le (hf : f.Ok) : f.emin ≤ -(f.mbits : ℤ) := by
  have := (bias_eq hf).2
  unfold Fmt.emin; omega

theorem rep_int (hf : f.Ok) {n : ℤ} (h : |n| ≤ 2 ^ (f.mbits + 1)) : Rep f n := by
  have he := emin_le hf
  rcases lt_or_eq_of_le h with h1 | h1
  · exact ⟨n, 0, h1, by omega, by simp⟩
  · have h2 : (2 : ℤ) ^ f.mbits < 2 ^ (f.mbits + 1) := by
      rw [pow_succ]; have : (0 : ℤ) < 2 ^ f.mbits := by positivity
      omega
    have hp : |(2 : ℤ) ^ f.mbits| = 2 ^ f.mbits := abs_of_pos (by positivity)
    rcases abs_choice n with e | e
    · refine ⟨2 ^ f.mbits, 1, by rw [hp]; exact h2, by omega, ?_⟩
      rw [← e, h1]; push_cast; ring
    · refine ⟨-2 ^ f.mbits, 1, by rw [abs_neg, hp]; exact h2, by omega, ?_⟩
      have : n = -|n| := by omega
      rw [this, h1]; push_cast; ring

theorem qexp_neg (q : ℚ) : f.qexp (-q) = f.qexp q := by unfold Fmt.qexp; rw [abs_neg]
theorem qexp_abs (q : ℚ) : f.qexp |q| = f.qexp q := by unfold Fmt.qexp; rw [abs_abs]

theorem abs_zpow_log {v : ℚ} (h : v ≠ 0) : (2 : ℚ) ^ Int.log 2 |v| ≤ |v| ∧ |v| < (2 : ℚ) ^ (Int.log 2 |v| + 1) :=
  log_bounds (abs_pos.2 h)

theorem lt_two_pow_qexp (v : ℚ) : |v| < 2 ^ (f.qexp v + (f.mbits + 1 : ℕ)) := by
  by_cases h : v = 0
  · rw [h]; simp; positivity
  refine lt_of_lt_of_le (abs_zpow_log h).2 (zpow_le_zpow_right₀ (by norm_num) ?_)
  unfold Fmt.qexp
  push_cast
  have := le_max_left (Int.log 2 |v| - f.mbits) f.emin
  omega

/-- The significand of a number of the format's precision. -/
theorem Rep.significand {v : ℚ} (h : Rep f v) (h0 : v ≠ 0) :
    ∃ n : ℤ, v = n * 2 ^ f.qexp v ∧ |n| < 2 ^ (f.mbits + 1) ∧ (f.qexp v = f.emin ∨ 2 ^ f.mbits ≤ |n|) := by
  obtain ⟨n, e, h1, h2, h3⟩ := h
  have hl := abs_zpow_log h0
  have hv : |v| < 2 ^ (e + (f.mbits + 1 : ℕ)) := by
    rw [h3, abs_mul, abs_of_pos (show (0 : ℚ) < 2 ^ e by positivity), zpow_add₀ (by norm_num), mul_comm]
    apply mul_lt_mul_of_pos_left _ (by positivity)
    rw [← Int.cast_abs]; push_cast
    exact_mod_cast h1
  have h4 : Int.log 2 |v| < e + (f.mbits + 1 : ℕ) := (zpow_lt_zpow_iff_right₀ (by norm_num : (1 : ℚ) < 2)).1 (lt_of_le_of_lt hl.1 hv)
  have h5 : f.qexp v ≤ e := by unfold Fmt.qexp; push_cast at h4; omega
  have e1 : v = ((n * 2 ^ (e - f.qexp v).toNat : ℤ) : ℚ) * 2 ^ f.qexp v := by
    push_cast
    rw [mul_assoc, ← zpow_natCast, ← zpow_add₀ (by norm_num : (2 : ℚ) ≠ 0), Int.toNat_of_nonneg (by omega), sub_add_cancel]
    exact h3
  have hq : (0 : ℚ) < 2 ^ f.qexp v := by positivity
  have e2 : |v| = ((|n * 2 ^ (e - f.qexp v).toNat| : ℤ) : ℚ) * 2 ^ f.qexp v := by
    conv_lhs => rw [e1]
    rw [abs_mul, abs_of_pos hq, Int.cast_abs]
  generalize n * 2 ^ (e - f.qexp v).toNat = k at *
  refine ⟨k, e1, ?_, ?_⟩
  · have := lt_two_pow_qexp (f := f) v
    rw [e2, zpow_add₀ (by norm_num), mul_comm] at this
    have := lt_of_mul_lt_mul_left this hq.le
    exact_mod_cast this
  · by_cases hc : f.qexp v = f.emin
    · exact Or.inl hc
    · right
      have hc2 : f.qexp v = Int.log 2 |v| - f.mbits := by unfold Fmt.qexp at *; omega
      have h6 := hl.1
      rw [show Int.log 2 |v| = f.qexp v + (f.mbits : ℕ) by omega, e2, zpow_add₀ (by norm_num), mul_comm] at h6
      have := le_of_mul_le_mul_right h6 hq
      exact_mod_cast this

/-! ## rounding to an integer -/

theorem toInt_int (m : RMode) (n : ℤ) : m.toInt n = n := by
  cases m <;> simp [RMode.toInt, roundEven_int, truncZ_int]

theorem truncZ_mono : Monotone truncZ := by
  intro a b h
  unfold truncZ
  split_ifs with h1 h2 h2
  · exact Int.floor_le_floor h
  · linarith
  · have : ⌈a⌉ ≤ 0 := Int.ceil_le.2 (by push_cast; linarith)
    have : 0 ≤ ⌊b⌋ := Int.floor_nonneg.2 h2
    omega
  · exact Int.ceil_le_ceil h

theorem toInt_mono (m : RMode) : Monotone m.toInt := by
  intro a b h
  cases m
  · exact roundEven_mono h
  · exact Int.floor_le_floor h
  · exact Int.ceil_le_ceil h
  · exact truncZ_mono h

theorem toInt_bounds (m : RMode) (q : ℚ) : ⌊q⌋ ≤ m.toInt q ∧ m.toInt q ≤ ⌈q⌉ := by
  have h1 := toInt_mono m (Int.floor_le q)
  have h2 := toInt_mono m (Int.le_ceil q)
  rw [toInt_int] at h1 h2
  exact ⟨h1, h2⟩

theorem toInt_abs_le (m : RMode) (q : ℚ) (n : ℤ) (h : |q| ≤ n) : |m.toInt q| ≤ n := by
  rw [abs_le] at h ⊢
  have h1 := toInt_mono m h.1
  have h2 := toInt_mono m h.2
  rw [toInt_int] at h2
  rw [show (-(n : ℚ)) = ((-n : ℤ) : ℚ) by push_cast; rfl, toInt_int] at h1
  exact ⟨h1, h2⟩

theorem rep_roundTo (m : RMode) (q : ℚ) : Rep f (f.roundTo m q) := by
  have hq : (0 : ℚ) < 2 ^ f.qexp q := by positivity
  have h := lt_two_pow_qexp (f := f) q
  have h1 : |q / 2 ^ f.qexp q| ≤ ((2 ^ (f.mbits + 1) : ℤ) : ℚ) := by
    rw [abs_div, abs_of_pos hq, div_le_iff₀ hq]
    rw [zpow_add₀ (by norm_num), mul_comm] at h
    push_cast
    exact_mod_cast h.le
  have h2 := toInt_abs_le m _ _ h1
  have he : f.emin ≤ f.qexp q := le_max_right _ _
  unfold Fmt.roundTo
  generalize m.toInt (q / 2 ^ f.qexp q) = n at *
  rcases lt_or_eq_of_le h2 with h3 | h3
  · exact ⟨n, f.qexp q, h3, he, rfl⟩
  · have h2' : (2 : ℤ) ^ f.mbits < 2 ^ (f.mbits + 1) := by
      rw [pow_succ]; have : (0 : ℤ) < 2 ^ f.mbits := by positivity
      omega
    have hp : |(2 : ℤ) ^ f.mbits| = 2 ^ f.mbits := abs_of_pos (by positivity)
    have hz : (2 : ℚ) ^ (f.qexp q + 1) = 2 * 2 ^ f.qexp q := by rw [zpow_add₀ (by norm_num), zpow_one, mul_comm]
    rcases abs_choice n with e | e
    · refine ⟨2 ^ f.mbits, f.qexp q + 1, by rw [hp]; exact h2', by omega, ?_⟩
      rw [← e, h3, hz]; push_cast; rw [pow_succ]; ring
    · refine ⟨-2 ^ f.mbits, f.qexp q + 1, by rw [abs_neg, hp]; exact h2', by omega, ?_⟩
      have : n = -|n| := by omega
      rw [this, h3, hz]; push_cast; rw [pow_succ]; ring

theorem roundTo_rep (m : RMode) {v : ℚ} (h : Rep f v) : f.roundTo m v = v := by
  by_cases h0 : v = 0
  · rw [h0]; unfold Fmt.roundTo
    rw [zero_div, show (0 : ℚ) = ((0 : ℤ) : ℚ) by simp, toInt_int]; simp
  obtain ⟨n, h1, -, -⟩ := h.significand h0
  have hq : (2 : ℚ) ^ f.qexp v ≠ 0 := by positivity
  unfold Fmt.roundTo
  rw [show v / 2 ^ f.qexp v = n by rw [div_eq_iff hq]; exact h1, toInt_int]
  exact h1.symm

/-! ## encoding -/

theorem unit_of_parts {m k j : Nat} (h : j < 2 ^ (m + 1)) (h2 : k = 0 ∨ 2 ^ m ≤ j) : unit m (k * 2 ^ m + j) = j * 2 ^ k := by
  have hm := Nat.two_pow_pos m
  unfold unit
  by_cases hj : j < 2 ^ m
  · have hk : k = 0 := by omega
    subst hk
    simp [Nat.mod_eq_of_lt hj, Nat.div_eq_of_lt hj]
  · obtain ⟨i, rfl⟩ : ∃ i, j = 2 ^ m + i := ⟨j - 2 ^ m, by omega⟩
    have hi : i < 2 ^ m := by rw [Nat.pow_succ] at h; omega
    have e : k * 2 ^ m + (2 ^ m + i) = 2 ^ m * (k + 1) + i := by ring
    rw [e, Nat.mul_add_div hm, Nat.mul_add_mod, Nat.div_eq_of_lt hi, Nat.mod_eq_of_lt hi]
    simp
    ring

theorem encode_unit {v : ℚ} (h : Rep f v) (h0 : 0 ≤ v) : (unit f.mbits (f.encode v) : ℚ) * quantum f = v := by
  unfold Fmt.encode
  split
  · rename_i hz; rw [hz, unit_zero]; simp
  · rename_i hz
    obtain ⟨n, h1, h2, h3⟩ := h.significand hz
    have hq : (0 : ℚ) < 2 ^ f.qexp v := by positivity
    have hd : v / 2 ^ f.qexp v = n := by rw [div_eq_iff hq.ne']; exact h1
    rw [hd, Int.floor_intCast]
    have hn : 0 ≤ n := by
      have : (0 : ℚ) ≤ n := by rw [← hd]; positivity
      exact_mod_cast this
    have he : f.emin ≤ f.qexp v := le_max_right _ _
    rw [abs_of_nonneg hn] at h2 h3
    have hb : n.toNat < 2 ^ (f.mbits + 1) := by
      zify [hn]; rw [Int.toNat_of_nonneg hn]; exact h2
    rw [unit_of_parts hb]
    · unfold quantum
      push_cast
      rw [mul_assoc, ← zpow_natCast, ← zpow_add₀ (by norm_num : (2 : ℚ) ≠ 0), Int.toNat_of_nonneg (by omega)]
      have : ((n.toNat : ℕ) : ℚ) = n := by exact_mod_cast congrArg (Int.cast (R := ℚ)) (Int.toNat_of_nonneg hn)
      rw [this]
      conv_rhs => rw [h1]
      congr 2
      unfold Fmt.emin; ring
    · rcases h3 with h3 | h3
      · left; omega
      · right; zify [hn]; rw [Int.toNat_of_nonneg hn]; exact h3

theorem infMag_eq : f.infMag = inf f := rfl

theorem unit_inf (hf : f.Ok) : (unit f.mbits (inf f) : ℚ) * quantum f = 2 ^ (f.bias + 1) := by
  obtain ⟨h1, h2⟩ := bias_eq hf
  have e : inf f = (2 * f.bias) * 2 ^ f.mbits + 2 ^ f.mbits := by
    unfold inf; rw [h1, show 2 * f.bias + 2 - 1 = 2 * f.bias + 1 by omega]; ring
  have hm := Nat.two_pow_pos f.mbits
  rw [e, unit_of_parts (by rw [Nat.pow_succ]; omega) (Or.inr (le_refl _))]
  unfold quantum
  push_cast
  rw [← zpow_natCast (2 : ℚ) f.mbits, ← zpow_natCast (2 : ℚ) (2 * f.bias), ← zpow_natCast (2 : ℚ) (f.bias + 1),
    ← zpow_add₀ (by norm_num : (2 : ℚ) ≠ 0), ← zpow_add₀ (by norm_num : (2 : ℚ) ≠ 0)]
  congr 1
  push_cast; ring

theorem quantum_pos : 0 < quantum f := by unfold quantum; positivity

theorem encode_lt_inf (hf : f.Ok) {v : ℚ} (h : Rep f v) (h0 : 0 ≤ v) : f.encode v < inf f ↔ v < 2 ^ (f.bias + 1) := by
  have h1 := encode_unit h h0
  rw [← (unit_mono f.mbits).lt_iff_lt, ← Nat.cast_lt (α := ℚ), ← mul_lt_mul_iff_left₀ (quantum_pos (f := f)), h1, unit_inf hf]

theorem ofMag_toNat (s : Bool) {n : Nat} (h : n < 2 ^ (f.ebits + f.mbits)) :
    (f.ofMag s n).toNat = (if s then 2 ^ (f.ebits + f.mbits) else 0) + n := by
  unfold Fmt.ofMag
  rw [BitVec.toNat_ofNat]
  apply Nat.mod_eq_of_lt
  show _ < 2 ^ (f.ebits + f.mbits + 1)
  rw [Nat.pow_succ]
  split <;> omega

theorem mag_ofMag (s : Bool) {n : Nat} (h : n < 2 ^ (f.ebits + f.mbits)) : mag f (f.ofMag s n) = n := by
  unfold mag
  rw [ofMag_toNat s h]
  cases s
  · simp [Nat.mod_eq_of_lt h]
  · simp [Nat.mod_eq_of_lt h]

theorem sign_ofMag (s : Bool) {n : Nat} (h : n < 2 ^ (f.ebits + f.mbits)) : f.sign (f.ofMag s n) = s := by
  rw [sign_msb, BitVec.msb_eq_decide, ofMag_toNat s h]
  show decide (2 ^ (f.ebits + f.mbits) ≤ _) = s
  cases s
  · simpa using h
  · simp

theorem ofMag_sign_mag (x : f.Bits) : f.ofMag (f.sign x) (mag f x) = x := by
  apply BitVec.eq_of_toNat_eq
  rw [ofMag_toNat _ (mag_lt x), sign_msb, BitVec.msb_eq_decide]
  show (if decide (2 ^ (f.ebits + f.mbits) ≤ x.toNat) = true then _ else _) + x.toNat % 2 ^ (f.ebits + f.mbits) = _
  have hx := x.isLt
  have hx' : x.toNat < 2 ^ (f.ebits + f.mbits + 1) := hx
  rw [Nat.pow_succ] at hx'
  by_cases h : 2 ^ (f.ebits + f.mbits) ≤ x.toNat
  · simp only [h, decide_true, if_true]
    rw [Nat.mod_eq_sub_mod h, Nat.mod_eq_of_lt (by omega)]; omega
  · simp [h, Nat.mod_eq_of_lt (show x.toNat < 2 ^ (f.ebits + f.mbits) by omega)]

theorem bits_ext {x y : f.Bits} (h1 : f.sign x = f.sign y) (h2 : mag f x = mag f y) : x = y := by
  rw [← ofMag_sign_mag x, ← ofMag_sign_mag y, h1, h2]

theorem ratValue_mag (x : f.Bits) : f.ratValue x = (if f.sign x then -1 else 1) * ((unit f.mbits (mag f x) : ℚ) * quantum f) := by
  rw [ratValue_eq]
  unfold sunit ikey
  cases f.sign x
  · simp
  · by_cases h : mag f x = 0
    · simp [h, unit_zero]
    · simp only [if_true]
      rw [if_neg (by omega)]
      simp

theorem rep_ratValue (hf : f.Ok) (x : f.Bits) : Rep f (f.ratValue x) := by
  have : Rep f ((unit f.mbits (mag f x) : ℚ) * quantum f) := by
    generalize mag f x = n
    have hm := Nat.two_pow_pos f.mbits
    unfold unit quantum
    refine ⟨((n % 2 ^ f.mbits + if n / 2 ^ f.mbits = 0 then 0 else 2 ^ f.mbits : ℕ) : ℤ), ((max (n / 2 ^ f.mbits) 1 - 1 : ℕ) : ℤ) + f.emin, ?_, by omega, ?_⟩
    · rw [abs_of_nonneg (by positivity)]
      have := Nat.mod_lt n hm
      have h2 : (n % 2 ^ f.mbits + if n / 2 ^ f.mbits = 0 then 0 else 2 ^ f.mbits) < 2 ^ (f.mbits + 1) := by
        rw [Nat.pow_succ]; split <;> omega
      exact_mod_cast h2
    · rw [zpow_add₀ (by norm_num : (2 : ℚ) ≠ 0), zpow_natCast]
      unfold Fmt.emin
      rw [Int.cast_natCast, Nat.cast_mul, Nat.cast_pow, Nat.cast_ofNat]; ring
  rw [ratValue_mag]
  cases f.sign x
  · simpa using this
  · simpa using this.neg

theorem ratValue_lt (hf : f.Ok) {x : f.Bits} (h : f.isFinite x) : |f.ratValue x| < 2 ^ (f.bias + 1) := by
  rw [isFinite_iff] at h
  have h1 := unit_mono f.mbits h
  have h2 : (unit f.mbits (mag f x) : ℚ) < unit f.mbits (inf f) := by exact_mod_cast h1
  have h3 := mul_lt_mul_of_pos_right h2 (quantum_pos (f := f))
  rw [unit_inf hf] at h3
  rw [ratValue_mag, abs_mul]
  have h4 : 0 ≤ (unit f.mbits (mag f x) : ℚ) * quantum f := mul_nonneg (by positivity) quantum_pos.le
  rw [abs_of_nonneg h4]
  cases f.sign x <;> simpa using h3

/-- What rounding an exact result gives when it does not overflow. -/
structure IsNum (f : Fmt) (r : f.Bits) (s : Bool) (v : ℚ) : Prop where
  finite : f.isFinite r
  value : f.ratValue r = v
  sign : f.sign r = s

theorem ofMag_encode (hf : f.Ok) (s : Bool) {v : ℚ} (h : Rep f v) (h0 : 0 ≤ v) (h1 : v < 2 ^ (f.bias + 1)) :
    IsNum f (f.ofMag s (f.encode v)) s ((if s then -1 else 1) * v) := by
  have hl := (encode_lt_inf hf h h0).2 h1
  have hl2 : f.encode v < 2 ^ (f.ebits + f.mbits) := lt_trans hl (inf_lt hf).1
  refine ⟨by rw [isFinite_iff, mag_ofMag s hl2]; exact hl, ?_, sign_ofMag s hl2⟩
  rw [ratValue_mag, sign_ofMag s hl2, mag_ofMag s hl2, encode_unit h h0]

theorem toInt_sign (m : RMode) {q : ℚ} : (0 ≤ q → 0 ≤ m.toInt q) ∧ (q ≤ 0 → m.toInt q ≤ 0) := by
  have h0 : m.toInt 0 = 0 := by have := toInt_int m 0; simpa using this
  constructor
  · intro h; have := toInt_mono m h; rwa [h0] at this
  · intro h; have := toInt_mono m h; rwa [h0] at this

theorem roundTo_sign (m : RMode) {q : ℚ} : (0 ≤ q → 0 ≤ f.roundTo m q) ∧ (q ≤ 0 → f.roundTo m q ≤ 0) := by
  have hq : (0 : ℚ) < 2 ^ f.qexp q := by positivity
  constructor
  · intro h
    have : 0 ≤ m.toInt (q / 2 ^ f.qexp q) := (toInt_sign m).1 (by positivity)
    have : (0 : ℚ) ≤ m.toInt (q / 2 ^ f.qexp q) := by exact_mod_cast this
    unfold Fmt.roundTo; positivity
  · intro h
    have : m.toInt (q / 2 ^ f.qexp q) ≤ 0 := (toInt_sign m).2 (div_nonpos_of_nonpos_of_nonneg h hq.le)
    have : (m.toInt (q / 2 ^ f.qexp q) : ℚ) ≤ 0 := by exact_mod_cast this
    unfold Fmt.roundTo
    exact mul_nonpos_of_nonpos_of_nonneg this hq.le

theorem round_spec (hf : f.Ok) (m : RMode) (zs : Bool) {q : ℚ} (h : |f.roundTo m q| < 2 ^ (f.bias + 1)) :
    IsNum f (f.round m zs q) (if q = 0 then zs else decide (q < 0)) (f.roundTo m q) := by
  have hr := rep_roundTo (f := f) m q
  have hl := (encode_lt_inf hf hr.abs (abs_nonneg _)).2 h
  have key := ofMag_encode hf (if q = 0 then zs else decide (q < 0)) hr.abs (abs_nonneg _) h
  unfold Fmt.round
  dsimp only
  rw [infMag_eq, if_pos hl]
  refine ⟨key.1, ?_, key.3⟩
  rw [key.2]
  by_cases h0 : q = 0
  · have hz : f.roundTo m q = 0 := by
      have a := (roundTo_sign (f := f) m).1 h0.ge
      have b := (roundTo_sign (f := f) m).2 h0.le
      exact le_antisymm b a
    rw [hz]; simp
  · rw [if_neg h0]
    by_cases h1 : q < 0
    · have := (roundTo_sign (f := f) m).2 h1.le
      simp only [h1, decide_true, if_true]
      rw [abs_of_nonpos this]; ring
    · have := (roundTo_sign (f := f) m).1 (not_lt.1 h1)
      simp only [h1, decide_false, Bool.false_eq_true, if_false]
      rw [abs_of_nonneg this]; ring

theorem round_exact (hf : f.Ok) (m : RMode) (zs : Bool) {q : ℚ} (hr : Rep f q) (h : |q| < 2 ^ (f.bias + 1)) :
    IsNum f (f.round m zs q) (if q = 0 then zs else decide (q < 0)) q := by
  have := round_spec hf m zs (q := q) (by rw [roundTo_rep m hr]; exact h)
  rwa [roundTo_rep m hr] at this

/-! ## operations -/

variable (env : f.Env)

theorem finite_not (hf : f.Ok) {x : f.Bits} (h : f.isFinite x) : ¬ f.isNaN x ∧ ¬ f.isInf x := by
  rw [isFinite_iff] at h; rw [isNaN_iff, isInf_iff]; omega

theorem add_finite (hf : f.Ok) {x y : f.Bits} (hx : f.isFinite x) (hy : f.isFinite y) :
    Fmt.add env x y = f.round env.mode (if f.sign x = f.sign y then f.sign x else decide (env.mode = .down)) (f.ratValue x + f.ratValue y) := by
  obtain ⟨a, b⟩ := finite_not hf hx
  obtain ⟨c, d⟩ := finite_not hf hy
  unfold Fmt.add
  rw [if_neg (by tauto), if_neg b, if_neg d]

theorem signMask_toNat : (signMask f).toNat = 2 ^ (f.ebits + f.mbits) := by
  have h : signMask f = BitVec.twoPow _ (f.ebits + f.mbits) := by
    unfold signMask; rw [BitVec.twoPow_eq]
  rw [h, BitVec.toNat_twoPow]
  apply Nat.mod_eq_of_lt
  show _ < 2 ^ (f.ebits + f.mbits + 1)
  exact Nat.pow_lt_pow_right (by omega) (by omega)

theorem ofMag_true_zero : f.ofMag true 0 = signMask f := by
  apply BitVec.eq_of_toNat_eq
  rw [ofMag_toNat _ (Nat.two_pow_pos _), signMask_toNat]; simp

theorem signMask_getLsbD {i : Nat} (hi : i < f.width) : (signMask f).getLsbD i = decide (i = f.ebits + f.mbits) := by
  have h : signMask f = BitVec.twoPow _ (f.ebits + f.mbits) := by
    unfold signMask; rw [BitVec.twoPow_eq]
  rw [h, BitVec.getLsbD_twoPow]
  have hi' : f.ebits + f.mbits < f.width := by show _ < f.ebits + f.mbits + 1; omega
  simp [hi', eq_comm]

theorem mag_congr {x y : f.Bits} (h : ∀ i < f.ebits + f.mbits, x.getLsbD i = y.getLsbD i) : mag f x = mag f y := by
  unfold mag
  apply Nat.eq_of_testBit_eq
  intro i
  rw [Nat.testBit_mod_two_pow, Nat.testBit_mod_two_pow]
  by_cases hi : i < f.ebits + f.mbits
  · have := h i hi
    rw [BitVec.getLsbD, BitVec.getLsbD] at this
    rw [this]
  · simp [hi]

theorem mag_neg (x : f.Bits) : mag f (Fmt.neg x) = mag f x := by
  apply mag_congr
  intro i hi
  unfold Fmt.neg
  rw [ofMag_true_zero, BitVec.getLsbD_xor, signMask_getLsbD (by show i < f.ebits + f.mbits + 1; omega)]
  rw [decide_eq_false (by omega), Bool.xor_false]

theorem sign_neg (x : f.Bits) : f.sign (Fmt.neg x) = !f.sign x := by
  unfold Fmt.sign Fmt.neg
  rw [ofMag_true_zero, BitVec.getLsbD_xor, signMask_getLsbD (by show _ < f.ebits + f.mbits + 1; omega)]
  simp

theorem ratValue_neg (x : f.Bits) : f.ratValue (Fmt.neg x) = -f.ratValue x := by
  rw [ratValue_mag, ratValue_mag, mag_neg, sign_neg]
  cases f.sign x <;> simp

theorem finite_neg {x : f.Bits} : f.isFinite (Fmt.neg x) ↔ f.isFinite x := by rw [isFinite_iff, isFinite_iff, mag_neg]

theorem sub_finite (hf : f.Ok) {x y : f.Bits} (hx : f.isFinite x) (hy : f.isFinite y) :
    Fmt.sub env x y = f.round env.mode (if f.sign x = !f.sign y then f.sign x else decide (env.mode = .down)) (f.ratValue x - f.ratValue y) := by
  obtain ⟨a, b⟩ := finite_not hf hx
  obtain ⟨c, d⟩ := finite_not hf hy
  unfold Fmt.sub
  rw [if_neg (by tauto), add_finite env hf hx (finite_neg.2 hy), sign_neg, ratValue_neg, sub_eq_add_neg]

theorem lt_finite (hf : f.Ok) {x y : f.Bits} (hx : f.isFinite x) (hy : f.isFinite y) : f.lt x y = decide (f.ratValue x < f.ratValue y) := by
  obtain ⟨a, b⟩ := finite_not hf hx
  obtain ⟨c, d⟩ := finite_not hf hy
  unfold Fmt.lt Fmt.quiet Fmt.value
  simp [a, b, c, d]
theorem le_finite (hf : f.Ok) {x y : f.Bits} (hx : f.isFinite x) (hy : f.isFinite y) : f.le x y = decide (f.ratValue x ≤ f.ratValue y) := by
  obtain ⟨a, b⟩ := finite_not hf hx
  obtain ⟨c, d⟩ := finite_not hf hy
  unfold Fmt.le Fmt.quiet Fmt.value
  simp [a, b, c, d]
theorem eq_finite (hf : f.Ok) {x y : f.Bits} (hx : f.isFinite x) (hy : f.isFinite y) : f.eq x y = decide (f.ratValue x = f.ratValue y) := by
  obtain ⟨a, b⟩ := finite_not hf hx
  obtain ⟨c, d⟩ := finite_not hf hy
  unfold Fmt.eq Fmt.quiet Fmt.value
  simp [a, b, c, d]

theorem ratValue_abs (x : f.Bits) : f.ratValue (FloatBits.abs f x) = |f.ratValue x| := by
  rw [ratValue_mag, ratValue_mag, mag_abs, sign_abs]
  have h4 : 0 ≤ (unit f.mbits (mag f x) : ℚ) * quantum f := mul_nonneg (by positivity) quantum_pos.le
  rw [abs_mul, abs_of_nonneg h4]
  cases f.sign x <;> simp

theorem ratValue_sign {x : f.Bits} : (f.sign x = false → 0 ≤ f.ratValue x) ∧ (f.sign x = true → f.ratValue x ≤ 0) := by
  have h4 : 0 ≤ (unit f.mbits (mag f x) : ℚ) * quantum f := mul_nonneg (by positivity) quantum_pos.le
  rw [ratValue_mag]
  constructor
  · intro h; rw [h]; simpa using h4
  · intro h; rw [h]; simpa using h4

/-- A finite pattern is determined by its sign and its value. -/
theorem finite_ext {x y : f.Bits} (h1 : f.sign x = f.sign y) (h2 : f.ratValue x = f.ratValue y) : x = y := by
  apply bits_ext h1
  rw [ratValue_mag, ratValue_mag, h1] at h2
  have h3 : (unit f.mbits (mag f x) : ℚ) * quantum f = (unit f.mbits (mag f y) : ℚ) * quantum f := by
    cases h : f.sign y
    · simpa [h] using h2
    · rw [h] at h2; simp at h2
      rcases h2 with h2 | h2
      · rw [h2]
      · rw [h2]; simp
  have h4 := mul_right_cancel₀ (quantum_pos (f := f)).ne' h3
  exact (unit_mono f.mbits).injective (by exact_mod_cast h4)

end StdSimd.FloatBits
