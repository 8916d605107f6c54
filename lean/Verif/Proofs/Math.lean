import Verif.Model.Math
import Verif.Proofs.Rounding
import Verif.Props.FloatBits
/-!
# Lemmas about `frexp`, `logb`, `modf`, `copysign`
-/
namespace StdSimd.Math
open Spec FloatBits Rounding

variable {f : Fmt}

/-! ## bits -/

theorem mag_and (x y : f.Bits) : mag f (x &&& y) = mag f x &&& mag f y := by
  unfold mag; rw [BitVec.toNat_and, Nat.and_mod_two_pow]
theorem mag_or (x y : f.Bits) : mag f (x ||| y) = mag f x ||| mag f y := by
  unfold mag; rw [BitVec.toNat_or, Nat.or_mod_two_pow]
theorem mag_xor (x y : f.Bits) : mag f (x ^^^ y) = mag f x ^^^ mag f y := by
  unfold mag; rw [BitVec.toNat_xor, Nat.xor_mod_two_pow]
theorem sign_and (x y : f.Bits) : f.sign (x &&& y) = (f.sign x && f.sign y) := BitVec.getLsbD_and
theorem sign_or (x y : f.Bits) : f.sign (x ||| y) = (f.sign x || f.sign y) := BitVec.getLsbD_or
theorem sign_xor (x y : f.Bits) : f.sign (x ^^^ y) = (f.sign x ^^ f.sign y) := BitVec.getLsbD_xor

theorem mag_signMask : mag f (signMask f) = 0 := by
  unfold mag; rw [signMask_toNat, Nat.mod_self]
theorem sign_signMask : f.sign (signMask f) = true := by
  unfold Fmt.sign; rw [signMask_getLsbD (by show _ < f.ebits + f.mbits + 1; omega)]; simp

theorem pos_const {n : Nat} (h : n < 2 ^ (f.ebits + f.mbits)) : mag f (BitVec.ofNat f.width n) = n ∧ f.sign (BitVec.ofNat f.width n) = false := by
  have e : BitVec.ofNat f.width n = f.ofMag false n := by unfold Fmt.ofMag; simp
  rw [e]; exact ⟨mag_ofMag _ h, sign_ofMag _ h⟩
theorem mag_inf (hf : f.Ok) : mag f (infBits f) = inf f ∧ f.sign (infBits f) = false := pos_const (inf_lt hf).1

theorem xor_ofMag (s : Bool) : signMask f ^^^ f.ofMag s 0 = f.ofMag (!s) 0 := by
  have h := Nat.two_pow_pos (f.ebits + f.mbits)
  apply bits_ext
  · rw [sign_xor, sign_signMask, sign_ofMag _ h, sign_ofMag _ h]; simp
  · rw [mag_xor, mag_signMask, mag_ofMag _ h, mag_ofMag _ h]; simp

/-! ## copysign -/

theorem copysign_mask : powBits f 0 ^^^ (signMask f ||| powBits f 0) = signMask f := by
  apply BitVec.eq_of_getLsbD_eq
  intro i hi
  rw [BitVec.getLsbD_xor, BitVec.getLsbD_or]
  by_cases h : i = f.ebits + f.mbits
  · subst h
    have hl : f.bias * 2 ^ f.mbits < 2 ^ (f.ebits + f.mbits) := by
      rw [Nat.pow_add]
      refine Nat.mul_lt_mul_of_pos_right ?_ (Nat.two_pow_pos _)
      unfold Fmt.bias
      have h1 := Nat.two_pow_pos (f.ebits - 1)
      have h2 : 2 ^ (f.ebits - 1) ≤ 2 ^ f.ebits := Nat.pow_le_pow_right (by omega) (by omega)
      omega
    have e : (powBits f 0).getLsbD (f.ebits + f.mbits) = false := by
      have := (pos_const (f := f) (n := (f.bias + 0) * 2 ^ f.mbits) (by simpa using hl)).2
      exact this
    rw [e]; simp
  · rw [signMask_getLsbD hi]; simp [h]

theorem sign_copysign (x y : f.Bits) : f.sign (copysign x y) = f.sign y := by
  unfold copysign
  dsimp only
  rw [copysign_mask, sign_or, sign_and, sign_and, sign_xor, sign_signMask]
  cases f.sign x <;> simp
theorem mag_copysign (x y : f.Bits) : mag f (copysign x y) = mag f x := by
  unfold copysign
  dsimp only
  rw [copysign_mask, mag_or, mag_and, mag_and, mag_xor, mag_signMask]
  simp

/-! ## multiplication -/

variable (env : f.Env)

theorem mul_exact (hf : f.Ok) {x y : f.Bits} {s t : Bool} {a b : ℚ} (hx : IsNum f x s a) (hy : IsNum f y t b) (hr : Rep f (a * b))
    (hl : |a * b| < 2 ^ (f.bias + 1)) :
    IsNum f (Fmt.mul env x y) (if a * b = 0 then s ^^ t else decide (a * b < 0)) (a * b) := by
  obtain ⟨c1, c2⟩ := finite_not hf hx.1
  obtain ⟨d1, d2⟩ := finite_not hf hy.1
  unfold Fmt.mul
  rw [if_neg (by tauto), if_neg (by tauto), hx.2, hy.2, hx.3, hy.3]
  exact round_exact hf _ _ hr hl

/-! ## exponent and significand -/

theorem split_and {m a b c d : Nat} (hb : b < 2 ^ m) (hd : d < 2 ^ m) : (a * 2 ^ m + b) &&& (c * 2 ^ m + d) = (a &&& c) * 2 ^ m + (b &&& d) := by
  apply Nat.eq_of_testBit_eq
  intro i
  have hbd : b &&& d < 2 ^ m := Nat.and_lt_two_pow _ hd
  rw [Nat.testBit_and, Nat.mul_comm a, Nat.mul_comm c, Nat.mul_comm (a &&& c), Nat.testBit_two_pow_mul_add _ hb, Nat.testBit_two_pow_mul_add _ hd,
    Nat.testBit_two_pow_mul_add _ hbd]
  split <;> rw [Nat.testBit_and]
theorem split_or {m a b c d : Nat} (hb : b < 2 ^ m) (hd : d < 2 ^ m) : (a * 2 ^ m + b) ||| (c * 2 ^ m + d) = (a ||| c) * 2 ^ m + (b ||| d) := by
  apply Nat.eq_of_testBit_eq
  intro i
  have hbd : b ||| d < 2 ^ m := Nat.or_lt_two_pow hb hd
  rw [Nat.testBit_or, Nat.mul_comm a, Nat.mul_comm c, Nat.mul_comm (a ||| c), Nat.testBit_two_pow_mul_add _ hb, Nat.testBit_two_pow_mul_add _ hd,
    Nat.testBit_two_pow_mul_add _ hbd]
  split <;> rw [Nat.testBit_or]

theorem or_ones {n a : Nat} (h : a < 2 ^ n) : (2 ^ n - 1) ||| a = 2 ^ n - 1 := by
  apply Nat.eq_of_testBit_eq
  intro i
  rw [Nat.testBit_or, Nat.testBit_two_pow_sub_one]
  by_cases hi : i < n
  · simp [hi]
  · simp [hi]; exact Nat.testBit_lt_two_pow (lt_of_lt_of_le h (Nat.pow_le_pow_right (by omega) (by omega)))

theorem bias_lt (hf : f.Ok) : f.bias - 1 < 2 ^ f.ebits := by have := bias_eq hf; omega

theorem p51_parts (hf : f.Ok) : mag f (p51 f) = (f.bias - 1) * 2 ^ f.mbits + (2 ^ f.mbits - 1) ∧ f.sign (p51 f) = true := by
  have hm := Nat.two_pow_pos f.mbits
  have hl : (f.bias - 1) * 2 ^ f.mbits + (2 ^ f.mbits - 1) < 2 ^ (f.ebits + f.mbits) := by
    have h1 := bias_lt hf
    have h2 : (f.bias - 1 + 1) * 2 ^ f.mbits ≤ 2 ^ f.ebits * 2 ^ f.mbits := Nat.mul_le_mul_right _ h1
    rw [Nat.pow_add]; rw [Nat.add_mul] at h2; omega
  have e : p51 f = f.ofMag true ((f.bias - 1) * 2 ^ f.mbits + (2 ^ f.mbits - 1)) := by
    unfold p51 Fmt.ofMag; simp [Nat.add_assoc]
  rw [e]; exact ⟨mag_ofMag _ hl, sign_ofMag _ hl⟩

theorem sign_mantissa (hf : f.Ok) (v : f.Bits) : f.sign (mantissa v) = f.sign v := by
  unfold mantissa
  rw [sign_and, sign_or, (p51_parts hf).2, (mag_inf hf).2]; simp

theorem mag_mantissa (hf : f.Ok) (v : f.Bits) : mag f (mantissa v) = (f.bias - 1) * 2 ^ f.mbits + f.mant v := by
  unfold mantissa
  have hm := Nat.two_pow_pos f.mbits
  have hi : inf f = (2 ^ f.ebits - 1) * 2 ^ f.mbits + 0 := rfl
  rw [mag_and, mag_or, (p51_parts hf).1, (mag_inf hf).1, mag_eq v, hi, split_or hm (mant_lt v), or_ones (expo_lt v), Nat.zero_or,
    split_and (by omega) (mant_lt v), Nat.and_two_pow_sub_one_eq_mod, Nat.mod_eq_of_lt (bias_lt hf), Nat.and_comm (2 ^ f.mbits - 1),
    Nat.and_two_pow_sub_one_eq_mod, Nat.mod_eq_of_lt (mant_lt v)]

theorem expo_mantissa (hf : f.Ok) (v : f.Bits) : f.expo (mantissa v) = f.bias - 1 := by
  have hm := Nat.two_pow_pos f.mbits
  rw [expo_eq, mag_mantissa hf, Nat.mul_comm, Nat.mul_add_div hm, Nat.div_eq_of_lt (mant_lt v), Nat.add_zero]
theorem mant_mantissa (hf : f.Ok) (v : f.Bits) : f.mant (mantissa v) = f.mant v := by
  rw [mant_eq, mag_mantissa hf, Nat.mul_comm, Nat.mul_add_mod, Nat.mod_eq_of_lt (mant_lt v)]

/-- The value of a number with a nonzero exponent field. -/
theorem ratValue_normal {v : f.Bits} (h : f.expo v ≠ 0) :
    f.ratValue v = (if f.sign v then -1 else 1) * ((2 ^ f.mbits + f.mant v : ℕ) : ℚ) * 2 ^ ((f.expo v : ℤ) - f.bias - f.mbits) := by
  unfold Fmt.ratValue Fmt.significand
  rw [if_neg h, max_eq_left (by omega)]

theorem sign_abs_one (b : Bool) : |(if b then (-1 : ℚ) else 1)| = 1 := by cases b <;> simp

theorem abs_normal {v : f.Bits} (h : f.expo v ≠ 0) :
    (2 : ℚ) ^ ((f.expo v : ℤ) - f.bias) ≤ |f.ratValue v| ∧ |f.ratValue v| < 2 ^ ((f.expo v : ℤ) - f.bias + 1) := by
  have hm := mant_lt v
  have hq : (0 : ℚ) < 2 ^ ((f.expo v : ℤ) - f.bias - f.mbits) := by positivity
  rw [ratValue_normal h, abs_mul, abs_mul, sign_abs_one, one_mul, abs_of_pos hq, abs_of_nonneg (by positivity)]
  have e1 : (2 : ℚ) ^ ((f.expo v : ℤ) - f.bias) = ((2 ^ f.mbits : ℕ) : ℚ) * 2 ^ ((f.expo v : ℤ) - f.bias - f.mbits) := by
    push_cast; rw [← zpow_natCast, ← zpow_add₀ (by norm_num)]; congr 1; ring
  have e2 : (2 : ℚ) ^ ((f.expo v : ℤ) - f.bias + 1) = ((2 ^ f.mbits + 2 ^ f.mbits : ℕ) : ℚ) * 2 ^ ((f.expo v : ℤ) - f.bias - f.mbits) := by
    rw [zpow_add₀ (by norm_num), e1]; push_cast; ring
  rw [e1, e2]
  constructor
  · exact mul_le_mul_of_nonneg_right (by exact_mod_cast Nat.le_add_right _ _) hq.le
  · exact mul_lt_mul_of_pos_right (by exact_mod_cast Nat.add_lt_add_left hm _) hq

theorem abs_small {v : f.Bits} (h : f.expo v = 0) : |f.ratValue v| < 2 ^ (1 - (f.bias : ℤ)) := by
  have hm := mant_lt v
  unfold Fmt.ratValue Fmt.significand
  rw [if_pos h, h, abs_mul, abs_mul, sign_abs_one, one_mul, abs_of_nonneg (by positivity), abs_of_nonneg (by positivity)]
  have e1 : (2 : ℚ) ^ (1 - (f.bias : ℤ)) = ((2 ^ f.mbits : ℕ) : ℚ) * 2 ^ (max ((0 : ℕ) : ℤ) 1 - f.bias - f.mbits) := by
    push_cast; rw [← zpow_natCast, ← zpow_add₀ (by norm_num)]; congr 1; norm_num
  rw [e1]
  exact mul_lt_mul_of_pos_right (by exact_mod_cast hm) (by positivity)

/-- A finite number is normal if its magnitude is at least the smallest normal number. -/
theorem normal_of_abs {v : f.Bits} (h : f.isFinite v) (h2 : (2 : ℚ) ^ (1 - (f.bias : ℤ)) ≤ |f.ratValue v|) : f.isNormal v := by
  refine ⟨h, fun h0 => ?_⟩
  have := abs_small h0
  linarith

/-- A nonzero finite number has at least the magnitude of the smallest subnormal number. -/
theorem abs_ge_quantum {v : f.Bits} (h : ¬ f.isZero v) : (2 : ℚ) ^ (1 - (f.bias : ℤ) - f.mbits) ≤ |f.ratValue v| := by
  rw [isZero_iff] at h
  have h1 : unit f.mbits 0 < unit f.mbits (mag f v) := unit_mono f.mbits (by omega)
  rw [unit_zero] at h1
  have hq := quantum_pos (f := f)
  rw [ratValue_mag, abs_mul, sign_abs_one, one_mul, abs_of_nonneg (mul_nonneg (by positivity) hq.le)]
  have h2 : (1 : ℚ) ≤ unit f.mbits (mag f v) := by exact_mod_cast h1
  calc (2 : ℚ) ^ (1 - (f.bias : ℤ) - f.mbits) = 1 * quantum f := by rw [one_mul]; rfl
    _ ≤ _ := mul_le_mul_of_nonneg_right h2 hq.le

/-- `mantissa` of a normal number. -/
theorem mantissa_value (hf : f.Ok) (hb : 2 ≤ f.bias) {v : f.Bits} (h : f.isNormal v) :
    f.isFinite (mantissa v) ∧ 1 / 2 ≤ |f.ratValue (mantissa v)| ∧ |f.ratValue (mantissa v)| < 1 ∧
      f.ratValue (mantissa v) * 2 ^ ((f.expo v : ℤ) - (f.bias - 1)) = f.ratValue v := by
  have he := expo_mantissa hf v
  have hbe := bias_eq hf
  have hne : f.expo (mantissa v) ≠ 0 := by omega
  have ha := abs_normal hne
  rw [he] at ha
  rw [Nat.cast_sub (by omega)] at ha
  refine ⟨by unfold Fmt.isFinite; omega, ?_, ?_, ?_⟩
  · have := ha.1; rw [show ((f.bias : ℤ) - (1 : ℕ) - f.bias) = -1 by push_cast; ring] at this
    rw [show (1 / 2 : ℚ) = 2 ^ (-1 : ℤ) by norm_num]; exact this
  · have := ha.2; rw [show ((f.bias : ℤ) - (1 : ℕ) - f.bias + 1) = 0 by push_cast; ring] at this
    rwa [zpow_zero] at this
  · rw [ratValue_normal hne, ratValue_normal h.2, sign_mantissa hf, mant_mantissa hf, he, mul_assoc, ← zpow_add₀ (by norm_num)]
    congr 2
    rw [Nat.cast_sub (by omega)]; push_cast; ring

/-! ## frexp -/

theorem exponentBits_toNat (hf : f.Ok) (he : f.ebits ≤ 30) (v : f.Bits) : (exponentBits v).toNat = f.expo v := by
  unfold exponentBits
  rw [BitVec.toNat_setWidth, BitVec.toNat_ushiftRight, and_inf hf, Nat.shiftRight_eq_div_pow, Nat.mul_div_cancel _ (Nat.two_pow_pos _)]
  refine Nat.mod_eq_of_lt (lt_of_lt_of_le (expo_lt v) ?_)
  exact Nat.pow_le_pow_right (by omega) (by omega)

theorem sub_toInt {a b : BitVec 32} {m n : Nat} (ha : a.toNat = m) (hb : b.toNat = n) (hm : m < 2 ^ 31) (hn : n < 2 ^ 31) :
    (a - b).toInt = (m : ℤ) - n := by
  have ea : a.toInt = m := toInt_of_lt (w := 31) ha hm
  have eb : b.toInt = n := toInt_of_lt (w := 31) hb hn
  rw [BitVec.toInt_sub, ea, eb]
  apply Int.bmod_eq_of_le <;> omega

theorem rep_scale {v : ℚ} (h : Rep f v) (k : Nat) : Rep f (v * 2 ^ k) := by
  obtain ⟨n, e, h1, h2, h3⟩ := h
  refine ⟨n, e + k, h1, by omega, ?_⟩
  rw [zpow_add₀ (by norm_num), h3, zpow_natCast]; ring

theorem powBits_num (hf : f.Ok) {k : Nat} (hk : k ≤ f.bias) : IsNum f (powBits f k) false (2 ^ k) := by
  have hbe := bias_eq hf
  have hm := Nat.two_pow_pos f.mbits
  have hl : (f.bias + k) * 2 ^ f.mbits < inf f := by
    unfold inf; exact Nat.mul_lt_mul_of_pos_right (by omega) hm
  have hp := pos_const (f := f) (lt_trans hl (inf_lt hf).1)
  have hex : f.expo (powBits f k) = f.bias + k := by
    rw [expo_eq]; unfold powBits; rw [hp.1, Nat.mul_div_cancel _ hm]
  have hma : f.mant (powBits f k) = 0 := by
    rw [mant_eq]; unfold powBits; rw [hp.1, Nat.mul_mod_left]
  refine ⟨?_, ?_, hp.2⟩
  · rw [isFinite_iff]; unfold powBits; rw [hp.1]; exact hl
  · rw [ratValue_normal (by omega), hex, hma]
    have : f.sign (powBits f k) = false := hp.2
    rw [this]
    push_cast
    rw [← zpow_natCast (2 : ℚ) f.mbits, ← zpow_natCast (2 : ℚ) k]
    simp only [Bool.false_eq_true, if_false, one_mul, add_zero]
    rw [← zpow_add₀ (by norm_num)]
    congr 1; ring

/-- A subnormal number times a large power of two is a normal number. -/
theorem scaled (hf : f.Ok) {k : Nat} (h1 : f.mbits ≤ k) (h2 : k ≤ f.bias) {x : f.Bits} (h : f.isSubnormal x) :
    f.isNormal (Fmt.mul env x (powBits f k)) ∧ f.ratValue (Fmt.mul env x (powBits f k)) = f.ratValue x * 2 ^ k := by
  have hx : f.isFinite x := by have := bias_eq hf; unfold Fmt.isFinite; rw [h.1]; omega
  have hz : ¬ f.isZero x := fun hz => h.2 hz.2
  have hs := abs_small h.1
  have hk : (0 : ℚ) < 2 ^ k := by positivity
  have hlt : |f.ratValue x * 2 ^ k| < 2 ^ (f.bias + 1) := by
    rw [abs_mul, abs_of_pos hk]
    calc |f.ratValue x| * 2 ^ k < 2 ^ (1 - (f.bias : ℤ)) * 2 ^ k := mul_lt_mul_of_pos_right hs hk
      _ = 2 ^ (1 - (f.bias : ℤ) + k) := by rw [zpow_add₀ (by norm_num), zpow_natCast]
      _ ≤ 2 ^ ((f.bias + 1 : ℕ) : ℤ) := zpow_le_zpow_right₀ (by norm_num) (by push_cast; omega)
      _ = _ := by rw [zpow_natCast]
  have hn := mul_exact env hf (self_num hx) (powBits_num hf h2) (rep_scale (rep_ratValue hf x) k) hlt
  refine ⟨normal_of_abs hn.1 ?_, hn.2⟩
  rw [hn.2, abs_mul, abs_of_pos hk]
  calc (2 : ℚ) ^ (1 - (f.bias : ℤ)) ≤ 2 ^ (1 - (f.bias : ℤ) - f.mbits + k) := zpow_le_zpow_right₀ (by norm_num) (by omega)
    _ = 2 ^ (1 - (f.bias : ℤ) - f.mbits) * 2 ^ k := by rw [zpow_add₀ (by norm_num), zpow_natCast]
    _ ≤ _ := mul_le_mul_of_nonneg_right (abs_ge_quantum hz) hk.le

/-- The properties of binary32 and binary64 that the code relies on. -/
structure Good (f : Fmt) : Prop where
  ok : f.Ok
  int : f.mbits < f.bias
  small : f.ebits ≤ 30
  adjust : expAdjust f = f.bias - 1
  scale : subnormScale f = powBits f (expOffset f)
  big : f.mbits ≤ expOffset f
  fits : expOffset f ≤ f.bias
  range : f.bias + f.mbits ≤ 2 ^ (f.mbits + 1)
  mid : f.mbits ≤ 112 ∧ 112 ≤ f.bias
  width : f.ebits ≤ f.mbits

theorem good32 : Good ⟨8, 23⟩ := by constructor <;> decide
theorem good64 : Good ⟨11, 52⟩ := by constructor <;> decide

theorem frexp_normal (g : Good f) {x : f.Bits} (h : f.isNormal x) :
    f.IsFrexp x (mantissa x) (exponentBits x - BitVec.ofNat 32 (expAdjust f)).toInt := by
  have hb := bias_eq g.ok
  have hb2 : 2 ≤ f.bias := by have := g.int; have := g.ok.2; omega
  have he := expo_lt x
  have h30 : 2 ^ f.ebits ≤ 2 ^ 30 := Nat.pow_le_pow_right (by omega) g.small
  have e : (exponentBits x - BitVec.ofNat 32 (expAdjust f)).toInt = (f.expo x : ℤ) - (f.bias - 1) := by
    rw [sub_toInt (exponentBits_toNat g.ok g.small x) (n := f.bias - 1) (by rw [g.adjust, BitVec.toNat_ofNat]; apply Nat.mod_eq_of_lt; omega)
      (by omega) (by omega)]
    omega
  rw [e]
  have hm := mantissa_value g.ok hb2 h
  refine ⟨fun _ _ => hm, fun hz => absurd hz.1 h.2, fun hf => absurd h.1 hf⟩

theorem eq_zero (hf : f.Ok) {x : f.Bits} (h : f.isFinite x) : f.eq x 0 = decide (f.isZero x) := by
  have hz : f.isFinite (0 : f.Bits) := by
    rw [isFinite_iff]; have : mag f (0 : f.Bits) = 0 := (pos_const (Nat.two_pow_pos _)).1
    rw [this]; exact (inf_lt hf).2.2
  rw [eq_finite hf h hz]
  apply decide_eq_decide.2
  rw [isZero_iff, ratValue_mag x, ratValue_mag 0]
  have : mag f (0 : f.Bits) = 0 := (pos_const (Nat.two_pow_pos _)).1
  rw [this, unit_zero]
  have hq := quantum_pos (f := f)
  constructor
  · intro he
    by_contra h0
    have h1 : unit f.mbits 0 < unit f.mbits (mag f x) := unit_mono f.mbits (by omega)
    rw [unit_zero] at h1
    have h2 : (0 : ℚ) < unit f.mbits (mag f x) * quantum f := mul_pos (by exact_mod_cast h1) hq
    revert he
    cases f.sign x <;> simp <;> constructor <;> first | omega | exact hq.ne'
  · intro he; rw [he, unit_zero]; simp

theorem maskInt_and (b : Bool) (x : BitVec 32) : maskInt b &&& x = if b then x else 0 := by
  cases b
  · exact BitVec.zero_and
  · exact BitVec.allOnes_and

theorem zero_inf_nan (hf : f.Ok) (x : f.Bits) :
    (FloatBits.abs f x == 0 || (infBits f).sle (FloatBits.abs f x)) = decide (f.isZero x ∨ ¬ f.isFinite x) := by
  rw [Bool.eq_iff_iff]
  simp only [Bool.or_eq_true, beq_iff_eq, decide_eq_true_eq]
  unfold BitVec.sle
  rw [(inf_toInt hf).2, abs_toInt, decide_eq_true_eq, isZero_iff, isFinite_iff, not_lt, Nat.cast_le, ← BitVec.toNat_inj, abs_toNat]
  rfl

theorem frexpElem_spec (g : Good f) {fin : Bool} {nrm : f.Bits → Bool} {x : f.Bits} (hn : nrm x = decide (f.isNormal x))
    (hfin : fin = true → f.isFinite x) : f.IsFrexp x (frexpElem env fin nrm x).1 (frexpElem env fin nrm x).2.toInt := by
  have hb := bias_eq g.ok
  have h30 : 2 ^ f.ebits ≤ 2 ^ 30 := Nat.pow_le_pow_right (by omega) g.small
  have hz : (if fin then f.eq x 0 else FloatBits.abs f x == 0 || (infBits f).sle (FloatBits.abs f x)) = decide (f.isZero x ∨ ¬ f.isFinite x) := by
    split
    · rename_i h
      have hx := hfin h
      rw [eq_zero g.ok hx]; apply decide_eq_decide.2; tauto
    · exact zero_inf_nan g.ok x
  have hexp : (exponentBits x == 0) = decide (f.expo x = 0) := by
    rw [Bool.eq_iff_iff, beq_iff_eq, decide_eq_true_eq, ← BitVec.toNat_inj, exponentBits_toNat g.ok g.small]; rfl
  have hadj : BitVec.ofNat 32 (expAdjust f + expOffset f) = BitVec.ofNat 32 (f.bias - 1 + expOffset f) := by rw [g.adjust]
  have hfit := g.fits
  by_cases h1 : f.isNormal x
  · have key := frexp_normal g h1
    have hnz : ¬ (f.isZero x ∨ ¬ f.isFinite x) := by rintro (h | h); exacts [h1.2 h.1, h h1.1]
    have e1 : (frexpElem env fin nrm x).1 = mantissa x := by
      unfold frexpElem; dsimp only; rw [hz, hn]; simp [hnz, h1]
    have e2 : (frexpElem env fin nrm x).2 = exponentBits x - BitVec.ofNat 32 (expAdjust f) := by
      unfold frexpElem; dsimp only; rw [hn, hexp]; simp [h1, h1.2, maskInt_and]
    rw [e1, e2]; exact key
  · by_cases h2 : f.isZero x ∨ ¬ f.isFinite x
    · have e1 : (frexpElem env fin nrm x).1 = x := by
        unfold frexpElem; dsimp only; rw [hz]; simp [h2]
      refine ⟨fun h3 h4 => ?_, fun h0 => ⟨e1, ?_⟩, fun _ => e1⟩
      · rcases h2 with h2 | h2
        · exact absurd h2 h4
        · exact absurd h3 h2
      · have hx : f.isFinite x := by unfold Fmt.isFinite; rw [h0.1]; omega
        have hnum := mul_exact env g.ok (self_num hx) (powBits_num g.ok hfit)
        have hv : f.ratValue x = 0 := by unfold Fmt.ratValue Fmt.significand; rw [if_pos h0.1, h0.2]; simp
        rw [hv, zero_mul] at hnum
        have h5 := hnum ⟨0, f.emin, by simp, le_refl _, by simp⟩ (by simp)
        have h6 : f.isZero (Fmt.mul env x (powBits f (expOffset f))) := by
          rw [← decide_eq_true_eq (p := f.isZero _), ← eq_zero g.ok h5.1, eq_finite g.ok h5.1 (by
            have := finite_of_mag (x := (0 : f.Bits)) (y := x) (by rw [(isZero_iff x).1 h0]; exact (pos_const (Nat.two_pow_pos _)).1) hx
            exact this), h5.2]
          simp only [decide_eq_true_eq]
          have h7 : mag f (0 : f.Bits) = 0 := (pos_const (Nat.two_pow_pos _)).1
          rw [ratValue_mag, h7, unit_zero]; simp
        have e2 : (frexpElem env fin nrm x).2 = 0 := by
          unfold frexpElem; dsimp only
          rw [hn, eq_zero g.ok hx, g.scale]
          have h8 : exponentBits (Fmt.mul env x (powBits f (expOffset f))) = 0 := by
            apply BitVec.eq_of_toNat_eq; rw [exponentBits_toNat g.ok g.small, h6.1]; rfl
          rw [h8]
          simp [h0, h1, maskInt_and]
        rw [e2]; rfl
    · have hs : f.isSubnormal x := by
        rw [isSubnormal_iff]; rw [isNormal_iff] at h1; rw [isZero_iff, isFinite_iff] at h2; omega
      have hx : f.isFinite x := by tauto
      have hnz : ¬ f.isZero x := by tauto
      obtain ⟨k1, k2⟩ := scaled env g.ok g.big hfit hs
      have key := frexp_normal g k1
      have e1 : (frexpElem env fin nrm x).1 = mantissa (Fmt.mul env x (powBits f (expOffset f))) := by
        unfold frexpElem; dsimp only; rw [hz, hn, g.scale]; simp [h2, h1]
      have e2 : (frexpElem env fin nrm x).2 = exponentBits (Fmt.mul env x (powBits f (expOffset f))) - BitVec.ofNat 32 (expAdjust f + expOffset f) := by
        unfold frexpElem; dsimp only; rw [hn, hexp, eq_zero g.ok hx, g.scale]; simp [h1, hs.1, hnz, maskInt_and]
      rw [e1, e2]
      have he := expo_lt (Fmt.mul env x (powBits f (expOffset f)))
      have t1 := sub_toInt (exponentBits_toNat g.ok g.small (Fmt.mul env x (powBits f (expOffset f)))) (n := f.bias - 1)
        (b := BitVec.ofNat 32 (expAdjust f)) (by rw [g.adjust, BitVec.toNat_ofNat]; apply Nat.mod_eq_of_lt; omega) (by omega) (by omega)
      have t2 := sub_toInt (exponentBits_toNat g.ok g.small (Fmt.mul env x (powBits f (expOffset f)))) (n := f.bias - 1 + expOffset f)
        (b := BitVec.ofNat 32 (expAdjust f + expOffset f)) (by rw [hadj, BitVec.toNat_ofNat]; apply Nat.mod_eq_of_lt; omega) (by omega) (by omega)
      have hkz : ¬ f.isZero (Fmt.mul env x (powBits f (expOffset f))) := fun h => k1.2 h.1
      obtain ⟨a1, a2, a3, a4⟩ := key.number k1.1 hkz
      refine ⟨fun _ _ => ⟨a1, a2, a3, ?_⟩, fun h => absurd h hnz, fun h => absurd hx h⟩
      rw [t1, k2] at a4
      rw [t2]
      have hp : (0 : ℚ) < 2 ^ expOffset f := by positivity
      refine mul_right_cancel₀ hp.ne' ?_
      rw [← a4, mul_assoc, ← zpow_natCast (2 : ℚ) (expOffset f), ← zpow_add₀ (by norm_num)]
      congr 2; push_cast; ring

theorem abs_value (x : f.Bits) : f.expo (FloatBits.abs f x) = f.expo x ∧ |f.ratValue (FloatBits.abs f x)| = |f.ratValue x| :=
  ⟨by rw [expo_eq, expo_eq, mag_abs], by rw [ratValue_abs, abs_abs]⟩

/-! ## AVX-512 -/

theorem int_mag (g : Good f) {x : f.Bits} (hx : f.isFinite x) (h0 : ¬ f.isZero x) :
    -(f.bias : ℤ) - f.mbits < Int.log 2 |f.ratValue x| ∧ Int.log 2 |f.ratValue x| ≤ f.bias := by
  have hv : f.ratValue x ≠ 0 := by
    intro h
    have := abs_ge_quantum h0
    rw [h, abs_zero] at this
    have : (0 : ℚ) < 2 ^ (1 - (f.bias : ℤ) - f.mbits) := by positivity
    linarith
  obtain ⟨h1, h2⟩ := abs_zpow_log hv
  have h3 : (1 - (f.bias : ℤ) - f.mbits) < Int.log 2 |f.ratValue x| + 1 :=
    (zpow_lt_zpow_iff_right₀ (by norm_num : (1 : ℚ) < 2)).1 (lt_of_le_of_lt (abs_ge_quantum h0) h2)
  have h4 : (2 : ℚ) ^ Int.log 2 |f.ratValue x| < 2 ^ ((f.bias + 1 : ℕ) : ℤ) := by
    rw [zpow_natCast]; exact lt_of_le_of_lt h1 (ratValue_lt g.ok hx)
  have h5 := (zpow_lt_zpow_iff_right₀ (by norm_num : (1 : ℚ) < 2)).1 h4
  push_cast at h5
  omega

theorem ofInt_small (g : Good f) {n : ℤ} (h1 : -(f.bias : ℤ) - f.mbits < n) (h2 : n ≤ f.bias) : IsNum f (Fmt.ofInt env n) (decide (n < 0)) n := by
  apply ofInt_num env g.ok g.int
  have := g.range
  have : ((f.bias + f.mbits : ℕ) : ℤ) ≤ 2 ^ (f.mbits + 1) := by exact_mod_cast this
  rw [abs_le]
  push_cast at this
  omega

theorem getexp_logb (g : Good f) (x : f.Bits) : f.IsLogb x (getexp env x) := by
  have hb := bias_eq g.ok
  have hinf := inf_lt g.ok
  have hi := mag_inf g.ok
  refine ⟨fun hx h0 => ?_, fun h0 => ?_, fun h => ?_, fun h => ?_⟩
  · obtain ⟨n1, n2⟩ := finite_not g.ok hx
    obtain ⟨b1, b2⟩ := int_mag g hx h0
    have := ofInt_small env g b1 b2
    unfold getexp
    rw [if_neg n1, if_neg n2, if_neg h0]
    have hv : f.ratValue x ≠ 0 := by
      intro h
      have := abs_ge_quantum h0
      rw [h, abs_zero] at this
      have : (0 : ℚ) < 2 ^ (1 - (f.bias : ℤ) - f.mbits) := by positivity
      linarith
    exact ⟨this.1, _, this.2, abs_zpow_log hv⟩
  · have n : ¬ f.isNaN x ∧ ¬ f.isInf x := by rw [isNaN_iff, isInf_iff, (isZero_iff x).1 h0]; omega
    unfold getexp
    rw [if_neg n.1, if_neg n.2, if_pos h0]
    exact ⟨by rw [isInf_iff, mag_or, mag_signMask, hi.1, Nat.zero_or], by rw [sign_or, sign_signMask]; rfl⟩
  · have n : ¬ f.isNaN x := by rw [isNaN_iff, (isInf_iff x).1 h]; omega
    unfold getexp
    rw [if_neg n, if_pos h]
    exact ⟨by rw [isInf_iff, hi.1], hi.2⟩
  · unfold getexp
    rw [if_pos h]; exact env.isNaN x x

theorem frexpAvx512_spec (g : Good f) (junk : f.Bits → f.Bits) (x : f.Bits) {b : Bool} (hb : b = decide (f.isFinite x ∧ ¬ f.isZero x)) :
    f.IsFrexp x (if b then getmant junk x else x) (if b then 1 + toInt32 (getexp env x) else 0).toInt := by
  by_cases h : f.isFinite x ∧ ¬ f.isZero x
  · rw [decide_eq_true h] at hb
    subst hb
    simp only [if_true]
    obtain ⟨hx, h0⟩ := h
    refine ⟨fun _ _ => ?_, fun hz => absurd hz h0, fun hx' => absurd hx hx'⟩
    have hbe := bias_eq g.ok
    have h30 : 2 ^ f.ebits ≤ 2 ^ 30 := Nat.pow_le_pow_right (by omega) g.small
    obtain ⟨n1, n2⟩ := finite_not g.ok hx
    obtain ⟨b1, b2⟩ := int_mag g hx h0
    have hn := ofInt_small env g b1 b2
    have hv : f.ratValue x ≠ 0 := by
      intro h
      have := abs_ge_quantum h0
      rw [h, abs_zero] at this
      have : (0 : ℚ) < 2 ^ (1 - (f.bias : ℤ) - f.mbits) := by positivity
      linarith
    obtain ⟨l1, l2⟩ := abs_zpow_log hv
    have hmb := g.int
    set L := Int.log 2 |f.ratValue x| with hL
    have e1 : toInt32 (getexp env x) = BitVec.ofInt 32 L := by
      unfold toInt32 getexp
      rw [if_neg n1, if_neg n2, if_neg h0, ← hL, hn.2, truncZ_int, if_pos ⟨hn.1, by omega, by omega⟩]
    have e2 : (1 + toInt32 (getexp env x)).toInt = L + 1 := by
      rw [e1, BitVec.toInt_add, BitVec.toInt_ofInt, show (1 : BitVec 32).toInt = 1 from rfl]
      rw [show L.bmod (2 ^ 32) = L from by apply Int.bmod_eq_of_le <;> omega]
      rw [add_comm]
      apply Int.bmod_eq_of_le <;> omega
    rw [e2]
    have hp : (0 : ℚ) < 2 ^ (L + 1) := by positivity
    have hq : (0 : ℚ) < 2 ^ L := by positivity
    have r1 : Rep f (|f.ratValue x| / 2 ^ (L + 1)) := by
      obtain ⟨n, m1, m2, m3⟩ := (rep_ratValue g.ok x).abs.significand (abs_ne_zero.2 hv)
      by_cases hs : f.qexp |f.ratValue x| - (L + 1) < f.emin
      · exfalso
        have : f.qexp |f.ratValue x| = max (L - f.mbits) f.emin := by unfold Fmt.qexp; rw [abs_abs]
        have he : f.emin = 1 - (f.bias : ℤ) - f.mbits := rfl
        have hm1 := g.ok.2
        rcases le_total (L - f.mbits) f.emin with hc | hc
        · rw [max_eq_right hc] at this; omega
        · rw [max_eq_left hc] at this; omega
      · refine ⟨n, f.qexp |f.ratValue x| - (L + 1), m2, by omega, ?_⟩
        rw [zpow_sub₀ (by norm_num), mul_div_assoc']
        rw [← m1]
    have lt1 : |f.ratValue x| / 2 ^ (L + 1) < 1 := by rw [div_lt_one hp]; exact l2
    have ge1 : 1 / 2 ≤ |f.ratValue x| / 2 ^ (L + 1) := by
      rw [le_div_iff₀ hp, zpow_add_one₀ (by norm_num)]; linarith
    have one_le : (1 : ℚ) ≤ 2 ^ (f.bias + 1) := one_le_pow₀ (by norm_num)
    have hg := ofMag_encode g.ok (f.sign x) r1 (by positivity) (by linarith)
    unfold getmant
    rw [if_pos ⟨hx, h0⟩, ← hL]
    refine ⟨hg.1, ?_, ?_, ?_⟩
    · rw [hg.2, abs_mul, sign_abs_one, one_mul, abs_of_nonneg (by positivity)]; exact ge1
    · rw [hg.2, abs_mul, sign_abs_one, one_mul, abs_of_nonneg (by positivity)]; exact lt1
    · rw [hg.2, mul_assoc, div_mul_cancel₀ _ hp.ne']
      have hs := ratValue_sign (x := x)
      cases hc : f.sign x
      · rw [abs_of_nonneg (hs.1 hc)]; simp
      · rw [abs_of_nonpos (hs.2 hc)]; simp
  · rw [decide_eq_false h] at hb
    subst hb
    simp only [Bool.false_eq_true, if_false]
    exact ⟨fun a b => absurd ⟨a, b⟩ h, fun _ => ⟨rfl, rfl⟩, fun _ => rfl⟩

/-! ## logb -/

theorem unbiased_toInt (g : Good f) {x : f.Bits} (hs : f.sign x = false) : (unbiased x).toInt = (f.expo x : ℤ) - f.bias := by
  have hb := bias_eq g.ok
  have he := expo_lt x
  have hw := g.width
  have hpow : 2 ^ f.ebits ≤ 2 ^ (f.ebits + f.mbits) := Nat.pow_le_pow_right (by omega) (by omega)
  have hx : x.toInt = mag f x := toInt_of_lt (toInt_pos hs) (mag_lt x)
  have e1 : (x.sshiftRight f.mbits).toInt = f.expo x := by
    rw [BitVec.toInt_sshiftRight, hx, Int.shiftRight_eq_div_pow, expo_eq]
    push_cast; rfl
  have e2 : (BitVec.ofNat f.width f.bias).toInt = f.bias := (const_toInt (by omega)).2
  unfold unbiased
  rw [BitVec.toInt_sub, e1, e2]
  have hz : ((2 ^ f.ebits : ℕ) : ℤ) ≤ ((2 ^ (f.ebits + f.mbits) : ℕ) : ℤ) := by exact_mod_cast hpow
  have hw2 : ((2 ^ f.width : ℕ) : ℤ) = 2 * ((2 ^ (f.ebits + f.mbits) : ℕ) : ℤ) := by
    rw [show f.width = f.ebits + f.mbits + 1 from rfl, Nat.pow_succ]; push_cast; ring
  apply Int.bmod_eq_of_le <;> omega

theorem logb_normal (g : Good f) {x : f.Bits} (h : f.isNormal x) :
    f.isFinite (ofBits env (unbiased (FloatBits.abs f x))) ∧ f.ratValue (ofBits env (unbiased (FloatBits.abs f x))) = ((f.expo x : ℤ) - f.bias : ℤ) := by
  have hb := bias_eq g.ok
  have he := expo_lt x
  have h1 := h.1
  have h2 := h.2
  unfold Fmt.isFinite at h1
  unfold ofBits
  rw [unbiased_toInt g (sign_abs x), (abs_value x).1]
  have := ofInt_small env g (n := (f.expo x : ℤ) - f.bias) (by have := g.ok.2; omega) (by omega)
  exact ⟨this.1, this.2⟩

theorem logb_of_normal (g : Good f) {x : f.Bits} (h : f.isNormal x) : f.IsLogb x (ofBits env (unbiased (FloatBits.abs f x))) := by
  obtain ⟨h1, h2⟩ := logb_normal env g h
  obtain ⟨a, b⟩ := abs_normal h.2
  obtain ⟨n1, n2⟩ := finite_not g.ok h.1
  exact ⟨fun _ _ => ⟨h1, _, h2, a, b⟩, fun hz => absurd hz.1 h.2, fun hi => absurd hi n2, fun hn => absurd hn n1⟩

theorem isnanEq_iff (hf : f.Ok) (x : f.Bits) : isnanEq f x = decide (f.isNaN x) := by
  unfold isnanEq
  rw [eq_eq hf, unordered_eq hf]
  by_cases h : f.isNaN x <;> simp [h]

theorem isinf_iff' (hf : f.Ok) (x : f.Bits) : FloatBits.isinf f x = decide (f.isInf x) := (Props.C34_isinf hf x).1

theorem classes (hf : f.Ok) (x : f.Bits) : f.isNormal x ∨ f.isSubnormal x ∨ f.isZero x ∨ f.isInf x ∨ f.isNaN x := by
  rw [isNormal_iff, isSubnormal_iff, isZero_iff, isInf_iff, isNaN_iff]
  omega

theorem eq_zero' (hf : f.Ok) (x : f.Bits) : f.eq x 0 = decide (f.isZero x) := by
  by_cases h : f.isFinite x
  · exact eq_zero hf h
  · have h0 : ¬ f.isZero x := by
      rw [isZero_iff]; rw [isFinite_iff] at h; have := inf_lt hf; omega
    rw [decide_eq_false h0, eq_eq hf]
    have hm : mag f (0 : f.Bits) = 0 := (pos_const (Nat.two_pow_pos _)).1
    have k : ikey f (0 : f.Bits) = 0 := by unfold ikey; rw [hm]; simp
    have : ikey f x ≠ 0 := by
      rw [isZero_iff] at h0
      unfold ikey; split <;> omega
    rw [k]; simp [this]

theorem logbSpecial_spec (g : Good f) {nrm : f.Bits → Bool} {x : f.Bits} (hn : nrm x = decide (f.isNormal x)) :
    (logbSpecial env nrm x).2 = decide (¬ f.isSubnormal x) ∧ (¬ f.isSubnormal x → f.IsLogb x (logbSpecial env nrm x).1) := by
  have hb := bias_eq g.ok
  have hi := inf_lt g.ok
  have hin := mag_inf g.ok
  have e1 : (logbSpecial env nrm x).2 = (decide (f.isNormal x) || (decide (f.isZero x) || decide (f.isNaN x) || decide (f.isInf x))) := by
    unfold logbSpecial; dsimp only; rw [hn, eq_zero' g.ok, isnanEq_iff g.ok, isinf_iff' g.ok]
  have e2 : (logbSpecial env nrm x).1 = if f.isInf x then infBits f else if f.isNaN x then x else if f.isZero x then signMask f ||| infBits f
      else ofBits env (unbiased (FloatBits.abs f x)) := by
    unfold logbSpecial; dsimp only; rw [eq_zero' g.ok, isnanEq_iff g.ok, isinf_iff' g.ok]; simp only [decide_eq_true_eq]
  constructor
  · rw [e1, Bool.eq_iff_iff]
    simp only [Bool.or_eq_true, decide_eq_true_eq]
    rw [isNormal_iff, isSubnormal_iff, isZero_iff, isInf_iff, isNaN_iff]
    omega
  · intro hs
    rw [e2]
    by_cases c1 : f.isInf x
    · rw [if_pos c1]
      rw [isInf_iff] at c1
      refine ⟨fun h => ?_, fun h => ?_, fun _ => ⟨?_, hin.2⟩, fun h => ?_⟩
      · rw [isFinite_iff] at h; omega
      · rw [isZero_iff] at h; omega
      · rw [isInf_iff]; exact hin.1
      · rw [isNaN_iff] at h; omega
    · rw [if_neg c1]
      by_cases c2 : f.isNaN x
      · rw [if_pos c2]
        refine ⟨fun h => absurd c2 (finite_not g.ok h).1, fun h => ?_, fun h => absurd h c1, fun h => c2⟩
        rw [isZero_iff] at h; rw [isNaN_iff] at c2; omega
      · rw [if_neg c2]
        by_cases c3 : f.isZero x
        · rw [if_pos c3]
          exact ⟨fun _ h => absurd c3 h, fun _ => ⟨by rw [isInf_iff, mag_or, mag_signMask, hin.1, Nat.zero_or], by rw [sign_or, sign_signMask]; rfl⟩,
            fun h => absurd h c1, fun h => absurd h c2⟩
        · rw [if_neg c3]
          have := classes g.ok x
          exact logb_of_normal env g (by tauto)

theorem logb_scaled (g : Good f) {x : f.Bits} (h : f.isSubnormal x) :
    f.IsLogb x (ofBits env (unbiased (Fmt.mul env (FloatBits.abs f x) (powBits f 112)) - BitVec.ofNat _ 112)) := by
  have hb := bias_eq g.ok
  have hmid := g.mid
  have hsub : f.isSubnormal (FloatBits.abs f x) := by rw [isSubnormal_iff] at *; rw [mag_abs]; exact h
  have hx : f.isFinite x := by unfold Fmt.isFinite; rw [h.1]; omega
  obtain ⟨k1, k2⟩ := scaled env g.ok hmid.1 hmid.2 hsub
  have hz : ¬ f.isZero x := fun hz => h.2 hz.2
  have hq := abs_ge_quantum hz
  have hqp : (0 : ℚ) < 2 ^ (1 - (f.bias : ℤ) - f.mbits) := by positivity
  have hpos : 0 < f.ratValue (Fmt.mul env (FloatBits.abs f x) (powBits f 112)) := by
    rw [k2, ratValue_abs]; exact mul_pos (lt_of_lt_of_le hqp hq) (by positivity)
  have hsign : f.sign (Fmt.mul env (FloatBits.abs f x) (powBits f 112)) = false := by
    have := (sign_of_value (x := Fmt.mul env (FloatBits.abs f x) (powBits f 112))).1 hpos; exact this
  set y := Fmt.mul env (FloatBits.abs f x) (powBits f 112) with hy
  obtain ⟨a, b⟩ := abs_normal k1.2
  rw [abs_of_pos hpos, k2, ratValue_abs] at a b
  have he := expo_lt y
  have ey := k1.2
  have hp : (0 : ℚ) < 2 ^ 112 := by positivity
  have c1 : (2 : ℚ) ^ ((f.expo y : ℤ) - f.bias - 112) ≤ |f.ratValue x| := by
    rw [zpow_sub₀ (by norm_num), div_le_iff₀ (by positivity)]
    exact_mod_cast a
  have c2 : |f.ratValue x| < (2 : ℚ) ^ ((f.expo y : ℤ) - f.bias - 112 + 1) := by
    rw [show (f.expo y : ℤ) - f.bias - 112 + 1 = (f.expo y : ℤ) - f.bias + 1 - 112 by ring, zpow_sub₀ (by norm_num), lt_div_iff₀ (by positivity)]
    exact_mod_cast b
  have hlow : -(f.bias : ℤ) - f.mbits < (f.expo y : ℤ) - f.bias - 112 := by
    have := (zpow_lt_zpow_iff_right₀ (by norm_num : (1 : ℚ) < 2)).1 (lt_of_le_of_lt hq c2)
    omega
  have hpow : 2 ^ f.ebits ≤ 2 ^ (f.ebits + f.mbits) := Nat.pow_le_pow_right (by omega) (by omega)
  have hpow2 : f.mbits < 2 ^ f.mbits := Nat.lt_two_pow_self
  have hpow3 : 2 * 2 ^ f.mbits ≤ 2 ^ (f.ebits + f.mbits) := by
    rw [show 2 * 2 ^ f.mbits = 2 ^ (1 + f.mbits) by rw [Nat.pow_add]]
    exact Nat.pow_le_pow_right (by omega) (by have := g.ok.1; omega)
  have e2 : (BitVec.ofNat f.width 112).toInt = 112 := (const_toInt (by omega)).2
  have e3 : (unbiased y - BitVec.ofNat _ 112).toInt = (f.expo y : ℤ) - f.bias - 112 := by
    rw [BitVec.toInt_sub, e2, unbiased_toInt g hsign]
    have hw2 : ((2 ^ f.width : ℕ) : ℤ) = 2 * ((2 ^ (f.ebits + f.mbits) : ℕ) : ℤ) := by
      rw [show f.width = f.ebits + f.mbits + 1 from rfl, Nat.pow_succ]; push_cast; ring
    have z1 : ((2 ^ f.ebits : ℕ) : ℤ) ≤ ((2 ^ (f.ebits + f.mbits) : ℕ) : ℤ) := by exact_mod_cast hpow
    have z2 : (2 : ℤ) * ((2 ^ f.mbits : ℕ) : ℤ) ≤ ((2 ^ (f.ebits + f.mbits) : ℕ) : ℤ) := by exact_mod_cast hpow3
    have z3 : (f.mbits : ℤ) < ((2 ^ f.mbits : ℕ) : ℤ) := by exact_mod_cast hpow2
    apply Int.bmod_eq_of_le <;> omega
  have hup : (f.expo y : ℤ) - f.bias - 112 ≤ f.bias := by omega
  have hn := ofInt_small env g hlow hup
  obtain ⟨n1, n2⟩ := finite_not g.ok hx
  refine ⟨fun _ _ => ?_, fun h0 => absurd h0 hz, fun hi => absurd hi n2, fun hn => absurd hn n1⟩
  unfold ofBits
  rw [e3]
  exact ⟨hn.1, _, hn.2, c1, c2⟩

/-! ## modf -/

theorem modf_spec (hf : f.Ok) {tr : f.Bits → f.Bits} (htr : IsTrunc f tr) {fin : Bool} {x : f.Bits} (hfin : fin = true → f.isFinite x) :
    f.IsModf x (modf env tr fin x).1 (modf env tr fin x).2 := by
  have e1 : (modf env tr fin x).1 = tr x := rfl
  have e2 : (modf env tr fin x).2 = copysign (if !fin && FloatBits.isinf f x then 0 else Fmt.sub env x (tr x)) x := rfl
  rw [e1, e2, isinf_iff' hf]
  refine ⟨fun hx => ?_, fun hi => ⟨htr.inf x hi, ?_⟩, fun hn => ⟨htr.nan x hn, ?_⟩, sign_copysign _ _⟩
  · have hni := (finite_not hf hx).2
    simp only [hni, decide_false, Bool.and_false, Bool.false_eq_true, if_false]
    obtain ⟨d1, d2⟩ := trunc_diff hf x hx
    have hlt : |f.ratValue x - truncZ (f.ratValue x)| < 1 := by rw [d2]; exact Int.fract_lt_one _
    have one_le : (1 : ℚ) ≤ 2 ^ (f.bias + 1) := one_le_pow₀ (by norm_num)
    have h1 : IsNum f (tr x) (f.sign (tr x)) (truncZ (f.ratValue x)) := ⟨htr.finite x hx, htr.value x hx, rfl⟩
    have hs := sub_exact env hf (self_num hx) h1 d1 (by linarith)
    set r := Fmt.sub env x (tr x) with hr
    have hm := mag_copysign r x
    have hv : f.ratValue (copysign r x) = f.ratValue x - truncZ (f.ratValue x) := by
      rw [ratValue_of_mag hm, sign_copysign, hs.2]
      split
      · rfl
      · rename_i hne
        have hsx := ratValue_sign (x := x)
        have hsr := ratValue_sign (x := r)
        rw [hs.2] at hsr
        have ht := truncZ_abs (f.ratValue x)
        have hfl : (⌊|f.ratValue x|⌋ : ℚ) ≤ |f.ratValue x| := Int.floor_le _
        have hz : f.ratValue x - truncZ (f.ratValue x) = 0 := by
          cases hc : f.sign x
          · have hp := hsx.1 hc
            have hrn := hsr.2 (by cases hd : f.sign r <;> simp_all)
            rw [if_neg (by linarith), one_mul] at ht
            rw [abs_of_nonneg hp] at hfl ht
            linarith
          · have hp := hsx.2 hc
            have hrn := hsr.1 (by cases hd : f.sign r <;> simp_all)
            rw [abs_of_nonpos hp] at hfl ht
            by_cases h0 : f.ratValue x < 0
            · rw [if_pos h0] at ht; linarith
            · have : f.ratValue x = 0 := by linarith
              rw [if_neg h0, this] at ht
              rw [this]; simp at ht; rw [this] at hrn; simp [ht]
        rw [hz]; simp
    exact ⟨h1.1, finite_of_mag hm hs.1, h1.2, by rw [h1.2, hv]; ring, by rw [hv]; exact hlt⟩
  · have hfi : fin = false := by
      cases hc : fin
      · rfl
      · exact absurd hi (finite_not hf (hfin hc)).2
    subst hfi
    simp only [hi, decide_true, Bool.not_false, Bool.and_true, if_true]
    rw [isZero_iff, mag_copysign]; exact (pos_const (Nat.two_pow_pos _)).1
  · have hni : ¬ f.isInf x := by rw [isInf_iff]; rw [isNaN_iff] at hn; omega
    simp only [hni, decide_false, Bool.and_false, Bool.false_eq_true, if_false]
    have := sub_nan env (y := tr x) (Or.inl hn)
    rw [isNaN_iff] at *
    rw [mag_copysign]; exact this

end StdSimd.Math
