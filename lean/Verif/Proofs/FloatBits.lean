import Verif.Model.FloatBits
import Mathlib.Tactic.Ring
import Mathlib.Tactic.Linarith
import Mathlib.Tactic.Positivity
import Mathlib.Algebra.Order.Field.Power
/-!
# Lemmas about bit patterns of floating-point numbers
-/
namespace StdSimd.FloatBits
open Spec

variable {f : Fmt}

/-- The pattern without its sign, as a number. -/
def mag (f : Fmt) (x : f.Bits) : Nat := x.toNat % 2 ^ (f.ebits + f.mbits)
/-- The pattern of infinity. -/
def inf (f : Fmt) : Nat := (2 ^ f.ebits - 1) * 2 ^ f.mbits
/-- The integer the comparisons use. -/
def ikey (f : Fmt) (x : f.Bits) : Int := if f.sign x then -(mag f x : Int) else mag f x

theorem mag_lt (x : f.Bits) : mag f x < 2 ^ (f.ebits + f.mbits) := Nat.mod_lt _ (Nat.two_pow_pos _)

theorem mag_eq (x : f.Bits) : mag f x = f.expo x * 2 ^ f.mbits + f.mant x := by
  unfold mag Fmt.expo Fmt.mant
  rw [Nat.add_comm f.ebits, Nat.pow_add, Nat.mod_mul]
  rw [Nat.mul_comm (2 ^ f.mbits)]; omega

theorem mant_lt (x : f.Bits) : f.mant x < 2 ^ f.mbits := Nat.mod_lt _ (Nat.two_pow_pos _)
theorem expo_lt (x : f.Bits) : f.expo x < 2 ^ f.ebits := Nat.mod_lt _ (Nat.two_pow_pos _)
theorem expo_eq (x : f.Bits) : f.expo x = mag f x / 2 ^ f.mbits := by
  rw [mag_eq, Nat.mul_comm, Nat.mul_add_div (Nat.two_pow_pos _), Nat.div_eq_of_lt (mant_lt x), Nat.add_zero]
theorem mant_eq (x : f.Bits) : f.mant x = mag f x % 2 ^ f.mbits := by
  rw [mag_eq, Nat.mul_comm, Nat.mul_add_mod, Nat.mod_eq_of_lt (mant_lt x)]

theorem sign_msb (x : f.Bits) : f.sign x = x.msb := by
  unfold Fmt.sign
  rw [BitVec.msb_eq_getLsbD_last]; rfl

theorem inf_lt (hf : f.Ok) : inf f < 2 ^ (f.ebits + f.mbits) ∧ 2 ^ f.mbits < inf f ∧ 0 < inf f := by
  unfold inf
  have h1 : 2 ^ 2 ≤ 2 ^ f.ebits := Nat.pow_le_pow_right (by omega) hf.1
  have hm := Nat.two_pow_pos f.mbits
  have h2 : 2 * 2 ^ f.mbits ≤ (2 ^ f.ebits - 1) * 2 ^ f.mbits := Nat.mul_le_mul_right _ (by omega)
  rw [Nat.pow_add]
  refine ⟨Nat.mul_lt_mul_of_pos_right (by omega) hm, by omega, by omega⟩

/-! ## classes in terms of the magnitude -/

theorem expo_top (x : f.Bits) : f.expo x = 2 ^ f.ebits - 1 ↔ inf f ≤ mag f x := by
  have he := expo_lt x
  have hm := mant_lt x
  rw [mag_eq]; unfold inf
  have hp := Nat.two_pow_pos f.ebits
  constructor
  · intro h; rw [h]; omega
  · intro h
    by_contra hne
    have h1 : f.expo x + 1 ≤ 2 ^ f.ebits - 1 := by omega
    have h2 : (f.expo x + 1) * 2 ^ f.mbits ≤ (2 ^ f.ebits - 1) * 2 ^ f.mbits := Nat.mul_le_mul_right _ h1
    rw [Nat.add_mul] at h2; omega

theorem isNaN_iff (x : f.Bits) : f.isNaN x ↔ inf f < mag f x := by
  unfold Fmt.isNaN
  rw [expo_top]
  constructor
  · rintro ⟨h1, h2⟩
    have h3 := (expo_top x).2 h1
    rw [mag_eq, h3]; unfold inf; omega
  · intro h
    have h3 := (expo_top x).2 (by omega)
    refine ⟨by omega, fun h0 => ?_⟩
    rw [mag_eq, h3, h0] at h; unfold inf at h; omega

theorem isInf_iff (x : f.Bits) : f.isInf x ↔ mag f x = inf f := by
  unfold Fmt.isInf
  constructor
  · rintro ⟨h1, h2⟩; rw [mag_eq, h1, h2]; rfl
  · intro h
    have h3 := (expo_top x).2 (by omega)
    refine ⟨h3, ?_⟩
    rw [mag_eq, h3] at h; unfold inf at h; omega

theorem isFinite_iff (x : f.Bits) : f.isFinite x ↔ mag f x < inf f := by
  unfold Fmt.isFinite; rw [Ne, expo_top]; omega

theorem expo_zero (x : f.Bits) : f.expo x = 0 ↔ mag f x < 2 ^ f.mbits := by
  rw [expo_eq, Nat.div_eq_zero_iff]
  have := Nat.two_pow_pos f.mbits
  omega

theorem isZero_iff (x : f.Bits) : f.isZero x ↔ mag f x = 0 := by
  unfold Fmt.isZero
  have := Nat.two_pow_pos f.mbits
  constructor
  · rintro ⟨h1, h2⟩; rw [mag_eq, h1, h2]; simp
  · intro h
    refine ⟨(expo_zero x).2 (by omega), ?_⟩
    rw [mant_eq, h]; simp

theorem isSubnormal_iff (x : f.Bits) : f.isSubnormal x ↔ 0 < mag f x ∧ mag f x < 2 ^ f.mbits := by
  unfold Fmt.isSubnormal
  rw [expo_zero]
  constructor
  · rintro ⟨h1, h2⟩
    refine ⟨?_, h1⟩
    rw [mant_eq, Nat.mod_eq_of_lt h1] at h2; omega
  · rintro ⟨h1, h2⟩
    refine ⟨h2, ?_⟩
    rw [mant_eq, Nat.mod_eq_of_lt h2]; omega

theorem isNormal_iff (x : f.Bits) : f.isNormal x ↔ 2 ^ f.mbits ≤ mag f x ∧ mag f x < inf f := by
  unfold Fmt.isNormal
  rw [Ne, Ne, expo_top, expo_zero]; omega

/-! ## the integers -/

theorem toInt_of_lt {w : Nat} {x : BitVec (w + 1)} {n : Nat} (h : x.toNat = n) (h2 : n < 2 ^ w) : x.toInt = n := by
  rw [BitVec.toInt_eq_toNat_cond, h, if_pos]
  rw [Nat.pow_succ]; omega

theorem and_intMax (x : f.Bits) : (x &&& BitVec.intMax f.width).toNat = mag f x := by
  rw [BitVec.toNat_and, BitVec.toNat_intMax]
  show x.toNat &&& (2 ^ (f.ebits + f.mbits) - 1) = _
  rw [Nat.and_two_pow_sub_one_eq_mod]; rfl

theorem toInt_pos {x : f.Bits} (h : f.sign x = false) : x.toNat = mag f x := by
  unfold mag
  rw [Nat.mod_eq_of_lt]
  rw [sign_msb, BitVec.msb_eq_decide] at h
  simpa using h

theorem absMask_eq : absMask f = BitVec.intMax f.width := by
  apply BitVec.eq_of_getLsbD_eq
  intro i hi
  unfold absMask signMask
  have hi' : i < f.ebits + f.mbits + 1 := hi
  rw [BitVec.getLsbD_not, BitVec.getLsbD_shiftLeft, BitVec.getLsbD_one]
  have : (BitVec.intMax f.width).getLsbD i = decide (i < f.ebits + f.mbits) := by
    rw [BitVec.getLsbD, BitVec.toNat_intMax]
    show (2 ^ (f.ebits + f.mbits) - 1).testBit i = _
    rw [Nat.testBit_two_pow_sub_one]
  rw [this]
  by_cases h : i < f.ebits + f.mbits
  · simp [h, hi']
  · have : i = f.ebits + f.mbits := by omega
    subst this; simp

theorem abs_toNat (x : f.Bits) : (abs f x).toNat = mag f x := by
  unfold abs
  rw [absMask_eq, BitVec.and_comm, and_intMax]

theorem abs_toInt (x : f.Bits) : (abs f x).toInt = mag f x := toInt_of_lt (abs_toNat x) (mag_lt x)

theorem mag_abs (x : f.Bits) : mag f (abs f x) = mag f x := by
  show (abs f x).toNat % _ = _
  rw [abs_toNat, Nat.mod_eq_of_lt (mag_lt x)]

theorem sign_abs (x : f.Bits) : f.sign (abs f x) = false := by
  rw [sign_msb, BitVec.msb_eq_decide, abs_toNat]
  have := mag_lt x
  simpa using this

theorem key_toInt (x : f.Bits) : (key f x).toInt = ikey f x := by
  unfold key ikey
  rw [sign_msb]
  have hm := mag_lt x
  cases h : x.msb
  · simp only [if_false, Bool.false_eq_true]
    exact toInt_of_lt (toInt_pos (by rw [sign_msb]; exact h)) hm
  · simp only [if_true]
    have h1 : (x &&& BitVec.intMax f.width).toInt = mag f x := toInt_of_lt (and_intMax x) hm
    have hb := BitVec.toInt_neg (x := x &&& BitVec.intMax f.width)
    rw [hb, h1]
    have e : (2 : Int) ^ f.width = 2 * 2 ^ (f.ebits + f.mbits) := by
      show (2 : Int) ^ (f.ebits + f.mbits + 1) = _
      rw [pow_succ]; ring
    have hm' : (mag f x : Int) < 2 ^ (f.ebits + f.mbits) := by exact_mod_cast hm
    have hpos : (0 : Int) < 2 ^ (f.ebits + f.mbits) := by positivity
    apply Int.bmod_eq_of_le_mul_two
    · push_cast; rw [e]; omega
    · push_cast; rw [e]; omega

theorem const_toInt {n : Nat} (h : n < 2 ^ (f.ebits + f.mbits)) : (BitVec.ofNat f.width n).toNat = n ∧ (BitVec.ofNat f.width n).toInt = n := by
  have h1 : (BitVec.ofNat f.width n).toNat = n := by
    rw [BitVec.toNat_ofNat]
    apply Nat.mod_eq_of_lt
    show n < 2 ^ (f.ebits + f.mbits + 1)
    rw [Nat.pow_succ]; omega
  exact ⟨h1, toInt_of_lt h1 h⟩

theorem inf_toInt (hf : f.Ok) : (infBits f).toNat = inf f ∧ (infBits f).toInt = inf f := const_toInt (inf_lt hf).1
theorem max_toInt (hf : f.Ok) : (maxBits f).toInt = inf f - 1 := by
  have h1 : 2 ^ 2 ≤ 2 ^ f.ebits := Nat.pow_le_pow_right (by omega) hf.1
  have hm := Nat.two_pow_pos f.mbits
  have e : (2 ^ f.ebits - 2) * 2 ^ f.mbits + (2 ^ f.mbits - 1) = inf f - 1 := by
    have : 2 ^ f.ebits - 1 = 2 ^ f.ebits - 2 + 1 := by omega
    unfold inf
    rw [this, Nat.add_mul]; omega
  have := inf_lt hf
  unfold maxBits
  rw [e, (const_toInt (f := f) (n := inf f - 1) (by omega)).2]
  omega
theorem min_toInt (hf : f.Ok) : (minBits f).toInt = 2 ^ f.mbits := by
  have := inf_lt hf
  unfold minBits
  rw [(const_toInt (f := f) (n := 2 ^ f.mbits) (by omega)).2]
  push_cast; rfl

/-! ## order -/

/-- The value of a magnitude in units of the smallest subnormal number. -/
def unit (m n : Nat) : Nat := (n % 2 ^ m + if n / 2 ^ m = 0 then 0 else 2 ^ m) * 2 ^ (max (n / 2 ^ m) 1 - 1)

theorem unit_succ (m n : Nat) : unit m n < unit m (n + 1) := by
  have hm := Nat.two_pow_pos m
  have hdm := Nat.div_add_mod n (2 ^ m)
  have hlt := Nat.mod_lt n hm
  unfold unit
  by_cases h : n % 2 ^ m + 1 < 2 ^ m
  · have e1 : (n + 1) / 2 ^ m = n / 2 ^ m := by
      rw [← hdm, Nat.add_assoc, Nat.mul_add_div hm, Nat.mul_add_div hm, Nat.div_eq_of_lt h, Nat.div_eq_of_lt hlt]
    have e2 : (n + 1) % 2 ^ m = n % 2 ^ m + 1 := by
      conv_lhs => rw [← hdm, Nat.add_assoc, Nat.mul_add_mod, Nat.mod_eq_of_lt h]
    rw [e1, e2]
    apply Nat.mul_lt_mul_of_pos_right _ (Nat.two_pow_pos _)
    omega
  · have h' : n % 2 ^ m + 1 = 2 ^ m := by omega
    have e0 : n + 1 = 2 ^ m * (n / 2 ^ m + 1) := by rw [Nat.mul_add]; omega
    have e1 : (n + 1) / 2 ^ m = n / 2 ^ m + 1 := by rw [e0, Nat.mul_div_cancel_left _ hm]
    have e2 : (n + 1) % 2 ^ m = 0 := by rw [e0, Nat.mul_mod_right]
    rw [e1, e2]
    generalize n / 2 ^ m = q at *
    rw [if_neg (by omega : ¬ (q + 1 = 0)), Nat.max_eq_left (by omega : 1 ≤ q + 1), Nat.add_sub_cancel]
    by_cases h0 : q = 0
    · rw [h0]; simp; omega
    · rw [if_neg h0, Nat.max_eq_left (by omega)]
      obtain ⟨k, hk⟩ := Nat.exists_eq_succ_of_ne_zero h0
      rw [hk, Nat.succ_eq_add_one, Nat.add_sub_cancel, Nat.pow_succ, Nat.zero_add, ← Nat.mul_assoc, Nat.mul_right_comm]
      apply Nat.mul_lt_mul_of_pos_right _ (Nat.two_pow_pos _)
      omega

theorem unit_mono (m : Nat) : StrictMono (unit m) := strictMono_nat_of_lt_succ (unit_succ m)
theorem unit_zero (m : Nat) : unit m 0 = 0 := by simp [unit]

/-- Signed value in units. -/
def sunit (m : Nat) (k : Int) : Int := if 0 ≤ k then unit m k.toNat else -(unit m (-k).toNat)

theorem sunit_mono (m : Nat) : StrictMono (sunit m) := by
  intro a b h
  unfold sunit
  by_cases ha : 0 ≤ a
  · rw [if_pos ha, if_pos (by omega)]
    exact_mod_cast unit_mono m (show a.toNat < b.toNat by omega)
  · rw [if_neg ha]
    have h1 : 0 < unit m (-a).toNat := by
      rw [← unit_zero m]; exact unit_mono m (by omega)
    by_cases hb : 0 ≤ b
    · rw [if_pos hb]; omega
    · rw [if_neg hb]
      have := unit_mono m (show (-b).toNat < (-a).toNat by omega)
      omega

/-- The weight of a unit. -/
def quantum (f : Fmt) : ℚ := 2 ^ (1 - (f.bias : ℤ) - f.mbits)

theorem ratValue_eq (x : f.Bits) : f.ratValue x = sunit f.mbits (ikey f x) * quantum f := by
  have hmag : (f.significand x : ℚ) * 2 ^ ((max (f.expo x) 1 : ℤ) - f.bias - f.mbits) = (unit f.mbits (mag f x) : ℚ) * quantum f := by
    have e1 : f.significand x = mag f x % 2 ^ f.mbits + if mag f x / 2 ^ f.mbits = 0 then 0 else 2 ^ f.mbits := by
      unfold Fmt.significand
      rw [← expo_eq, ← mant_eq]
      split <;> omega
    unfold unit quantum
    rw [← e1, ← expo_eq]
    push_cast
    rw [mul_assoc, ← zpow_natCast (2 : ℚ), ← zpow_add₀ (by norm_num : (2 : ℚ) ≠ 0)]
    congr 2
    have : ((max (f.expo x) 1 - 1 : Nat) : ℤ) = (max (f.expo x) 1 : ℤ) - 1 := by
      push_cast [Nat.le_max_right]; rfl
    rw [this]; ring
  unfold Fmt.ratValue
  rw [mul_assoc, hmag]
  unfold ikey sunit
  cases hs : f.sign x
  · simp
  · simp only [if_true]
    by_cases h0 : mag f x = 0
    · simp [h0, unit_zero]
    · rw [if_neg (by omega)]
      simp

/-- Values of the integers the comparisons use. -/
def ext (f : Fmt) (k : Int) : WithBot (WithTop ℚ) :=
  if k = inf f then ((⊤ : WithTop ℚ) : WithBot (WithTop ℚ))
  else if k = -(inf f) then ⊥
  else (((sunit f.mbits k * quantum f : ℚ) : WithTop ℚ) : WithBot (WithTop ℚ))

theorem ext_mono (hf : f.Ok) {a b : Int} (ha : -(inf f : Int) ≤ a) (hb : b ≤ inf f) (h : a < b) : ext f a < ext f b := by
  have hi := (inf_lt hf).2.2
  have hq : 0 < quantum f := by unfold quantum; positivity
  unfold ext
  rw [if_neg (by omega : ¬ a = inf f), if_neg (by omega : ¬ b = -(inf f : Int))]
  by_cases h1 : a = -(inf f : Int)
  · rw [if_pos h1]
    split
    · exact WithBot.bot_lt_coe _
    · exact WithBot.bot_lt_coe _
  · rw [if_neg h1]
    split
    · exact WithBot.coe_lt_coe.2 (WithTop.coe_lt_top _)
    · apply WithBot.coe_lt_coe.2
      apply WithTop.coe_lt_coe.2
      have := sunit_mono f.mbits h
      have h2 : (sunit f.mbits a : ℚ) < sunit f.mbits b := by exact_mod_cast this
      exact mul_lt_mul_of_pos_right h2 hq

theorem ikey_bounds (x : f.Bits) (h : ¬ f.isNaN x) : -(inf f : Int) ≤ ikey f x ∧ ikey f x ≤ inf f := by
  rw [isNaN_iff] at h
  unfold ikey
  split <;> omega

theorem value_eq (hf : f.Ok) (x : f.Bits) : f.value x = if f.isNaN x then none else some (ext f (ikey f x)) := by
  unfold Fmt.value
  split
  · rfl
  · rename_i hn
    congr 1
    rw [isNaN_iff] at hn
    have hi := (inf_lt hf).2.2
    have hii := isInf_iff (f := f) x
    have hik : ikey f x = if f.sign x then -(mag f x : Int) else mag f x := rfl
    split
    · rename_i h
      rw [hii] at h
      cases hs : f.sign x
      · simp only [hs, if_false, Bool.false_eq_true] at hik ⊢
        rw [hik, h]; simp [ext]
      · simp only [hs, if_true] at hik ⊢
        rw [hik, h]
        unfold ext
        rw [if_neg (by omega), if_pos rfl]
    · rename_i h
      rw [hii] at h
      rw [ratValue_eq]
      unfold ext
      rw [if_neg, if_neg]
      · rw [hik]; split <;> omega
      · rw [hik]; split <;> omega

theorem unordered_eq (hf : f.Ok) (x y : f.Bits) : f.unordered x y = decide (f.isNaN x ∨ f.isNaN y) := by
  unfold Fmt.unordered
  rw [value_eq hf, value_eq hf]
  by_cases hx : f.isNaN x <;> by_cases hy : f.isNaN y <;> simp [hx, hy]

theorem quiet_eq (hf : f.Ok) (p : WithBot (WithTop ℚ) → WithBot (WithTop ℚ) → Bool) (q : Int → Int → Bool)
    (h : ∀ a b : Int, -(inf f : Int) ≤ a → a ≤ inf f → -(inf f : Int) ≤ b → b ≤ inf f → p (ext f a) (ext f b) = q a b) (x y : f.Bits) :
    f.quiet p x y = (!(f.unordered x y) && q (ikey f x) (ikey f y)) := by
  rw [unordered_eq hf]
  unfold Fmt.quiet
  rw [value_eq hf, value_eq hf]
  by_cases hx : f.isNaN x
  · simp [hx]
  · by_cases hy : f.isNaN y
    · simp [hx, hy]
    · have b1 := ikey_bounds x hx
      have b2 := ikey_bounds y hy
      simp [hx, hy, h _ _ b1.1 b1.2 b2.1 b2.2]

theorem ext_lt_iff (hf : f.Ok) {a b : Int} (ha : -(inf f : Int) ≤ a) (ha' : a ≤ inf f) (hb : -(inf f : Int) ≤ b) (hb' : b ≤ inf f) :
    ext f a < ext f b ↔ a < b := by
  constructor
  · intro h
    by_contra hc
    rcases Int.lt_or_eq_of_le (Int.not_lt.1 hc) with h2 | h2
    · exact lt_asymm h (ext_mono hf hb ha' h2)
    · rw [h2] at h; exact lt_irrefl _ h
  · exact ext_mono hf ha hb'

theorem ext_le_iff (hf : f.Ok) {a b : Int} (ha : -(inf f : Int) ≤ a) (ha' : a ≤ inf f) (hb : -(inf f : Int) ≤ b) (hb' : b ≤ inf f) :
    ext f a ≤ ext f b ↔ a ≤ b := by
  rw [← not_lt, ext_lt_iff hf hb hb' ha ha', not_lt]

theorem ext_eq_iff (hf : f.Ok) {a b : Int} (ha : -(inf f : Int) ≤ a) (ha' : a ≤ inf f) (hb : -(inf f : Int) ≤ b) (hb' : b ≤ inf f) :
    ext f a = ext f b ↔ a = b := by
  rw [le_antisymm_iff, ext_le_iff hf ha ha' hb hb', ext_le_iff hf hb hb' ha ha']; omega

theorem lt_eq (hf : f.Ok) (x y : f.Bits) : f.lt x y = (!(f.unordered x y) && decide (ikey f x < ikey f y)) :=
  quiet_eq hf _ (fun a b => decide (a < b)) (fun a b h1 h2 h3 h4 => by simp [ext_lt_iff hf h1 h2 h3 h4]) x y
theorem le_eq (hf : f.Ok) (x y : f.Bits) : f.le x y = (!(f.unordered x y) && decide (ikey f x ≤ ikey f y)) :=
  quiet_eq hf _ (fun a b => decide (a ≤ b)) (fun a b h1 h2 h3 h4 => by simp [ext_le_iff hf h1 h2 h3 h4]) x y
theorem eq_eq (hf : f.Ok) (x y : f.Bits) : f.eq x y = (!(f.unordered x y) && decide (ikey f x = ikey f y)) :=
  quiet_eq hf _ (fun a b => decide (a = b)) (fun a b h1 h2 h3 h4 => by simp [ext_eq_iff hf h1 h2 h3 h4]) x y
theorem lessGreater_eq (hf : f.Ok) (x y : f.Bits) : f.lessGreater x y = (!(f.unordered x y) && !(f.eq x y)) := by
  rw [eq_eq hf]
  have := quiet_eq hf (fun a b => decide (a < b ∨ b < a)) (fun a b => !decide (a = b)) (fun a b h1 h2 h3 h4 => by
    simp only [ext_lt_iff hf h1 h2 h3 h4, ext_lt_iff hf h3 h4 h1 h2]
    by_cases h : a = b
    · simp [h]
    · have : a < b ∨ b < a := by omega
      simp [h, this]) x y
  unfold Fmt.lessGreater
  rw [this]
  cases f.unordered x y <;> simp

theorem unordered_comm (x y : f.Bits) : f.unordered x y = f.unordered y x := by
  unfold Fmt.unordered; congr 1; rw [or_comm]

theorem slt_key (x y : f.Bits) : (key f x).slt (key f y) = decide (ikey f x < ikey f y) := by
  unfold BitVec.slt; rw [key_toInt, key_toInt]
theorem sle_key (x y : f.Bits) : (key f x).sle (key f y) = decide (ikey f x ≤ ikey f y) := by
  unfold BitVec.sle; rw [key_toInt, key_toInt]

theorem sat16_small {n : Nat} (h : n < 2 ^ 15) : sat16 (BitVec.ofNat 32 n) = BitVec.ofNat 16 n := by
  unfold sat16
  have e : (BitVec.ofNat 32 n).toInt = n := toInt_of_lt (by rw [BitVec.toNat_ofNat]; omega) (by omega)
  rw [e, if_neg (by omega), if_neg (by omega)]
  apply BitVec.eq_of_toNat_eq
  rw [BitVec.toNat_setWidth, BitVec.toNat_ofNat, BitVec.toNat_ofNat]
  omega

theorem packs64_small {n : Nat} (h : n < 2 ^ 15) : packs64 (BitVec.ofNat 64 n) = BitVec.ofNat 32 n := by
  unfold packs64
  have e1 : (BitVec.ofNat 64 n).extractLsb' 32 32 = BitVec.ofNat 32 0 := by
    apply BitVec.eq_of_toNat_eq
    rw [BitVec.extractLsb'_toNat, BitVec.toNat_ofNat, BitVec.toNat_ofNat, Nat.shiftRight_eq_div_pow]
    omega
  have e2 : (BitVec.ofNat 64 n).setWidth 32 = BitVec.ofNat 32 n := by
    apply BitVec.eq_of_toNat_eq
    rw [BitVec.toNat_setWidth, BitVec.toNat_ofNat, BitVec.toNat_ofNat]
    omega
  rw [e1, e2, sat16_small (by omega), sat16_small h]
  apply BitVec.eq_of_toNat_eq
  rw [BitVec.toNat_append, BitVec.toNat_ofNat, BitVec.toNat_ofNat]
  simp
  omega

end StdSimd.FloatBits
