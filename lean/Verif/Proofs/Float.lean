import Verif.Spec.Float
import Mathlib.Tactic.Linarith
import Mathlib.Tactic.Positivity
import Mathlib.Tactic.FieldSimp
import Mathlib.Tactic.NormNum
import Mathlib.Tactic.Ring
import Mathlib.Algebra.Order.Field.Power
import Mathlib.Data.Nat.Cast.Order.Field
/-! Facts about rounding to `p` significant bits. -/
namespace StdSimd.Spec

theorem Representable.neg {p : Nat} {r : ℚ} (h : Representable p r) : Representable p (-r) := by
  obtain ⟨m, e, h1, h2⟩ := h
  exact ⟨-m, e, by rwa [abs_neg], by rw [h2]; push_cast; ring⟩

theorem representable_int {p : Nat} (m : ℤ) (h : |m| < 2 ^ p) : Representable p m := ⟨m, 0, h, by simp⟩

theorem representable_zero (p : Nat) : Representable p 0 := ⟨0, 0, by simp, by simp⟩

theorem IsRounding.int {p : Nat} {R : ℚ → ℚ} (h : IsRounding p R) (m : ℤ) (hm : |m| < 2 ^ p) : R m = m :=
  h.fix _ (representable_int m hm)

theorem roundEven_int (m : ℤ) : roundEven m = m := by simp [roundEven]

theorem roundEven_floor (r : ℚ) : ⌊r⌋ ≤ roundEven r ∧ roundEven r ≤ ⌊r⌋ + 1 := by
  unfold roundEven; split
  · omega
  · split
    · omega
    · split <;> omega

theorem roundEven_mono : Monotone roundEven := by
  intro a b h
  have hf : ⌊a⌋ ≤ ⌊b⌋ := Int.floor_le_floor h
  rcases lt_or_eq_of_le hf with h1 | h1
  · have := (roundEven_floor a).2
    have := (roundEven_floor b).1
    omega
  · have ha := Int.fract_add_floor a
    have hb := Int.fract_add_floor b
    have hfr : Int.fract a ≤ Int.fract b := by
      have : ((⌊a⌋ : ℤ) : ℚ) = ⌊b⌋ := by exact_mod_cast h1
      linarith
    unfold roundEven
    rw [h1]
    split
    · split
      · omega
      · split
        · omega
        · split <;> omega
    · rename_i h2
      rw [if_neg (by linarith : ¬ Int.fract b < 1 / 2)]
      split
      · rw [if_pos (by linarith)]
      · split
        · omega
        · split <;> omega

theorem roundEven_neg (r : ℚ) : roundEven (-r) = -roundEven r := by
  by_cases hr : Int.fract r = 0
  · have : (⌊r⌋ : ℚ) = r := by have := Int.fract_add_floor r; linarith
    rw [← this, ← Int.cast_neg, roundEven_int, roundEven_int]
  · have h1 : Int.fract (-r) = 1 - Int.fract r := Int.fract_neg hr
    have h2 : ⌊-r⌋ = -⌊r⌋ - 1 := by
      have ha := Int.fract_add_floor r
      have hb := Int.fract_add_floor (-r)
      have : ((⌊-r⌋ : ℤ) : ℚ) = ((-⌊r⌋ - 1 : ℤ) : ℚ) := by push_cast; linarith
      exact_mod_cast this
    unfold roundEven
    rw [h1, h2]
    by_cases h3 : Int.fract r < 1 / 2
    · rw [if_pos h3, if_neg (by linarith), if_pos (by linarith)]; omega
    · rw [if_neg h3]
      by_cases h4 : 1 / 2 < Int.fract r
      · rw [if_pos h4, if_pos (by linarith)]; omega
      · rw [if_neg h4, if_neg (by linarith), if_neg (by linarith)]
        by_cases h5 : Even ⌊r⌋
        · rw [if_pos h5, if_neg (by rw [Int.even_sub_one, not_not, even_neg]; exact h5)]; omega
        · rw [if_neg h5, if_pos (by rw [Int.even_sub_one, even_neg]; exact h5)]; omega

/-- The rounded integer is within one half. -/
theorem roundEven_close (r : ℚ) : |(roundEven r : ℚ) - r| ≤ 1 / 2 := by
  have ha := Int.fract_add_floor r
  unfold roundEven
  rw [abs_le]
  have := Int.fract_nonneg r
  have := Int.fract_lt_one r
  split
  · constructor <;> linarith
  · split
    · push_cast; constructor <;> linarith
    · split
      · constructor <;> linarith
      · push_cast; constructor <;> linarith

theorem ulp_pos (p : Nat) (r : ℚ) : 0 < ulp p r := by unfold ulp; positivity

theorem ulp_neg (p : Nat) (r : ℚ) : ulp p (-r) = ulp p r := by unfold ulp; rw [abs_neg]

theorem roundNearest_neg (p : Nat) (r : ℚ) : roundNearest p (-r) = -roundNearest p r := by
  unfold roundNearest
  by_cases h : r = 0
  · simp [h]
  · rw [if_neg h, if_neg (by simpa using h), ulp_neg, neg_div, roundEven_neg]; push_cast; ring

theorem log_bounds {r : ℚ} (h : 0 < r) : (2 : ℚ) ^ Int.log 2 r ≤ r ∧ r < (2 : ℚ) ^ (Int.log 2 r + 1) :=
  ⟨by exact_mod_cast Int.zpow_log_le_self (by norm_num : 1 < 2) h,
   by exact_mod_cast Int.lt_zpow_succ_log_self (by norm_num : 1 < 2) r⟩

theorem log_unique {r : ℚ} {e : ℤ} (h1 : (2 : ℚ) ^ e ≤ r) (h2 : r < (2 : ℚ) ^ (e + 1)) : Int.log 2 r = e := by
  have hr : 0 < r := lt_of_lt_of_le (by positivity) h1
  obtain ⟨h3, h4⟩ := log_bounds hr
  have ha : e < Int.log 2 r + 1 := (zpow_lt_zpow_iff_right₀ (by norm_num : (1 : ℚ) < 2)).1 (lt_of_le_of_lt h1 h4)
  have hb : Int.log 2 r < e + 1 := (zpow_lt_zpow_iff_right₀ (by norm_num : (1 : ℚ) < 2)).1 (lt_of_le_of_lt h3 h2)
  omega

/-- A positive number rounds to between the powers of two around it. -/
theorem roundNearest_bounds {p : Nat} (hp : 1 ≤ p) {r : ℚ} (h : 0 < r) :
    (2 : ℚ) ^ Int.log 2 r ≤ roundNearest p r ∧ roundNearest p r ≤ (2 : ℚ) ^ (Int.log 2 r + 1) := by
  obtain ⟨h1, h2⟩ := log_bounds h
  set e := Int.log 2 r with he
  have hu : ulp p r = (2 : ℚ) ^ (e - (p : ℤ) + 1) := by unfold ulp; rw [abs_of_pos h]
  have hup := ulp_pos p r
  have e1 : (2 : ℚ) ^ e = ((2 ^ (p - 1) : ℤ) : ℚ) * ulp p r := by
    rw [hu]; push_cast; rw [← zpow_natCast, ← zpow_add₀ (by norm_num)]; congr 1; omega
  have e2 : (2 : ℚ) ^ (e + 1) = ((2 ^ p : ℤ) : ℚ) * ulp p r := by
    rw [hu]; push_cast; rw [← zpow_natCast, ← zpow_add₀ (by norm_num)]; congr 1; omega
  unfold roundNearest
  rw [if_neg h.ne']
  constructor
  · rw [e1]
    apply mul_le_mul_of_nonneg_right _ hup.le
    have : roundEven ((2 ^ (p - 1) : ℤ) : ℚ) ≤ roundEven (r / ulp p r) := by
      apply roundEven_mono
      rw [le_div_iff₀ hup, ← e1]; exact h1
    rw [roundEven_int] at this
    exact_mod_cast this
  · rw [e2]
    apply mul_le_mul_of_nonneg_right _ hup.le
    have : roundEven (r / ulp p r) ≤ roundEven ((2 ^ p : ℤ) : ℚ) := by
      apply roundEven_mono
      rw [div_le_iff₀ hup, ← e2]; exact h2.le
    rw [roundEven_int] at this
    exact_mod_cast this

theorem roundNearest_mono_pos {p : Nat} (hp : 1 ≤ p) {r s : ℚ} (h : 0 < r) (hs : r ≤ s) :
    roundNearest p r ≤ roundNearest p s := by
  have h0 : 0 < s := lt_of_lt_of_le h hs
  have hl : Int.log 2 r ≤ Int.log 2 s := Int.log_mono_right h hs
  rcases lt_or_eq_of_le hl with hl | hl
  · refine (roundNearest_bounds hp h).2.trans (le_trans ?_ (roundNearest_bounds hp h0).1)
    exact zpow_le_zpow_right₀ (by norm_num) (by omega)
  · have hu : ulp p r = ulp p s := by unfold ulp; rw [abs_of_pos h, abs_of_pos h0, hl]
    unfold roundNearest
    rw [if_neg h.ne', if_neg h0.ne', hu]
    apply mul_le_mul_of_nonneg_right _ (ulp_pos p s).le
    exact_mod_cast roundEven_mono (div_le_div_of_nonneg_right hs (ulp_pos p s).le)

theorem roundNearest_pos {p : Nat} (hp : 1 ≤ p) {r : ℚ} (h : 0 < r) : 0 < roundNearest p r :=
  lt_of_lt_of_le (by positivity) (roundNearest_bounds hp h).1

theorem roundNearest_fix {p : Nat} {r : ℚ} (h : Representable p r) : roundNearest p r = r := by
  by_cases h0 : r = 0
  · simp [roundNearest, h0]
  obtain ⟨m, e, hm, hr⟩ := h
  have hu := ulp_pos p r
  suffices hk : ∃ k : ℤ, r / ulp p r = k by
    obtain ⟨k, hk⟩ := hk
    unfold roundNearest
    rw [if_neg h0, hk, roundEven_int, ← hk]; field_simp
  have habs : |r| = |(m : ℚ)| * 2 ^ e := by rw [hr, abs_mul, abs_of_pos (by positivity : (0 : ℚ) < 2 ^ e)]
  have hpos : 0 < |r| := abs_pos.2 h0
  have hle : Int.log 2 |r| - (p : ℤ) + 1 ≤ e := by
    obtain ⟨h1, h2⟩ := log_bounds hpos
    have : |r| < (2 : ℚ) ^ ((p : ℤ) + e) := by
      rw [habs, zpow_add₀ (by norm_num)]
      apply mul_lt_mul_of_pos_right _ (by positivity)
      rw [zpow_natCast]
      exact_mod_cast hm
    have := (zpow_lt_zpow_iff_right₀ (by norm_num : (1 : ℚ) < 2)).1 (lt_of_le_of_lt h1 this)
    omega
  refine ⟨m * 2 ^ (e - (Int.log 2 |r| - (p : ℤ) + 1)).toNat, ?_⟩
  unfold ulp
  generalize Int.log 2 |r| - (p : ℤ) + 1 = k at hle
  rw [hr]
  push_cast
  rw [← zpow_natCast, Int.toNat_of_nonneg (by omega), zpow_sub₀ (by norm_num)]
  ring

/-- The default rounding is a rounding. -/
theorem roundNearest_isRounding {p : Nat} (hp : 1 ≤ p) : IsRounding p (roundNearest p) where
  mono := by
    intro r s h
    rcases lt_trichotomy r 0 with hr | hr | hr
    · rcases lt_trichotomy s 0 with hs | hs | hs
      · have := roundNearest_mono_pos hp (by linarith : 0 < -s) (by linarith : -s ≤ -r)
        rw [roundNearest_neg, roundNearest_neg] at this
        linarith
      · have := roundNearest_pos hp (by linarith : 0 < -r)
        rw [roundNearest_neg] at this
        rw [hs, roundNearest_fix (representable_zero p)]; linarith
      · have h1 := roundNearest_pos hp (by linarith : 0 < -r)
        have h2 := roundNearest_pos hp hs
        rw [roundNearest_neg] at h1
        linarith
    · subst hr
      rw [roundNearest_fix (representable_zero p)]
      rcases eq_or_lt_of_le h with hs | hs
      · rw [← hs, roundNearest_fix (representable_zero p)]
      · exact (roundNearest_pos hp hs).le
    · exact roundNearest_mono_pos hp hr h
  fix := fun _ h => roundNearest_fix h

/-! ### truncation -/

theorem truncZ_int (m : ℤ) : truncZ m = m := by unfold truncZ; simp

theorem truncZ_neg (r : ℚ) : truncZ (-r) = -truncZ r := by
  unfold truncZ
  rcases lt_trichotomy r 0 with h | h | h
  · rw [if_pos (by linarith), if_neg (by linarith), Int.floor_neg]
  · simp [h]
  · rw [if_neg (by linarith), if_pos (by linarith), Int.ceil_neg]

theorem truncZ_of_bounds {r : ℚ} {q : ℤ} (h0 : 0 ≤ q) (h1 : (q : ℚ) ≤ r) (h2 : r < q + 1) : truncZ r = q := by
  have : (0 : ℚ) ≤ q := by exact_mod_cast h0
  unfold truncZ
  rw [if_pos (by linarith), Int.floor_eq_iff]
  exact ⟨h1, h2⟩

/-- Between `X / Y` and the next integer there is a representable number. -/
theorem exists_representable_below (p X Y : Nat) (hY : 0 < Y) (h : 2 * (X + Y) ≤ 2 ^ p) :
    ∃ r : ℚ, Representable p r ∧ (X : ℚ) / Y ≤ r ∧ r < (X / Y : ℕ) + 1 := by
  set k := Nat.log2 Y + 1 with hk
  have h1 : Y < 2 ^ k := Nat.lt_log2_self
  have h2 : 2 ^ k ≤ 2 * Y := by rw [hk, pow_succ]; have := Nat.log2_self_le hY.ne'; omega
  have h3 : (X / Y + 1) * Y ≤ X + Y := by have := Nat.div_mul_le_self X Y; linarith [Nat.add_mul (X / Y) 1 Y]
  have h4 : X + 1 ≤ (X / Y + 1) * Y := by
    have := Nat.div_add_mod X Y
    have := Nat.mod_lt X hY
    rw [Nat.add_mul, Nat.mul_comm (X / Y) Y]; omega
  generalize X / Y = q at *
  have hk0 : (0 : ℚ) < 2 ^ k := by positivity
  have hYq : (0 : ℚ) < Y := by exact_mod_cast hY
  refine ⟨((q : ℚ) + 1) - 1 / 2 ^ k, ⟨((q : ℤ) + 1) * 2 ^ k - 1, -(k : ℤ), ?_, ?_⟩, ?_, ?_⟩
  · have h5 : (q + 1) * 2 ^ k ≤ 2 ^ p := by
      calc (q + 1) * 2 ^ k ≤ (q + 1) * (2 * Y) := Nat.mul_le_mul_left _ h2
        _ = 2 * ((q + 1) * Y) := by ring
        _ ≤ 2 ^ p := by omega
    have h6 : 1 ≤ (q + 1) * 2 ^ k := Nat.mul_pos (by omega) (by positivity)
    have h5' : ((q : ℤ) + 1) * 2 ^ k ≤ 2 ^ p := by exact_mod_cast h5
    have h6' : (1 : ℤ) ≤ ((q : ℤ) + 1) * 2 ^ k := by exact_mod_cast h6
    rw [abs_of_nonneg (by omega)]; omega
  · push_cast; rw [zpow_neg, zpow_natCast]; field_simp
  · have h5 : (1 : ℚ) / 2 ^ k ≤ 1 / Y := by
      apply one_div_le_one_div_of_le hYq
      exact_mod_cast h1.le
    have h6 : (X : ℚ) / Y + 1 / Y ≤ q + 1 := by
      rw [← add_div, div_le_iff₀ hYq]; exact_mod_cast h4
    linarith
  · have : (0 : ℚ) < 1 / 2 ^ k := by positivity
    linarith

theorem rounded_quotient_nat {p : Nat} {R : ℚ → ℚ} (hR : IsRounding p R) (X Y : Nat) (hY : 0 < Y)
    (h : 2 * (X + Y) ≤ 2 ^ p) :
    ((X / Y : ℕ) : ℚ) ≤ R ((X : ℚ) / Y) ∧ R ((X : ℚ) / Y) < (X / Y : ℕ) + 1 := by
  obtain ⟨r, h1, h2, h3⟩ := exists_representable_below p X Y hY h
  constructor
  · have hq : R ((X / Y : ℕ) : ℚ) = ((X / Y : ℕ) : ℚ) := by
      have := hR.int ((X / Y : ℕ) : ℤ) (by
        have h1 : X / Y ≤ X := Nat.div_le_self X Y
        have h2 : X / Y < 2 ^ p := by omega
        rw [abs_of_nonneg (by positivity)]; exact_mod_cast h2)
      exact_mod_cast this
    rw [← hq]
    exact hR.mono Nat.cast_div_le
  · exact lt_of_le_of_lt (hR.mono h2) (by rw [hR.fix r h1]; exact h3)

theorem rounded_quotient_neg {p : Nat} {R : ℚ → ℚ} (hR : IsRounding p R) (X Y : Nat) (hY : 0 < Y)
    (h : 2 * (X + Y) ≤ 2 ^ p) : truncZ (R (-((X : ℚ) / Y))) = -((X / Y : ℕ) : ℤ) := by
  have hR' : IsRounding p (fun r => -R (-r)) :=
    ⟨fun a b hab => neg_le_neg (hR.mono (neg_le_neg hab)), fun r hr => by
      show -R (-r) = r
      rw [hR.fix _ hr.neg]; ring⟩
  obtain ⟨h1, h2⟩ := rounded_quotient_nat hR' X Y hY h
  have := truncZ_of_bounds (q := ((X / Y : ℕ) : ℤ)) (by positivity) (by exact_mod_cast h1) (by exact_mod_cast h2)
  rw [truncZ_neg] at this
  omega

/-- Truncating the rounded quotient of two integers gives the C++ quotient, whatever the rounding direction. -/
theorem rounded_quotient {p : Nat} {R : ℚ → ℚ} (hR : IsRounding p R) (x y : ℤ) (hy : y ≠ 0)
    (h : 2 * (x.natAbs + y.natAbs) ≤ 2 ^ p) : truncZ (R ((x : ℚ) / y)) = x.tdiv y := by
  have hpos : ∀ X Y : Nat, 0 < Y → 2 * (X + Y) ≤ 2 ^ p → truncZ (R ((X : ℚ) / Y)) = ((X / Y : ℕ) : ℤ) := by
    intro X Y hY h
    obtain ⟨h1, h2⟩ := rounded_quotient_nat hR X Y hY h
    exact truncZ_of_bounds (by positivity) (by exact_mod_cast h1) (by exact_mod_cast h2)
  have hneg := fun X Y hY h => rounded_quotient_neg hR X Y hY h
  obtain ⟨X, rfl | rfl⟩ := x.eq_nat_or_neg <;> obtain ⟨Y, rfl | rfl⟩ := y.eq_nat_or_neg <;>
    simp only [Int.natAbs_neg, Int.natAbs_natCast] at h <;>
    have hY : 0 < Y := by omega
  · have := hpos X Y hY h
    rw [show ((X : ℤ) : ℚ) = X by simp, show ((Y : ℤ) : ℚ) = Y by simp, this]; simp
  · have := hneg X Y hY h
    rw [show ((X : ℤ) : ℚ) / ((-(Y : ℤ) : ℤ) : ℚ) = -((X : ℚ) / Y) by push_cast; rw [div_neg], this, Int.tdiv_neg]; simp
  · have := hneg X Y hY h
    rw [show ((-(X : ℤ) : ℤ) : ℚ) / ((Y : ℤ) : ℚ) = -((X : ℚ) / Y) by push_cast; rw [neg_div], this, Int.neg_tdiv]; simp
  · have := hpos X Y hY h
    rw [show ((-(X : ℤ) : ℤ) : ℚ) / ((-(Y : ℤ) : ℤ) : ℚ) = (X : ℚ) / Y by push_cast; rw [neg_div_neg_eq], this, Int.neg_tdiv,
      Int.tdiv_neg]; simp

end StdSimd.Spec
