import Verif.Model.Ldexp
import Verif.Spec.Ldexp
import Verif.Spec.FloatMath
import Verif.Proofs.X86FloatConvertErr
/-! # `ldexp` with `scalef`: rounding the exponent does not change the result -/
namespace StdSimd.Ldexp
open Spec FloatBits Math

variable {f : Fmt}

/-- Formats whose integers have enough bits for all exponents of the format, and that contain all `int`s. -/
structure Wide (f : Fmt) : Prop where
  ok : f.Ok
  small : f.mbits < f.bias
  range : 2 * f.bias + f.mbits + 1 ≤ 2 ^ (f.mbits + 1)
  int : 31 ≤ f.bias

/-! ## numbers out of range -/

theorem toInt_ge (m : RMode) {q : ℚ} {n : ℤ} (h : (n : ℚ) ≤ |q|) : n ≤ |m.toInt q| := by
  rcases le_total 0 q with h0 | h0
  · rw [abs_of_nonneg h0] at h
    have := toInt_mono m h
    rw [toInt_int] at this
    exact this.trans (le_abs_self _)
  · rw [abs_of_nonpos h0] at h
    have h1 : q ≤ ((-n : ℤ) : ℚ) := by push_cast; linarith
    have := toInt_mono m h1
    rw [toInt_int] at this
    have h2 := neg_le_abs (m.toInt q)
    omega

theorem roundTo_ge (m : RMode) {q : ℚ} {k : ℤ} (hk : f.emin + f.mbits ≤ k) (h : (2 : ℚ) ^ k ≤ |q|) : (2 : ℚ) ^ k ≤ |f.roundTo m q| := by
  have h0 : q ≠ 0 := by
    rintro rfl
    rw [abs_zero] at h
    exact absurd h (not_le.2 (by positivity))
  have hl : k ≤ Int.log 2 |q| := (Int.zpow_le_iff_le_log (by norm_num) (abs_pos.2 h0)).1 (by exact_mod_cast h)
  have he : f.qexp q = Int.log 2 |q| - f.mbits := by
    unfold Fmt.qexp
    exact max_eq_left (by omega)
  unfold Fmt.roundTo
  rw [he, abs_mul, abs_of_pos (a := (2 : ℚ) ^ (Int.log 2 |q| - f.mbits)) (by positivity)]
  have h1 : ((2 ^ f.mbits : ℤ) : ℚ) ≤ |q / 2 ^ (Int.log 2 |q| - f.mbits)| := by
    rw [abs_div, abs_of_pos (a := (2 : ℚ) ^ (Int.log 2 |q| - f.mbits)) (by positivity), le_div_iff₀ (by positivity)]
    have := (abs_zpow_log h0).1
    rw [zpow_sub₀ (by norm_num)]
    push_cast
    rw [zpow_natCast, mul_div_cancel₀ _ (by positivity)]
    exact this
  have h2 := toInt_ge m h1
  have h3 : ((2 ^ f.mbits : ℤ) : ℚ) ≤ |(m.toInt (q / 2 ^ (Int.log 2 |q| - f.mbits)) : ℚ)| := by exact_mod_cast h2
  calc (2 : ℚ) ^ k ≤ 2 ^ Int.log 2 |q| := zpow_le_zpow_right₀ (by norm_num) hl
    _ = ((2 ^ f.mbits : ℤ) : ℚ) * 2 ^ (Int.log 2 |q| - f.mbits) := by
      rw [zpow_sub₀ (by norm_num)]
      push_cast
      rw [zpow_natCast, mul_div_cancel₀ _ (by positivity)]
    _ ≤ _ := mul_le_mul_of_nonneg_right h3 (by positivity)

theorem roundTo_le (m : RMode) {q : ℚ} {k : ℤ} (hk : f.emin ≤ k) (h : |q| ≤ (2 : ℚ) ^ k) : |f.roundTo m q| ≤ (2 : ℚ) ^ k := by
  by_cases h0 : q = 0
  · subst h0
    have a := (roundTo_sign (f := f) m).1 (le_refl 0)
    have b := (roundTo_sign (f := f) m).2 (le_refl 0)
    rw [le_antisymm b a, abs_zero]
    positivity
  have hl : Int.log 2 |q| ≤ k := by
    exact (zpow_le_zpow_iff_right₀ (a := (2 : ℚ)) (by norm_num)).1 ((abs_zpow_log h0).1.trans h)
  have he : f.qexp q ≤ k := by
    unfold Fmt.qexp
    exact max_le (by omega) hk
  obtain ⟨j, hj⟩ := Int.eq_ofNat_of_zero_le (sub_nonneg.2 he)
  have hp : (2 : ℚ) ^ k = 2 ^ j * 2 ^ f.qexp q := by
    rw [← zpow_natCast, ← zpow_add₀ (by norm_num)]
    congr 1
    have : k - f.qexp q = (j : ℤ) := hj
    omega
  have h1 : |q / 2 ^ f.qexp q| ≤ ((2 ^ j : ℤ) : ℚ) := by
    rw [abs_div, abs_of_pos (a := (2 : ℚ) ^ f.qexp q) (by positivity), div_le_iff₀ (by positivity)]
    push_cast
    rw [← hp]; exact h
  have h2 := toInt_abs_le m _ _ h1
  have h3 : |(m.toInt (q / 2 ^ f.qexp q) : ℚ)| ≤ ((2 ^ j : ℤ) : ℚ) := by exact_mod_cast h2
  unfold Fmt.roundTo
  rw [abs_mul, abs_of_pos (a := (2 : ℚ) ^ f.qexp q) (by positivity), hp]
  push_cast at h3
  exact mul_le_mul_of_nonneg_right h3 (by positivity)

/-- A result too big for the format depends only on the sign. -/
theorem round_big (hf : f.Ok) (m : RMode) (zs : Bool) {q : ℚ} (h : 2 ^ (f.bias + 1) ≤ |q|) :
    f.round m zs q = f.ofMag (decide (q < 0)) (if Fmt.overflowInf m (decide (q < 0)) then f.infMag else f.infMag - 1) := by
  have h0 : q ≠ 0 := by
    rintro rfl
    rw [abs_zero] at h
    exact absurd h (not_le.2 (by positivity))
  have h1 : (2 : ℚ) ^ (f.bias + 1) ≤ |f.roundTo m q| := by
    have := roundTo_ge (f := f) m (k := (f.bias + 1 : ℕ)) (by unfold Fmt.emin; push_cast; have := (bias_eq hf).2; omega) (by rw [zpow_natCast]; exact h)
    rwa [zpow_natCast] at this
  have h2 : ¬ f.encode |f.roundTo m q| < inf f := by
    rw [encode_lt_inf hf (rep_roundTo m q).abs (abs_nonneg _)]
    exact not_lt.2 h1
  unfold Fmt.round
  dsimp only
  rw [if_neg h0, infMag_eq, if_neg h2]

theorem toInt_tiny (m : RMode) {a b : ℚ} (ha : |a| < 1 / 2) (hb : |b| < 1 / 2) (h0 : a ≠ 0) (h : decide (a < 0) = decide (b < 0)) (h1 : b ≠ 0) :
    m.toInt a = m.toInt b := by
  have key : ∀ c : ℚ, |c| < 1 / 2 → c ≠ 0 → roundEven c = 0 ∧ ⌊c⌋ = (if c < 0 then -1 else 0) ∧ ⌈c⌉ = (if c < 0 then 0 else 1) ∧ truncZ c = 0 := by
    intro c hc hn
    rw [abs_lt] at hc
    have hfl : ⌊c⌋ = (if c < 0 then -1 else 0) := by
      split <;> rw [Int.floor_eq_iff] <;> push_cast <;> constructor <;> linarith
    have hce : ⌈c⌉ = (if c < 0 then 0 else 1) := by
      have := lt_or_gt_of_ne hn
      split <;> rw [Int.ceil_eq_iff] <;> push_cast <;> constructor <;> rcases this with h | h <;> linarith
    refine ⟨?_, hfl, hce, ?_⟩
    · unfold roundEven
      have hfr : Int.fract c = c - ⌊c⌋ := rfl
      rw [hfr, hfl]
      rcases lt_or_gt_of_ne hn with h | h
      · rw [if_pos h, if_neg (by push_cast; linarith), if_pos (by push_cast; linarith)]
        norm_num
      · rw [if_neg h.not_gt, if_pos (by push_cast; linarith)]
    · unfold truncZ
      rcases lt_or_gt_of_ne hn with h | h
      · rw [if_neg h.not_ge, hce, if_pos h]
      · rw [if_pos h.le, hfl, if_neg h.not_gt]
  obtain ⟨a1, a2, a3, a4⟩ := key a ha h0
  obtain ⟨b1, b2, b3, b4⟩ := key b hb h1
  have hi : (a < 0) ↔ (b < 0) := by simpa using h
  cases m
  · exact a1.trans b1.symm
  · show ⌊a⌋ = ⌊b⌋
    rw [a2, b2]; simp only [hi]
  · show ⌈a⌉ = ⌈b⌉
    rw [a3, b3]; simp only [hi]
  · exact a4.trans b4.symm

/-- A result far below the smallest number depends only on the sign. -/
theorem round_tiny (m : RMode) (zs : Bool) {a b : ℚ} (ha : |a| < 2 ^ (f.emin - 1)) (hb : |b| < 2 ^ (f.emin - 1)) (h0 : a ≠ 0) (h1 : b ≠ 0)
    (h : decide (a < 0) = decide (b < 0)) : f.round m zs a = f.round m zs b := by
  have key : ∀ c : ℚ, |c| < 2 ^ (f.emin - 1) → c ≠ 0 → f.qexp c = f.emin ∧ |c / 2 ^ f.emin| < 1 / 2 := by
    intro c hc hn
    constructor
    · have : Int.log 2 |c| < f.emin - 1 := (Int.lt_zpow_iff_log_lt (by norm_num) (abs_pos.2 hn)).1 (by exact_mod_cast hc)
      unfold Fmt.qexp
      exact max_eq_right (by omega)
    · rw [abs_div, abs_of_pos (a := (2 : ℚ) ^ f.emin) (by positivity), div_lt_iff₀ (by positivity)]
      rw [zpow_sub_one₀ (by norm_num)] at hc
      linarith
  obtain ⟨a1, a2⟩ := key a ha h0
  obtain ⟨b1, b2⟩ := key b hb h1
  have hs : ∀ c : ℚ, decide (c / 2 ^ f.emin < 0) = decide (c < 0) := by
    intro c
    rw [decide_eq_decide]
    constructor
    · intro hc
      by_contra hc2
      exact absurd hc (not_lt.2 (div_nonneg (not_lt.1 hc2) (by positivity)))
    · intro hc
      exact div_neg_of_neg_of_pos hc (by positivity)
  have ht := toInt_tiny m a2 b2 (by positivity) (by rw [hs, hs, h]) (by positivity)
  unfold Fmt.round Fmt.roundTo
  dsimp only
  rw [a1, b1, ht, if_neg h0, if_neg h1, h]

/-! ## scaling -/

theorem ratValue_ge (hf : f.Ok) {x : f.Bits} (h : f.isFinite x) (h0 : f.ratValue x ≠ 0) : (2 : ℚ) ^ f.emin ≤ |f.ratValue x| := by
  obtain ⟨n, e, h1, h2, h3⟩ := rep_ratValue hf x
  have hn : n ≠ 0 := by
    rintro rfl
    apply h0
    rw [h3]; simp
  have : (1 : ℚ) ≤ |(n : ℚ)| := by exact_mod_cast Int.one_le_abs hn
  rw [h3, abs_mul, abs_of_pos (a := (2 : ℚ) ^ e) (by positivity)]
  calc (2 : ℚ) ^ f.emin ≤ 2 ^ e := zpow_le_zpow_right₀ (by norm_num) h2
    _ = 1 * 2 ^ e := (one_mul _).symm
    _ ≤ _ := mul_le_mul_of_nonneg_right this (by positivity)

theorem scale_sign (v : ℚ) (e : ℤ) : decide (v * 2 ^ e < 0) = decide (v < 0) := by
  rw [decide_eq_decide]
  have : (0 : ℚ) < 2 ^ e := by positivity
  constructor
  · intro h
    by_contra h2
    exact absurd h (not_lt.2 (mul_nonneg (not_lt.1 h2) this.le))
  · intro h
    exact mul_neg_of_neg_of_pos h this

/-- Scaling by a huge exponent gives the same result as by any other huge exponent of the same sign. -/
theorem round_huge (g : Wide f) (m : RMode) (zs : Bool) {x : f.Bits} (hx : f.isFinite x) (h0 : f.ratValue x ≠ 0) {e e' : ℤ}
    (he : 2 ^ (f.mbits + 1) ≤ |e|) (he' : 2 ^ (f.mbits + 1) ≤ |e'|) (hs : e < 0 ↔ e' < 0) :
    f.round m zs (f.ratValue x * 2 ^ e) = f.round m zs (f.ratValue x * 2 ^ e') := by
  have hr : (2 * f.bias + f.mbits + 1 : ℤ) ≤ 2 ^ (f.mbits + 1) := by exact_mod_cast g.range
  have hlo := ratValue_ge g.ok hx h0
  have hhi := ratValue_lt g.ok hx
  by_cases hn : e < 0
  · have hn' := hs.1 hn
    rw [abs_of_neg hn] at he
    rw [abs_of_neg hn'] at he'
    have key : ∀ k : ℤ, 2 ^ (f.mbits + 1) ≤ -k → |f.ratValue x * 2 ^ k| < 2 ^ (f.emin - 1) := by
      intro k hk
      rw [abs_mul, abs_of_pos (a := (2 : ℚ) ^ k) (by positivity)]
      calc |f.ratValue x| * 2 ^ k < 2 ^ (f.bias + 1) * 2 ^ k := mul_lt_mul_of_pos_right hhi (by positivity)
        _ = 2 ^ ((f.bias + 1 : ℕ) + k) := by rw [zpow_add₀ (by norm_num), zpow_natCast]
        _ ≤ _ := zpow_le_zpow_right₀ (by norm_num) (by unfold Fmt.emin; push_cast; omega)
    exact round_tiny m zs (key e he) (key e' he') (by positivity) (by positivity) (by rw [scale_sign, scale_sign])
  · have hn' : ¬ e' < 0 := fun h => hn (hs.2 h)
    rw [abs_of_nonneg (not_lt.1 hn)] at he
    rw [abs_of_nonneg (not_lt.1 hn')] at he'
    have key : ∀ k : ℤ, 2 ^ (f.mbits + 1) ≤ k → 2 ^ (f.bias + 1) ≤ |f.ratValue x * 2 ^ k| := by
      intro k hk
      rw [abs_mul, abs_of_pos (a := (2 : ℚ) ^ k) (by positivity)]
      calc (2 : ℚ) ^ (f.bias + 1) = 2 ^ ((f.bias + 1 : ℕ) : ℤ) := (zpow_natCast _ _).symm
        _ ≤ 2 ^ (f.emin + k) := zpow_le_zpow_right₀ (by norm_num) (by unfold Fmt.emin; push_cast; omega)
        _ = 2 ^ f.emin * 2 ^ k := zpow_add₀ (by norm_num) _ _
        _ ≤ _ := mul_le_mul_of_nonneg_right hlo (by positivity)
    rw [round_big g.ok m zs (key e he), round_big g.ok m zs (key e' he'), scale_sign, scale_sign]

variable (env : f.Env)

/-- The converted exponent: an integer, the exponent itself if it fits into the significand, otherwise still huge. -/
theorem exponent_value (g : Wide f) (e : BitVec 32) : ∃ k : ℤ, f.isFinite (Fmt.ofInt env e.toInt) ∧ f.ratValue (Fmt.ofInt env e.toInt) = k ∧
    (|e.toInt| ≤ 2 ^ (f.mbits + 1) → k = e.toInt) ∧
    (2 ^ (f.mbits + 1) ≤ |e.toInt| → 2 ^ (f.mbits + 1) ≤ |k| ∧ (e.toInt < 0 ↔ k < 0)) := by
  have he : |e.toInt| ≤ 2 ^ 31 := by
    have h1 := BitVec.le_toInt e
    have h2 := BitVec.toInt_lt (x := e)
    rw [abs_le]; norm_num at *; omega
  generalize e.toInt = n at he ⊢
  by_cases hs : |n| ≤ 2 ^ (f.mbits + 1)
  · have := Rounding.ofInt_num (env := env) g.ok g.small hs
    refine ⟨n, this.finite, this.value, fun _ => rfl, fun h => ⟨h, Iff.rfl⟩⟩
  · have hb : 2 ^ (f.mbits + 1) ≤ |n| := by omega
    obtain ⟨k, hk⟩ := X86FloatConvert.roundTo_int (f := f) env.mode n
    have hnq : ((2 ^ (f.mbits + 1) : ℤ) : ℚ) ≤ |(n : ℚ)| := by exact_mod_cast hb
    have hge := roundTo_ge (f := f) env.mode (q := n) (k := (f.mbits + 1 : ℕ))
      (by have := emin_le g.ok; push_cast; omega) (by rw [zpow_natCast]; exact_mod_cast hnq)
    have hlt : |f.roundTo env.mode n| < 2 ^ (f.bias + 1) := by
      have h31 : |(n : ℚ)| ≤ 2 ^ (31 : ℤ) := by
        have : ((|n| : ℤ) : ℚ) ≤ ((2 ^ 31 : ℤ) : ℚ) := by exact_mod_cast he
        rw [Int.cast_abs] at this
        refine this.trans (le_of_eq (by norm_num))
      refine (roundTo_le env.mode (by have := emin_le g.ok; omega) h31).trans_lt ?_
      rw [← zpow_natCast]
      exact zpow_lt_zpow_right₀ (by norm_num) (by have := g.int; push_cast; omega)
    have hsp := round_spec g.ok env.mode false hlt
    refine ⟨k, hsp.finite, hsp.value.trans hk, fun h => absurd h hs, fun _ => ⟨?_, ?_⟩⟩
    · rw [hk, zpow_natCast] at hge
      exact_mod_cast hge
    · have hs1 := (roundTo_sign (f := f) env.mode (q := n)).1
      have hs2 := (roundTo_sign (f := f) env.mode (q := n)).2
      rw [hk] at hge hs1 hs2
      have hk0 : k ≠ 0 := by
        rintro rfl
        rw [Int.cast_zero, abs_zero] at hge
        exact absurd hge (not_le.2 (by positivity))
      constructor
      · intro h
        have : (k : ℚ) ≤ 0 := hs2 (by exact_mod_cast h.le)
        have : k ≤ 0 := by exact_mod_cast this
        omega
      · intro h
        by_contra h2
        have : (0 : ℚ) ≤ k := hs1 (by exact_mod_cast not_lt.1 h2)
        have : 0 ≤ k := by exact_mod_cast this
        omega

theorem isZero_ratValue (hf : f.Ok) {x : f.Bits} (h : f.ratValue x = 0) (hx : f.isFinite x) : f.isZero x :=
  (Hypot.num_zero hf ⟨hx, h, rfl⟩).2 rfl

theorem scalef_spec (g : Wide f) (x : f.Bits) (e : BitVec 32) : Fmt.IsLdexp env x e.toInt (scalef env x (Fmt.ofInt env e.toInt)) := by
  obtain ⟨k, hfin, hval, h1, h2⟩ := exponent_value env g e
  obtain ⟨n1, n2⟩ := finite_not g.ok hfin
  constructor
  · intro hx hz
    obtain ⟨n3, n4⟩ := finite_not g.ok hx
    unfold scalef
    rw [if_neg (by tauto), if_neg n2, if_neg (by tauto), hval, Int.floor_intCast]
    by_cases hs : |e.toInt| ≤ 2 ^ (f.mbits + 1)
    · rw [h1 hs]
    · obtain ⟨h3, h4⟩ := h2 (by omega)
      exact (round_huge g _ _ hx (fun h => hz (isZero_ratValue g.ok h hx)) (by omega) h3 h4).symm
  · intro h
    have hn : ¬ f.isNaN x := by
      unfold Fmt.isZero Fmt.isInf Fmt.isNaN at *
      tauto
    unfold scalef
    rw [if_neg (by tauto), if_neg n2, if_pos (by tauto)]
  · intro h
    unfold scalef
    rw [if_pos (Or.inl h)]
    exact env.isNaN _ _

theorem scale_exact (hf : f.Ok) {x y r : f.Bits} {e : ℤ} (h : Fmt.IsLdexp env x e r) (hx : f.isFinite x) (hy : f.isFinite y)
    (hv : f.ratValue y = f.ratValue x * 2 ^ e) (hs : f.sign y = f.sign x) : r = y := by
  by_cases hz : f.isZero x
  · rw [h.special (Or.inl hz)]
    refine finite_ext hs.symm ?_
    rw [hv, (Hypot.num_zero hf ⟨hx, rfl, rfl⟩).1 hz, zero_mul]
  · rw [h.number hx hz, ← hv]
    have hb := round_exact hf env.mode (f.sign x) (rep_ratValue hf y) (ratValue_lt hf hy)
    refine finite_ext ?_ hb.value
    rw [hb.sign, hs]
    have h0 : f.ratValue y ≠ 0 := by
      rw [hv]
      have : f.ratValue x ≠ 0 := fun h => hz (isZero_ratValue hf h hx)
      positivity
    rw [if_neg h0]
    rcases lt_or_gt_of_ne h0 with h1 | h1
    · rw [decide_eq_true h1, ← hs]
      exact ((Rounding.sign_of_value (x := y)).2 h1).symm
    · rw [decide_eq_false h1.not_gt, ← hs]
      exact ((Rounding.sign_of_value (x := y)).1 h1).symm

theorem frexp_inverse (hf : f.Ok) {x m r : f.Bits} {e : ℤ} (h1 : f.IsFrexp x m e) (h2 : Fmt.IsLdexp env m e r) (hn : ¬ f.isNaN x) : r = x := by
  by_cases hx : f.isFinite x
  · by_cases hz : f.isZero x
    · rw [(h1.zero hz).1] at h2
      exact h2.special (Or.inl hz)
    · obtain ⟨a, b, -, d⟩ := h1.number hx hz
      refine scale_exact env hf h2 a hx d.symm ?_
      have hm : f.ratValue m ≠ 0 := by
        rintro h
        rw [h, abs_zero] at b
        norm_num at b
      have hp : (0 : ℚ) < 2 ^ e := by positivity
      rcases lt_or_gt_of_ne hm with h | h
      · rw [(Rounding.sign_of_value (x := m)).2 h, (Rounding.sign_of_value (x := x)).2 (by rw [← d]; exact mul_neg_of_neg_of_pos h hp)]
      · rw [(Rounding.sign_of_value (x := m)).1 h, (Rounding.sign_of_value (x := x)).1 (by rw [← d]; exact mul_pos h hp)]
  · rw [h1.other hx] at h2
    refine h2.special (Or.inr ?_)
    unfold Fmt.isInf Fmt.isFinite Fmt.isNaN at *
    tauto

end StdSimd.Ldexp
