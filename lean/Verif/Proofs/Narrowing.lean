import Verif.Model.Narrowing
import Verif.Proofs.FloatArith
/-!
# Lemmas about the conversion traits
-/
namespace StdSimd.Narrowing
open Spec FloatBits

variable {p : Platform}

/-! ## formats -/

theorem bias_mono {f g : Fmt} (h : f.ebits ≤ g.ebits) : f.bias ≤ g.bias := by
  unfold Fmt.bias
  have : (2 : ℕ) ^ (f.ebits - 1) ≤ 2 ^ (g.ebits - 1) := Nat.pow_le_pow_right (by norm_num) (by omega)
  omega

theorem ok_within {f g : Fmt} (h : f.Ok) (hw : f.Within g) : g.Ok := ⟨le_trans h.1 hw.1, le_trans h.2 hw.2⟩

/-- What is known of the floating-point types. -/
structure FOk (p : Platform) (f : Fmt) : Prop where
  ok : f.Ok
  exp : f.mbits < f.bias
  range : p.llongW ≤ f.bias

theorem fOk (h : p.Ok) {t : CType} {f : Fmt} (hk : p.kind t = .float f) : FOk p f := by
  have hd := ok_within h.flt h.dbl
  have hl := ok_within hd h.ldbl
  have b1 := bias_mono h.dbl.1
  have b2 := bias_mono h.ldbl.1
  have := h.range
  cases t <;> simp only [Platform.kind, Kind.float.injEq, reduceCtorEq] at hk <;> subst hk
  · exact ⟨h.flt, h.fltExp, this⟩
  · exact ⟨hd, h.dblExp, by omega⟩
  · exact ⟨hl, h.ldblExp, by omega⟩

theorem iOk (h : p.Ok) {t : CType} {s : Bool} {w : Nat} (hk : p.kind t = .int s w) : 8 ≤ w ∧ w ≤ p.llongW := by
  have := h.short; have := h.int; have := h.long; have := h.llong; have := h.llong64; have := h.wchar; have := h.wchar'
  cases t <;> simp only [Platform.kind, Kind.int.injEq, reduceCtorEq] at hk <;> obtain ⟨-, rfl⟩ := hk <;> omega

/-! ## values -/

/-- The finite values of a format. -/
def InFmt (f : Fmt) (q : ℚ) : Prop := Rep f q ∧ |q| < 2 ^ (f.bias + 1)

theorem inFmt_iff {f : Fmt} (hf : f.Ok) (q : ℚ) : InFmt f q ↔ ∃ x : f.Bits, f.isFinite x ∧ f.ratValue x = q := by
  constructor
  · rintro ⟨h1, h2⟩
    have := round_exact hf .nearest false h1 h2
    exact ⟨_, this.1, this.2⟩
  · rintro ⟨x, h1, rfl⟩
    exact ⟨rep_ratValue hf x, ratValue_lt hf h1⟩

theorem value_finite {f : Fmt} (hf : f.Ok) {x : f.Bits} (h : f.isFinite x) :
    f.value x = some ((f.ratValue x : WithTop ℚ) : WithBot (WithTop ℚ)) := by
  obtain ⟨a, b⟩ := finite_not hf h
  unfold Fmt.value; rw [if_neg a, if_neg b]

theorem exists_value {f : Fmt} (hf : f.Ok) (q : ℚ) :
    (∃ x : f.Bits, f.value x = some ((q : WithTop ℚ) : WithBot (WithTop ℚ))) ↔ InFmt f q := by
  rw [inFmt_iff hf]
  constructor
  · rintro ⟨x, h⟩
    have h' := h
    unfold Fmt.value at h
    split at h
    · simp at h
    · split at h
      · split at h
        · simp at h
        · simp only [Option.some.injEq, WithBot.coe_inj] at h
          exact absurd h (by simp)
      · rename_i a b
        have hx : f.isFinite x := by
          unfold Fmt.isFinite; unfold Fmt.isNaN at a; unfold Fmt.isInf at b; tauto
        refine ⟨x, hx, ?_⟩
        simp only [Option.some.injEq, WithBot.coe_inj, WithTop.coe_inj] at h
        exact h
  · rintro ⟨x, h, rfl⟩
    exact ⟨x, value_finite hf h⟩

/-- Infinities and NaN are values of every format. -/
theorem exists_special {f : Fmt} (hf : f.Ok) (v : Option (WithBot (WithTop ℚ)))
    (hv : v = none ∨ v = some ⊥ ∨ v = some ((⊤ : WithTop ℚ) : WithBot (WithTop ℚ))) : ∃ x : f.Bits, f.value x = v := by
  have hi := (inf_lt hf).1
  have hi' : inf f + 1 < 2 ^ (f.ebits + f.mbits) := by
    have h1 := hf.2
    unfold inf
    have h2 : 2 ≤ 2 ^ f.mbits := by
      calc 2 = 2 ^ 1 := rfl
        _ ≤ 2 ^ f.mbits := Nat.pow_le_pow_right (by norm_num) h1
    have h3 := Nat.two_pow_pos f.ebits
    rw [Nat.pow_add, Nat.sub_mul]
    have : 2 ^ f.mbits ≤ 2 ^ f.ebits * 2 ^ f.mbits := Nat.le_mul_of_pos_left _ h3
    omega
  have inf_val : ∀ s, f.isInf (f.ofMag s (inf f)) ∧ ¬ f.isNaN (f.ofMag s (inf f)) := by
    intro s
    rw [isInf_iff, isNaN_iff, mag_ofMag s hi]; omega
  rcases hv with rfl | rfl | rfl
  · refine ⟨f.ofMag false (inf f + 1), ?_⟩
    unfold Fmt.value
    rw [if_pos (by rw [isNaN_iff, mag_ofMag false hi']; omega)]
  · refine ⟨f.ofMag true (inf f), ?_⟩
    obtain ⟨a, b⟩ := inf_val true
    unfold Fmt.value
    rw [if_neg b, if_pos a, sign_ofMag true hi]; rfl
  · refine ⟨f.ofMag false (inf f), ?_⟩
    obtain ⟨a, b⟩ := inf_val false
    unfold Fmt.value
    rw [if_neg b, if_pos a, sign_ofMag false hi]; rfl

/-- An odd significand has at most the format's number of digits. -/
theorem odd_rep {f : Fmt} {n e : ℤ} (hn : Odd n) (h : Rep f (n * 2 ^ e)) : |n| < 2 ^ (f.mbits + 1) := by
  obtain ⟨m, k, h1, -, h2⟩ := h
  by_cases hke : k ≤ e
  · have : (n : ℚ) * 2 ^ (e - k).toNat = m := by
      have h3 : (2 : ℚ) ^ k ≠ 0 := by positivity
      have h4 : (2 : ℚ) ^ e = 2 ^ (e - k).toNat * 2 ^ k := by
        rw [← zpow_natCast, ← zpow_add₀ (by norm_num), Int.toNat_of_nonneg (by omega)]; congr 1; omega
      rw [h4, ← mul_assoc] at h2
      exact mul_right_cancel₀ h3 h2
    have h5 : n * 2 ^ (e - k).toNat = m := by exact_mod_cast this
    rw [← h5, abs_mul] at h1
    have h6 : 1 ≤ |(2 : ℤ) ^ (e - k).toNat| := by rw [abs_of_pos (by positivity)]; exact one_le_pow₀ (by norm_num)
    have := abs_nonneg n
    nlinarith
  · exfalso
    have : (n : ℚ) = m * 2 ^ (k - e).toNat := by
      have h3 : (2 : ℚ) ^ e ≠ 0 := by positivity
      have h4 : (2 : ℚ) ^ k = 2 ^ (k - e).toNat * 2 ^ e := by
        rw [← zpow_natCast, ← zpow_add₀ (by norm_num), Int.toNat_of_nonneg (by omega)]; congr 1; omega
      rw [h4, ← mul_assoc] at h2
      exact mul_right_cancel₀ h3 h2
    have h5 : n = m * 2 ^ (k - e).toNat := by exact_mod_cast this
    obtain ⟨j, hj⟩ : ∃ j, (k - e).toNat = j + 1 := ⟨(k - e).toNat - 1, by omega⟩
    rw [hj, pow_succ] at h5
    have : Even n := ⟨m * 2 ^ j, by rw [h5]; ring⟩
    exact (Int.not_even_iff_odd.2 hn) this

theorem two_pow_sub_odd {d : Nat} (h : 1 ≤ d) : Odd ((2 : ℤ) ^ d - 1) := by
  obtain ⟨k, rfl⟩ : ∃ k, d = k + 1 := ⟨d - 1, by omega⟩
  exact ⟨2 ^ k - 1, by rw [pow_succ]; ring⟩

theorem digits_le_of_abs {d m : Nat} (h : |(2 : ℤ) ^ d - 1| < 2 ^ (m + 1)) : d ≤ m + 1 := by
  by_contra hc
  have h1 : (2 : ℤ) ^ (m + 1 + 1) ≤ 2 ^ d := pow_le_pow_right₀ (by norm_num) (by omega)
  have h2 : (0 : ℤ) < 2 ^ (m + 1) := by positivity
  rw [abs_of_nonneg (by have : (1 : ℤ) ≤ 2 ^ d := one_le_pow₀ (by norm_num); omega)] at h
  rw [pow_succ] at h1
  omega

/-! ## the largest number -/

theorem fltMax_pos (f : Fmt) : 0 < fltMax f := by
  unfold fltMax
  have : (1 : ℚ) < 2 ^ (f.mbits + 1) := one_lt_pow₀ (by norm_num) (by omega)
  have : (0 : ℚ) < 2 ^ (f.mbits + 1) - 1 := by linarith
  positivity

theorem fltMax_eq {f : Fmt} : fltMax f = 2 ^ (f.bias + 1) - 2 ^ ((f.bias : ℤ) - f.mbits) := by
  unfold fltMax
  rw [sub_mul, one_mul, ← zpow_natCast, ← zpow_add₀ (by norm_num), ← zpow_natCast (2 : ℚ) (f.bias + 1)]
  congr 2; push_cast; ring

theorem fltMax_in {f : Fmt} (hf : f.Ok) : InFmt f (fltMax f) := by
  constructor
  · refine ⟨2 ^ (f.mbits + 1) - 1, (f.bias : ℤ) - f.mbits, ?_, ?_, by unfold fltMax; push_cast; ring⟩
    · have : (1 : ℤ) ≤ 2 ^ (f.mbits + 1) := one_le_pow₀ (by norm_num)
      rw [abs_of_nonneg (by omega)]; omega
    · have := (bias_eq hf).2
      unfold Fmt.emin; omega
  · rw [abs_of_pos (fltMax_pos f), fltMax_eq]
    have : (0 : ℚ) < 2 ^ ((f.bias : ℤ) - f.mbits) := by positivity
    linarith

theorem InFmt.neg {f : Fmt} {q : ℚ} (h : InFmt f q) : InFmt f (-q) := ⟨h.1.neg, by rw [abs_neg]; exact h.2⟩

/-- The largest number is the largest. -/
theorem le_fltMax {f : Fmt} (hf : f.Ok) {q : ℚ} (h : InFmt f q) : |q| ≤ fltMax f := by
  rw [fltMax_eq]
  by_cases h0 : q = 0
  · have := fltMax_pos f
    rw [fltMax_eq] at this
    rw [h0, abs_zero]; exact this.le
  obtain ⟨n, e1, h1, h2⟩ := h.1.significand h0
  have hl := (abs_zpow_log h0).1
  have hlt : Int.log 2 |q| < (f.bias + 1 : ℕ) := by
    apply (zpow_lt_zpow_iff_right₀ (by norm_num : (1 : ℚ) < 2)).1
    rw [zpow_natCast]
    exact lt_of_le_of_lt hl h.2
  have hb := (bias_eq hf).2
  have hq : f.qexp q ≤ (f.bias : ℤ) - f.mbits := by unfold Fmt.qexp Fmt.emin; omega
  have hq0 : (0 : ℚ) < 2 ^ f.qexp q := by positivity
  have ha : |q| = (|n| : ℤ) * 2 ^ f.qexp q := by
    conv_lhs => rw [e1]
    rw [abs_mul, abs_of_pos hq0, Int.cast_abs]
  have h3 : (|n| : ℤ) ≤ 2 ^ (f.mbits + 1) - 1 := by omega
  have h4 : ((|n| : ℤ) : ℚ) ≤ 2 ^ (f.mbits + 1) - 1 := by exact_mod_cast h3
  have h5 : (2 : ℚ) ^ f.qexp q ≤ 2 ^ ((f.bias : ℤ) - f.mbits) := zpow_le_zpow_right₀ (by norm_num) hq
  rw [ha, ← fltMax_eq]
  unfold fltMax
  have : (0 : ℚ) ≤ 2 ^ (f.mbits + 1) - 1 := by
    have : (1 : ℚ) ≤ 2 ^ (f.mbits + 1) := one_le_pow₀ (by norm_num)
    linarith
  exact mul_le_mul h4 h5 hq0.le this

theorem within_in {f g : Fmt} (h : f.Within g) {q : ℚ} (hq : InFmt f q) : InFmt g q := by
  obtain ⟨⟨n, e, h1, h2, h3⟩, h4⟩ := hq
  have hb := bias_mono h.1
  refine ⟨⟨n, e, lt_of_lt_of_le h1 (pow_le_pow_right₀ (by norm_num) (by have := h.2; omega)), ?_, h3⟩,
    lt_of_lt_of_le h4 (pow_le_pow_right₀ (by norm_num) (by omega))⟩
  have := h.2
  unfold Fmt.emin at *; omega

/-- The exponent ranges are ordered like the largest numbers. -/
theorem bias_le_of_fltMax {f g : Fmt} (h : fltMax f ≤ fltMax g) : f.bias ≤ g.bias := by
  by_contra hc
  have h1 : (2 : ℚ) ^ (g.bias + 1) ≤ 2 ^ f.bias := pow_le_pow_right₀ (by norm_num) (by omega)
  have h2 : fltMax g < 2 ^ (g.bias + 1) := by
    rw [fltMax_eq]
    have : (0 : ℚ) < 2 ^ ((g.bias : ℤ) - g.mbits) := by positivity
    linarith
  have h3 : (2 : ℚ) ^ f.bias ≤ fltMax f := by
    rw [fltMax_eq]
    have : (2 : ℚ) ^ ((f.bias : ℤ) - f.mbits) ≤ 2 ^ (f.bias : ℤ) := zpow_le_zpow_right₀ (by norm_num) (by omega)
    rw [zpow_natCast] at this
    rw [pow_succ]; linarith
  linarith

theorem lt_exact {f : Fmt} (hf : f.Ok) {x y : ℚ} (hx : InFmt f x) (hy : InFmt f y) :
    f.lt (f.round .nearest false x) (f.round .nearest false y) = decide (x < y) := by
  have a := round_exact hf .nearest false hx.1 hx.2
  have b := round_exact hf .nearest false hy.1 hy.2
  rw [lt_finite hf a.1 b.1, a.2, b.2]

/-! ## integers -/

theorem two_pow_split {w : Nat} (h : 1 ≤ w) : (2 : ℤ) ^ w = 2 * 2 ^ (w - 1) := by
  obtain ⟨k, rfl⟩ : ∃ k, w = k + 1 := ⟨w - 1, by omega⟩
  rw [pow_succ]; simp; ring

theorem wrap_of_range {s : Bool} {w : Nat} (hw : 1 ≤ w) {n : ℤ} (h1 : Platform.minOf (.int s w) ≤ n) (h2 : n ≤ Platform.maxOf (.int s w)) :
    Platform.wrap s w n = n := by
  have hp := two_pow_split hw
  have hpos : (0 : ℤ) < 2 ^ (w - 1) := by positivity
  cases s
  · simp only [Platform.minOf, Platform.maxOf] at h1 h2
    simp only [Platform.wrap, Bool.false_eq_true, if_false]
    exact Int.emod_eq_of_lt h1 (by omega)
  · simp only [Platform.minOf, Platform.maxOf] at h1 h2
    simp only [Platform.wrap, if_true]
    apply Int.bmod_eq_of_le <;> push_cast <;> omega

theorem wrap_neg_one {w : Nat} : Platform.wrap false w (-1) = 2 ^ w - 1 := by
  simp only [Platform.wrap, Bool.false_eq_true, if_false]
  have : (0 : ℤ) < 2 ^ w := by positivity
  have h : (-1 : ℤ) % 2 ^ w = (-1 + 2 ^ w) % 2 ^ w := by simp
  rw [h, Int.emod_eq_of_lt (by omega) (by omega)]; omega

theorem toInt_of {t : CType} (ht : t ≠ .bool) {s : Bool} {w : Nat} (hk : p.kind t = .int s w) (n : ℤ) :
    toInt p t n = Platform.wrap s w n := by
  unfold toInt
  cases t <;> simp_all

theorem intMin_eq {t : CType} (ht : t ≠ .bool) {s : Bool} {w : Nat} (hk : p.kind t = .int s w) (hw : 2 ≤ w) :
    intMin p t = Platform.minOf (.int s w) := by
  unfold intMin Platform.isUnsigned Platform.isSigned digits
  rw [hk, toInt_of ht hk]
  cases s
  · simp [Platform.minOf]
  · have h1 := two_pow_split (w := w - 1) (by omega)
    have hpos : (0 : ℤ) < 2 ^ (w - 1) := by positivity
    simp only [Bool.not_true, Bool.false_eq_true, if_false, Bool.toNat_true]
    rw [show (-2 : ℤ) * 2 ^ (w - 1 - 1) = -2 ^ (w - 1) by rw [h1]; ring]
    apply wrap_of_range (by omega) <;> simp only [Platform.minOf, Platform.maxOf] <;> omega

theorem finiteMin_eq {t : CType} (ht : t ≠ .bool) {s : Bool} {w : Nat} (hk : p.kind t = .int s w) (hw : 2 ≤ w) :
    finiteMin p t = (Platform.minOf (.int s w) : ℤ) := by
  unfold finiteMin; rw [hk]; simp only; rw [intMin_eq ht hk hw]

theorem finiteMax_eq {t : CType} (ht : t ≠ .bool) {s : Bool} {w : Nat} (hk : p.kind t = .int s w) (hw : 2 ≤ w) :
    finiteMax p t = (Platform.maxOf (.int s w) : ℤ) := by
  unfold finiteMax; rw [hk]; simp only
  rw [intMin_eq ht hk hw, toInt_of ht hk]
  cases s
  · simp only [Platform.minOf, Platform.maxOf]
    rw [show (-0 - 1 : ℤ) = -1 by norm_num, wrap_neg_one]
  · have hpos : (0 : ℤ) < 2 ^ (w - 1) := by positivity
    rw [wrap_of_range (by omega)] <;> simp only [Platform.minOf, Platform.maxOf] <;> first | omega | (push_cast; ring)

/-- The range of one integer type is within that of another, by signedness and width. -/
def Fit (s : Bool) (w : Nat) (s' : Bool) (w' : Nat) : Prop := w - s.toNat ≤ w' - s'.toNat ∧ (s = true → s' = true)
instance (s w s' w') : Decidable (Fit s w s' w') := inferInstanceAs (Decidable (_ ∧ _))

theorem fit_iff {s s' : Bool} {w w' : Nat} (hw : 2 ≤ w) (hw' : 2 ≤ w') :
    (Platform.minOf (.int s' w') ≤ Platform.minOf (.int s w) ∧ Platform.maxOf (.int s w) ≤ Platform.maxOf (.int s' w')) ↔ Fit s w s' w' := by
  have mono : ∀ {a b : Nat}, (2 : ℤ) ^ a ≤ 2 ^ b ↔ a ≤ b := fun {a b} => pow_le_pow_iff_right₀ (by norm_num)
  have hp : (0 : ℤ) < 2 ^ (w - 1) := by positivity
  have hp' : (0 : ℤ) < 2 ^ (w' - 1) := by positivity
  unfold Fit
  cases s <;> cases s' <;> simp only [Platform.minOf, Platform.maxOf, Bool.toNat_true, Bool.toNat_false, Nat.sub_zero,
    Bool.false_eq_true, false_implies, and_true, imp_false, implies_true, sub_le_sub_iff_right, neg_le_neg_iff, mono, le_refl, true_and]
  · simp
  · constructor
    · exact fun h => h.2
    · exact fun h => ⟨by omega, h⟩
  · constructor
    · rintro ⟨h, -⟩; omega
    · tauto
  · exact and_self_iff

theorem canRepresent_iff {u t : CType} {s s' : Bool} {w w' : Nat} (hu : p.kind u = .int s' w') (ht : p.kind t = .int s w)
    (hw : 2 ≤ w) (hw' : 2 ≤ w') : p.canRepresent u t = true ↔ Fit s w s' w' := by
  unfold Platform.canRepresent
  rw [decide_eq_true_iff, hu, ht]
  exact fit_iff hw hw'

/-- The types promotion gives. -/
def Promoted (t : CType) : Prop := t = .int ∨ t = .uint ∨ t = .long ∨ t = .ulong ∨ t = .llong ∨ t = .ullong

theorem canRepresent_eq (h : p.Ok) {t u : CType} {s s' : Bool} {w w' : Nat} (hk : p.kind t = .int s w) (hu : p.kind u = .int s' w') :
    p.canRepresent u t = decide (Fit s w s' w') := by
  rw [Bool.eq_iff_iff, canRepresent_iff hu hk (by have := (iOk h hk).1; omega) (by have := (iOk h hu).1; omega), decide_eq_true_iff]

/-- What promotion of a type of signedness `s` and width `w` gives. -/
def PromotesTo (p : Platform) (s : Bool) (w : Nat) (t : CType) : Prop :=
  ∃ s' w', Promoted t ∧ p.kind t = .int s' w' ∧ Fit s w s' w' ∧ (s' = false → s = false ∧ w' ≤ w)

theorem firstFit2 (h : p.Ok) {t : CType} {s : Bool} {w : Nat} (hk : p.kind t = .int s w) (hw : w ≤ p.intW) :
    PromotesTo p s w (p.firstFit t [.int, .uint]) := by
  have h8 := h.short; have h9 := h.int
  simp only [Platform.firstFit, canRepresent_eq h hk (u := .int) rfl, canRepresent_eq h hk (u := .uint) rfl, decide_eq_true_eq]
  split_ifs with h1 h2
  · exact ⟨_, _, Or.inl rfl, rfl, h1, by simp⟩
  · refine ⟨_, _, Or.inr (Or.inl rfl), rfl, h2, fun _ => ?_⟩
    unfold Fit at *
    cases s <;> simp at * ; omega
  · exfalso
    unfold Fit at *
    cases s <;> simp at * <;> omega

theorem firstFit6 (h : p.Ok) {t : CType} {s : Bool} {w : Nat} (hk : p.kind t = .int s w) :
    PromotesTo p s w (p.firstFit t [.int, .uint, .long, .ulong, .llong, .ullong]) := by
  have a0 := h.short; have a2 := h.int; have a3 := h.long; have a4 := h.llong; have a5 := h.llong64; have a8 := h.short
  have hw := (iOk h hk).2
  simp only [Platform.firstFit, canRepresent_eq h hk (u := .int) rfl, canRepresent_eq h hk (u := .uint) rfl,
    canRepresent_eq h hk (u := .long) rfl, canRepresent_eq h hk (u := .ulong) rfl, canRepresent_eq h hk (u := .llong) rfl,
    canRepresent_eq h hk (u := .ullong) rfl, decide_eq_true_eq]
  split_ifs with h1 h2 h3 h4 h5 h6
  · exact ⟨_, _, by unfold Promoted; simp, rfl, h1, by simp⟩
  · refine ⟨_, _, by unfold Promoted; simp, rfl, h2, fun _ => ?_⟩
    unfold Fit at *
    cases s <;> simp at * ; omega
  · exact ⟨_, _, by unfold Promoted; simp, rfl, h3, by simp⟩
  · refine ⟨_, _, by unfold Promoted; simp, rfl, h4, fun _ => ?_⟩
    unfold Fit at *
    cases s <;> simp at * ; omega
  · exact ⟨_, _, by unfold Promoted; simp, rfl, h5, by simp⟩
  · refine ⟨_, _, by unfold Promoted; simp, rfl, h6, fun _ => ?_⟩
    unfold Fit at *
    cases s <;> simp at * ; omega
  · exfalso
    unfold Fit at *
    cases s <;> simp at * <;> omega

theorem promote_spec (h : p.Ok) {t : CType} (ht : t ≠ .bool) {s : Bool} {w : Nat} (hk : p.kind t = .int s w) :
    PromotesTo p s w (p.promote t) := by
  have a2 := h.int; have a8 := h.short
  have refl : Promoted t → PromotesTo p s w t := fun ht => ⟨s, w, ht, hk, ⟨le_refl _, id⟩, fun h => ⟨h, le_refl _⟩⟩
  have hk' := hk
  cases t
  case bool => exact absurd rfl ht
  case char => exact firstFit2 h hk (by simp only [Platform.kind, Kind.int.injEq] at hk'; omega)
  case schar => exact firstFit2 h hk (by simp only [Platform.kind, Kind.int.injEq] at hk'; omega)
  case uchar => exact firstFit2 h hk (by simp only [Platform.kind, Kind.int.injEq] at hk'; omega)
  case short => exact firstFit2 h hk (by simp only [Platform.kind, Kind.int.injEq] at hk'; omega)
  case ushort => exact firstFit2 h hk (by simp only [Platform.kind, Kind.int.injEq] at hk'; omega)
  case char8 => exact firstFit6 h hk
  case wchar => exact firstFit6 h hk
  case char16 => exact firstFit6 h hk
  case char32 => exact firstFit6 h hk
  case float => cases hk
  case double => cases hk
  case ldouble => cases hk
  all_goals exact refl (by unfold Promoted; simp)

/-- The common type of two promoted types: unsigned only if an operand is, and then the signed one cannot represent the other. -/
theorem commonInt_spec (h : p.Ok) {a b : CType} (ha : Promoted a) (hb : Promoted b) {s s' : Bool} {w w' : Nat}
    (ka : p.kind a = .int s w) (kb : p.kind b = .int s' w') :
    ∃ sc wc, Promoted (p.commonInt a b) ∧ p.kind (p.commonInt a b) = .int sc wc ∧ w ≤ wc ∧ w' ≤ wc ∧
      (sc = true → Fit s w sc wc ∧ Fit s' w' sc wc) ∧ (sc = false → s' = true → s = false ∧ ¬ Fit s w s' w') := by
  have a0 := h.short; have a2 := h.int; have a3 := h.long; have a4 := h.llong; have a5 := h.llong64; have a8 := h.short
  have c1 := canRepresent_eq h (t := .uint) (u := .long) rfl rfl
  have c2 := canRepresent_eq h (t := .uint) (u := .llong) rfl rfl
  have c3 := canRepresent_eq h (t := .ulong) (u := .llong) rfl rfl
  rcases ha with rfl | rfl | rfl | rfl | rfl | rfl <;> rcases hb with rfl | rfl | rfl | rfl | rfl | rfl <;>
    cases ka <;> cases kb <;>
    simp only [Platform.commonInt, Platform.isSigned, Platform.kind, Platform.rank, Platform.toUnsigned, c1, c2, c3, reduceCtorEq,
      if_true, if_false, Nat.reduceLT, Nat.reduceLeDiff, Bool.false_eq_true, decide_eq_true_eq, le_refl] <;>
    clear c1 c2 c3 <;> (try split_ifs) <;>
    refine ⟨_, _, by unfold Promoted; simp, rfl, ?_⟩ <;> unfold Fit at * <;>
    simp only [Bool.toNat_true, Bool.toNat_false, reduceCtorEq, false_implies, true_implies, and_true, true_and, implies_true,
      le_refl, not_false_eq_true, not_true_eq_false, imp_false, and_false, imp_self, not_le] at * <;> omega

/-- The common type of an integer type and one that can represent it can represent both. -/
theorem common_fit (h : p.Ok) {a b : CType} (ha : a ≠ .bool) (hb : b ≠ .bool) {s s' : Bool} {w w' : Nat}
    (ka : p.kind a = .int s w) (kb : p.kind b = .int s' w') (hf : Fit s w s' w') :
    ∃ sc wc, p.kind (p.common a b) = .int sc wc ∧ Fit s' w' sc wc := by
  obtain ⟨s1, w1, p1, k1, f1, u1⟩ := promote_spec h ha ka
  obtain ⟨s2, w2, p2, k2, f2, u2⟩ := promote_spec h hb kb
  obtain ⟨sc, wc, -, kc, w1c, w2c, sg, un⟩ := commonInt_spec h p1 p2 k1 k2
  have e : p.common a b = p.commonInt (p.promote a) (p.promote b) := by
    unfold Platform.common
    cases a <;> first | cases ka | skip
    all_goals (cases b <;> first | cases kb | skip)
    all_goals simp
  rw [e]
  refine ⟨sc, wc, kc, ?_⟩
  unfold Fit at *
  cases sc
  · cases s'
    · cases s2 <;> simp_all <;> omega
    · have := f2.2 rfl
      subst this
      obtain ⟨rfl, hu⟩ := un rfl rfl
      obtain ⟨rfl, hw⟩ := u1 rfl
      exfalso; apply hu
      simp at *
      omega
  · obtain ⟨-, h2⟩ := sg rfl
    exact ⟨le_trans f2.1 h2.1, fun _ => rfl⟩

theorem Fit.trans {s s' s'' : Bool} {w w' w'' : Nat} (h : Fit s w s' w') (h' : Fit s' w' s'' w'') : Fit s w s'' w'' :=
  ⟨le_trans h.1 h'.1, fun a => h'.2 (h.2 a)⟩

/-! ## the values of the types -/

/-- A number as a value. -/
abbrev num (q : ℚ) : Option (WithBot (WithTop ℚ)) := some ((q : WithTop ℚ) : WithBot (WithTop ℚ))

theorem num_inj {q r : ℚ} : num q = num r ↔ q = r := by
  unfold num; rw [Option.some.injEq, WithBot.coe_inj, WithTop.coe_inj]

theorem hasValue_int {t : CType} (ht : t ≠ .bool) {s : Bool} {w : Nat} (hk : p.kind t = .int s w) (v : Option (WithBot (WithTop ℚ))) :
    p.HasValue t v ↔ ∃ n : ℤ, Platform.minOf (.int s w) ≤ n ∧ n ≤ Platform.maxOf (.int s w) ∧ v = num n := by
  unfold Platform.HasValue
  cases t <;> first | exact absurd rfl ht | cases hk | skip
  all_goals exact Iff.rfl

theorem hasValue_float {t : CType} {f : Fmt} (hk : p.kind t = .float f) (v : Option (WithBot (WithTop ℚ))) :
    p.HasValue t v ↔ ∃ x : f.Bits, f.value x = v := by
  unfold Platform.HasValue
  cases t <;> first | cases hk | skip
  all_goals exact Iff.rfl

/-- Every value of one type is a value of the other. -/
def Preserved (p : Platform) (a b : CType) : Prop := ∀ v, p.HasValue a v → p.HasValue b v

theorem minOf_le_maxOf {s : Bool} {w : Nat} : Platform.minOf (.int s w) ≤ Platform.maxOf (.int s w) := by
  have : (0 : ℤ) < 2 ^ (w - 1) := by positivity
  have : (0 : ℤ) < 2 ^ w := by positivity
  cases s <;> simp only [Platform.minOf, Platform.maxOf] <;> omega

theorem preserved_int {a b : CType} (h : p.Ok) (ha : a ≠ .bool) (hb : b ≠ .bool) {s s' : Bool} {w w' : Nat}
    (ka : p.kind a = .int s w) (kb : p.kind b = .int s' w') : Preserved p a b ↔ Fit s w s' w' := by
  have := (iOk h ka).1
  have := (iOk h kb).1
  rw [← fit_iff (by omega) (by omega)]
  unfold Preserved
  constructor
  · intro hp
    have mm := minOf_le_maxOf (s := s) (w := w)
    have h1 := hp (num (Platform.minOf (.int s w) : ℤ)) ((hasValue_int ha ka _).2 ⟨_, le_refl _, mm, rfl⟩)
    have h2 := hp (num (Platform.maxOf (.int s w) : ℤ)) ((hasValue_int ha ka _).2 ⟨_, mm, le_refl _, rfl⟩)
    rw [hasValue_int hb kb] at h1 h2
    obtain ⟨n, n1, n2, n3⟩ := h1
    obtain ⟨m, m1, m2, m3⟩ := h2
    rw [num_inj, Int.cast_inj] at n3 m3
    omega
  · rintro ⟨h1, h2⟩ v hv
    rw [hasValue_int ha ka] at hv
    obtain ⟨n, n1, n2, rfl⟩ := hv
    exact (hasValue_int hb kb _).2 ⟨n, by omega, by omega, rfl⟩

theorem minOf_eq {s : Bool} {w : Nat} : Platform.minOf (.int s w) = if s then -2 ^ (w - s.toNat) else 0 := by
  cases s <;> simp [Platform.minOf]
theorem maxOf_eq {s : Bool} {w : Nat} : Platform.maxOf (.int s w) = 2 ^ (w - s.toNat) - 1 := by
  cases s <;> simp [Platform.maxOf]

theorem int_bounds {s : Bool} {w : Nat} {n : ℤ} (h1 : Platform.minOf (.int s w) ≤ n) (h2 : n ≤ Platform.maxOf (.int s w)) :
    |n| ≤ 2 ^ (w - s.toNat) := by
  have : (0 : ℤ) < 2 ^ (w - s.toNat) := by positivity
  rw [minOf_eq] at h1
  rw [maxOf_eq] at h2
  rw [abs_le]
  split_ifs at h1 <;> omega

/-- Integers of at most the precision of a format are numbers of the format. -/
theorem int_in {f : Fmt} (hf : FOk p f) {n : ℤ} {d : Nat} (hd : d ≤ f.mbits + 1) (h : |n| ≤ 2 ^ d) : InFmt f n := by
  have h1 : |n| ≤ 2 ^ (f.mbits + 1) := le_trans h (pow_le_pow_right₀ (by norm_num) hd)
  refine ⟨rep_int hf.ok h1, ?_⟩
  have h2 : |n| < 2 ^ (f.bias + 1) := lt_of_le_of_lt h1 (pow_lt_pow_right₀ (by norm_num) (by have := hf.exp; omega))
  rw [← Int.cast_abs]
  exact_mod_cast h2

theorem preserved_int_float {a b : CType} (h : p.Ok) (ha : a ≠ .bool) {s : Bool} {w : Nat} {f : Fmt}
    (ka : p.kind a = .int s w) (kb : p.kind b = .float f) : Preserved p a b ↔ w - s.toNat ≤ f.mbits + 1 := by
  have hf := fOk h kb
  have hw := (iOk h ka).1
  have hs := Bool.toNat_le s
  unfold Preserved
  constructor
  · intro hp
    have h2 := hp (num (Platform.maxOf (.int s w) : ℤ)) ((hasValue_int ha ka _).2 ⟨_, minOf_le_maxOf, le_refl _, rfl⟩)
    rw [hasValue_float kb, exists_value hf.ok] at h2
    rw [maxOf_eq] at h2
    have h3 := h2.1
    have : ((2 ^ (w - s.toNat) - 1 : ℤ) : ℚ) = ((2 ^ (w - s.toNat) - 1 : ℤ) : ℚ) * 2 ^ (0 : ℤ) := by simp
    rw [this] at h3
    exact digits_le_of_abs (odd_rep (two_pow_sub_odd (by omega)) h3)
  · intro hd v hv
    rw [hasValue_int ha ka] at hv
    obtain ⟨n, n1, n2, rfl⟩ := hv
    rw [hasValue_float kb, exists_value hf.ok]
    exact int_in hf hd (int_bounds n1 n2)

theorem not_preserved_float_int {a b : CType} (h : p.Ok) {s : Bool} {w : Nat} {f : Fmt}
    (ka : p.kind a = .float f) (kb : p.kind b = .int s w) : ¬ Preserved p a b := by
  intro hp
  have hf := fOk h ka
  have h1 := hp none ((hasValue_float ka _).2 (exists_special hf.ok _ (Or.inl rfl)))
  by_cases hb : b = .bool
  · subst hb
    obtain ⟨_, h⟩ := h1
    simp at h
  · rw [hasValue_int hb kb] at h1
    obtain ⟨n, -, -, h⟩ := h1
    simp at h

theorem in_of_le {f g : Fmt} (hm : f.mbits ≤ g.mbits) (hb : f.bias ≤ g.bias) {q : ℚ} (hq : InFmt f q) : InFmt g q := by
  obtain ⟨⟨n, e, h1, h2, h3⟩, h4⟩ := hq
  refine ⟨⟨n, e, lt_of_lt_of_le h1 (pow_le_pow_right₀ (by norm_num) (by omega)), ?_, h3⟩,
    lt_of_lt_of_le h4 (pow_le_pow_right₀ (by norm_num) (by omega))⟩
  unfold Fmt.emin at *; omega

theorem preserved_float {a b : CType} (h : p.Ok) {f g : Fmt} (ka : p.kind a = .float f) (kb : p.kind b = .float g) :
    Preserved p a b ↔ f.mbits ≤ g.mbits ∧ f.bias ≤ g.bias := by
  have hf := fOk h ka
  have hg := fOk h kb
  unfold Preserved
  constructor
  · intro hp
    have h2 := hp (num (fltMax f)) ((hasValue_float ka _).2 ((exists_value hf.ok _).2 (fltMax_in hf.ok)))
    rw [hasValue_float kb, exists_value hg.ok] at h2
    have h3 := le_fltMax hg.ok h2
    rw [abs_of_pos (fltMax_pos f)] at h3
    refine ⟨?_, bias_le_of_fltMax h3⟩
    have h4 := h2.1
    unfold fltMax at h4
    have : ((2 : ℚ) ^ (f.mbits + 1) - 1) = ((2 ^ (f.mbits + 1) - 1 : ℤ) : ℚ) := by push_cast; ring
    rw [this] at h4
    have := digits_le_of_abs (odd_rep (two_pow_sub_odd (by omega)) h4)
    omega
  · rintro ⟨hm, hb⟩ v hv
    rw [hasValue_float ka] at hv
    rw [hasValue_float kb]
    obtain ⟨x, rfl⟩ := hv
    by_cases hx : f.isFinite x
    · rw [value_finite hf.ok hx, exists_value hg.ok]
      exact in_of_le hm hb ((inFmt_iff hf.ok _).2 ⟨x, hx, rfl⟩)
    · apply exists_special hg.ok
      unfold Fmt.value
      by_cases hn : f.isNaN x
      · rw [if_pos hn]; simp
      · have hi : f.isInf x := by unfold Fmt.isInf; unfold Fmt.isNaN at hn; unfold Fmt.isFinite at hx; tauto
        rw [if_neg hn, if_pos hi]
        split <;> simp

/-! ## the trait -/

theorem digits_int {t : CType} {s : Bool} {w : Nat} (hk : p.kind t = .int s w) : digits p t = w - s.toNat := by
  unfold digits; rw [hk]
theorem digits_float {t : CType} {f : Fmt} (hk : p.kind t = .float f) : digits p t = f.mbits + 1 := by
  unfold digits; rw [hk]

theorem narrowing_of {a b : CType} (hb : b ≠ .bool) (hab : a ≠ b) :
    narrowing p a b = false ↔ digits p a ≤ digits p b ∧ p.lessIn (p.common a b) (finiteMax p b) (finiteMax p a) = false ∧
      p.lessIn (p.common a b) (finiteMin p a) (finiteMin p b) = false ∧ (p.isSigned a = true → p.isSigned b = true) := by
  unfold narrowing
  rw [if_neg hb, if_neg hab]
  simp only [Bool.or_eq_false_iff, decide_eq_false_iff_not, not_lt, Bool.and_eq_false_iff, Platform.isUnsigned]
  rw [and_assoc, and_assoc]
  cases p.isSigned a <;> cases p.isSigned b <;> simp

theorem isSigned_int {t : CType} {s : Bool} {w : Nat} (hk : p.kind t = .int s w) : p.isSigned t = s := by
  unfold Platform.isSigned; rw [hk]
theorem isSigned_float {t : CType} {f : Fmt} (hk : p.kind t = .float f) : p.isSigned t = true := by
  unfold Platform.isSigned; rw [hk]

theorem narrowing_int {a b : CType} (h : p.Ok) (ha : a ≠ .bool) (hb : b ≠ .bool) (hab : a ≠ b) {s s' : Bool} {w w' : Nat}
    (ka : p.kind a = .int s w) (kb : p.kind b = .int s' w') : narrowing p a b = false ↔ Fit s w s' w' := by
  have wa := (iOk h ka).1
  have wb := (iOk h kb).1
  rw [narrowing_of hb hab, digits_int ka, digits_int kb, isSigned_int ka, isSigned_int kb]
  constructor
  · rintro ⟨h1, -, -, h2⟩; exact ⟨h1, h2⟩
  · intro hf
    refine ⟨hf.1, ?_, ?_, hf.2⟩
    all_goals
      obtain ⟨sc, wc, kc, fc⟩ := common_fit h ha hb ka kb hf
      have wcb := (iOk h kc).1
      have e1 := (fit_iff (by omega) (by omega)).2 hf
      have e2 := (fit_iff (by omega) (by omega)).2 fc
      have ma := minOf_le_maxOf (s := s) (w := w)
      have mb := minOf_le_maxOf (s := s') (w := w')
      unfold Platform.lessIn
      rw [kc]
      simp only
    · rw [finiteMax_eq ha ka (by omega), finiteMax_eq hb kb (by omega), Int.floor_intCast, Int.floor_intCast,
        wrap_of_range (by omega) (by omega) (by omega), wrap_of_range (by omega) (by omega) (by omega), decide_eq_false_iff_not]
      omega
    · rw [finiteMin_eq ha ka (by omega), finiteMin_eq hb kb (by omega), Int.floor_intCast, Int.floor_intCast,
        wrap_of_range (by omega) (by omega) (by omega), wrap_of_range (by omega) (by omega) (by omega), decide_eq_false_iff_not]
      omega

theorem common_float {a b : CType} {s : Bool} {w : Nat} {f : Fmt} (ka : p.kind a = .int s w) (kb : p.kind b = .float f) :
    p.common a b = b ∧ p.common b a = b := by
  cases b <;> first | cases kb | skip
  all_goals (cases a <;> first | cases ka | skip)
  all_goals simp [Platform.common]

theorem finiteMax_float {t : CType} {f : Fmt} (hk : p.kind t = .float f) : finiteMax p t = fltMax f := by
  unfold finiteMax; rw [hk]
theorem finiteMin_float {t : CType} {f : Fmt} (hk : p.kind t = .float f) : finiteMin p t = -fltMax f := by
  unfold finiteMin; rw [hk]

theorem lessIn_float {c : CType} {f : Fmt} (h : p.Ok) (hk : p.kind c = .float f) {x y : ℚ} (hx : InFmt f x) (hy : InFmt f y) :
    p.lessIn c x y = decide (x < y) := by
  unfold Platform.lessIn; rw [hk]
  exact lt_exact (fOk h hk).ok hx hy

theorem kind_ne_bool {t : CType} {f : Fmt} (hk : p.kind t = .float f) : t ≠ .bool := by rintro rfl; cases hk

theorem narrowing_int_float {a b : CType} (h : p.Ok) (ha : a ≠ .bool) {s : Bool} {w : Nat} {f : Fmt}
    (ka : p.kind a = .int s w) (kb : p.kind b = .float f) : narrowing p a b = false ↔ w - s.toNat ≤ f.mbits + 1 := by
  have hf := fOk h kb
  have hw := (iOk h ka).1
  rw [narrowing_of (kind_ne_bool kb) (by rintro rfl; rw [ka] at kb; cases kb), digits_int ka, digits_float kb, isSigned_float kb,
    (common_float ka kb).1]
  constructor
  · rintro ⟨h1, -⟩; exact h1
  · intro hd
    have i1 := int_in hf hd (int_bounds (s := s) (w := w) (le_refl _) minOf_le_maxOf)
    have i2 := int_in hf hd (int_bounds (s := s) (w := w) minOf_le_maxOf (le_refl _))
    have m := fltMax_in hf.ok
    refine ⟨hd, ?_, ?_, fun _ => rfl⟩
    · rw [finiteMax_eq ha ka (by omega), finiteMax_float kb, lessIn_float h kb m i2, decide_eq_false_iff_not, not_lt]
      exact le_trans (le_abs_self _) (le_fltMax hf.ok i2)
    · rw [finiteMin_eq ha ka (by omega), finiteMin_float kb, lessIn_float h kb i1 m.neg, decide_eq_false_iff_not, not_lt]
      have := le_trans (neg_le_abs _) (le_fltMax hf.ok i1)
      linarith

/-- A conversion from floating point to integers always narrows: the largest number exceeds all integers. -/
theorem narrowing_float_int {a b : CType} (h : p.Ok) {s : Bool} {w : Nat} {f : Fmt}
    (ka : p.kind a = .float f) (kb : p.kind b = .int s w) : narrowing p a b = true := by
  have hf := fOk h ka
  have hw := iOk h kb
  by_cases hb : b = .bool
  · unfold narrowing
    rw [if_pos hb]; simpa using kind_ne_bool ka
  by_contra hn
  rw [Bool.not_eq_true, narrowing_of hb (by rintro rfl; rw [ka] at kb; cases kb), (common_float kb ka).2] at hn
  obtain ⟨-, h2, -, -⟩ := hn
  rw [finiteMax_eq hb kb (by omega), finiteMax_float ka] at h2
  unfold Platform.lessIn at h2
  rw [ka] at h2
  simp only at h2
  have hmax : (1 : ℤ) ≤ Platform.maxOf (.int s w) ∧ Platform.maxOf (.int s w) < 2 ^ w := by
    have h1 : (2 : ℤ) ^ 1 ≤ 2 ^ (w - s.toNat) := pow_le_pow_right₀ (by norm_num) (by have := Bool.toNat_le s; omega)
    have h2 : (2 : ℤ) ^ (w - s.toNat) ≤ 2 ^ w := pow_le_pow_right₀ (by norm_num) (by omega)
    rw [maxOf_eq]; omega
  generalize Platform.maxOf (.int s w) = n at *
  -- rounding the integer gives at most `2 ^ w`
  have hr : |f.roundTo .nearest n| ≤ 2 ^ w := by
    have hn : (n : ℚ) ≠ 0 := by have := hmax.1; exact_mod_cast (by omega : n ≠ 0)
    have habs : |(n : ℚ)| < 2 ^ w := by
      rw [abs_of_pos (by have := hmax.1; exact_mod_cast (by omega : 0 < n))]; exact_mod_cast hmax.2
    have hlog : Int.log 2 |(n : ℚ)| < (w : ℤ) := by
      apply (zpow_lt_zpow_iff_right₀ (by norm_num : (1 : ℚ) < 2)).1
      rw [zpow_natCast]
      exact lt_of_le_of_lt (abs_zpow_log hn).1 habs
    have hq : f.qexp n ≤ w := by
      have := emin_le hf.ok
      unfold Fmt.qexp; omega
    have hq0 : (0 : ℚ) < 2 ^ f.qexp n := by positivity
    have e : (2 : ℚ) ^ w = ((2 ^ (w - f.qexp n).toNat : ℤ) : ℚ) * 2 ^ f.qexp n := by
      push_cast
      rw [← zpow_natCast, ← zpow_natCast, ← zpow_add₀ (by norm_num), Int.toNat_of_nonneg (by omega)]; congr 1; omega
    have h1 := toInt_abs_le .nearest ((n : ℚ) / 2 ^ f.qexp n) (2 ^ (w - f.qexp n).toNat) (by
      rw [abs_div, abs_of_pos hq0, div_le_iff₀ hq0, ← e]; exact habs.le)
    unfold Fmt.roundTo
    rw [abs_mul, abs_of_pos hq0, e, ← Int.cast_abs]
    exact mul_le_mul_of_nonneg_right (by exact_mod_cast h1) hq0.le
  have hb2 : (2 : ℚ) ^ w ≤ 2 ^ f.bias := pow_le_pow_right₀ (by norm_num) (by have := hf.range; omega)
  have hlt : (2 : ℚ) ^ f.bias < fltMax f := by
    rw [fltMax_eq]
    have : (2 : ℚ) ^ ((f.bias : ℤ) - f.mbits) < 2 ^ (f.bias : ℤ) := zpow_lt_zpow_right₀ (by norm_num) (by have := hf.ok.2; omega)
    rw [zpow_natCast] at this
    rw [pow_succ]; linarith
  have hsmall : |f.roundTo .nearest n| < 2 ^ (f.bias + 1) := by
    have : (0 : ℚ) < 2 ^ f.bias := by positivity
    rw [pow_succ]; linarith
  have r1 := round_spec hf.ok .nearest false hsmall
  have m := fltMax_in hf.ok
  have r2 := round_exact hf.ok .nearest false m.1 m.2
  rw [lt_finite hf.ok r1.1 r2.1, r1.2, r2.2, decide_eq_false_iff_not] at h2
  apply h2
  exact lt_of_le_of_lt (le_trans (le_abs_self _) (le_trans hr hb2)) hlt

theorem common_floats {a b : CType} (h : p.Ok) {f g : Fmt} (ka : p.kind a = .float f) (kb : p.kind b = .float g) :
    (p.common a b = b ∧ f.Within g) ∨ (p.common a b = a ∧ g.Within f) := by
  have h1 := h.dbl
  have h2 := h.ldbl
  have h3 : p.flt.Within p.ldbl := ⟨le_trans h1.1 h2.1, le_trans h1.2 h2.2⟩
  unfold Fmt.Within at *
  cases b <;> cases kb <;> cases a <;> cases ka <;> simp [Platform.common, h1, h2, h3]

theorem narrowing_float {a b : CType} (h : p.Ok) (hab : a ≠ b) {f g : Fmt} (ka : p.kind a = .float f) (kb : p.kind b = .float g) :
    narrowing p a b = false ↔ f.mbits ≤ g.mbits ∧ f.bias ≤ g.bias := by
  have hf := fOk h ka
  have hg := fOk h kb
  rw [narrowing_of (kind_ne_bool kb) hab, digits_float ka, digits_float kb, isSigned_float kb,
    finiteMax_float ka, finiteMax_float kb, finiteMin_float ka, finiteMin_float kb]
  have mf := fltMax_in hf.ok
  have mg := fltMax_in hg.ok
  have key : p.lessIn (p.common a b) (fltMax g) (fltMax f) = decide (fltMax g < fltMax f) ∧
      p.lessIn (p.common a b) (-fltMax f) (-fltMax g) = decide (fltMax g < fltMax f) := by
    rcases common_floats h ka kb with ⟨e, w⟩ | ⟨e, w⟩
    · have mf' := within_in w mf
      rw [e, lessIn_float h kb mg mf', lessIn_float h kb mf'.neg mg.neg]
      simp
    · have mg' := within_in w mg
      rw [e, lessIn_float h ka mg' mf, lessIn_float h ka mf.neg mg'.neg]
      simp
  rw [key.1, key.2, decide_eq_false_iff_not, not_lt]
  constructor
  · rintro ⟨h1, h2, -⟩
    exact ⟨by omega, bias_le_of_fltMax h2⟩
  · rintro ⟨h1, h2⟩
    have := le_fltMax hg.ok (in_of_le h1 h2 mf)
    rw [abs_of_pos (fltMax_pos f)] at this
    exact ⟨by omega, this, this, fun _ => rfl⟩

/-- The trait is exact, except for conversions from `bool`. -/
theorem narrowing_iff (h : p.Ok) {a b : CType} (ha : a ≠ .bool) : narrowing p a b = false ↔ Preserved p a b := by
  by_cases hb : b = .bool
  · subst hb
    have : narrowing p a .bool = true := by unfold narrowing; simpa using ha
    rw [this]
    simp only [Bool.true_eq_false, false_iff]
    intro hp
    rcases hk : p.kind a with ⟨s, w⟩ | f
    · have hw := (iOk h hk).1
      have h2 := hp (num (Platform.maxOf (.int s w) : ℤ)) ((hasValue_int ha hk _).2 ⟨_, minOf_le_maxOf, le_refl _, rfl⟩)
      obtain ⟨x, hx⟩ := h2
      have hx' := num_inj.1 hx
      have h3 : (2 : ℤ) ^ 2 ≤ 2 ^ (w - s.toNat) := pow_le_pow_right₀ (by norm_num) (by have := Bool.toNat_le s; omega)
      rw [maxOf_eq] at hx'
      have h4 : (2 : ℤ) ^ (w - s.toNat) - 1 = x.toNat := by exact_mod_cast hx'
      have := Bool.toNat_le x
      omega
    · exact not_preserved_float_int h hk (rfl : p.kind .bool = .int false 8) hp
  by_cases hab : a = b
  · subst hab
    have : narrowing p a a = false := by unfold narrowing; simp [hb]
    rw [this]
    exact ⟨fun _ v hv => hv, fun _ => rfl⟩
  rcases ka : p.kind a with ⟨s, w⟩ | f <;> rcases kb : p.kind b with ⟨s', w'⟩ | g
  · rw [narrowing_int h ha hb hab ka kb, preserved_int h ha hb ka kb]
  · rw [narrowing_int_float h ha ka kb, preserved_int_float h ha ka kb]
  · rw [narrowing_float_int h ka kb]
    simpa using not_preserved_float_int h ka kb
  · rw [narrowing_float h hab ka kb, preserved_float h ka kb]

/-- Conversions from `bool` that are accepted preserve the value. -/
theorem narrowing_bool (h : p.Ok) {b : CType} (hn : narrowing p .bool b = false) : Preserved p .bool b := by
  by_cases hb : b = .bool
  · subst hb; exact fun v hv => hv
  rintro v ⟨x, rfl⟩
  have hx := Bool.toNat_le x
  have hd := ((narrowing_of hb (Ne.symm hb)).1 hn).1
  rw [show digits p .bool = 8 from rfl] at hd
  rcases kb : p.kind b with ⟨s, w⟩ | f
  · rw [digits_int kb] at hd
    rw [hasValue_int hb kb]
    refine ⟨x.toNat, ?_, ?_, by push_cast; rfl⟩
    · rw [minOf_eq]
      have : (0 : ℤ) < 2 ^ (w - s.toNat) := by positivity
      split <;> omega
    · rw [maxOf_eq]
      have : (2 : ℤ) ^ 8 ≤ 2 ^ (w - s.toNat) := pow_le_pow_right₀ (by norm_num) hd
      omega
  · rw [digits_float kb] at hd
    have hf := fOk h kb
    rw [hasValue_float kb]
    have := (exists_value hf.ok ((x.toNat : ℤ) : ℚ)).2 (int_in hf hd (n := x.toNat) (by
      rw [abs_of_nonneg (by omega)]; have : (1 : ℤ) ≤ 2 ^ 8 := by norm_num
      omega))
    push_cast at this
    exact this

/-! ## implicit conversions between `fixed_size` objects -/

theorem commonInt_comm {a b : CType} (ha : Promoted a) (hb : Promoted b) : p.commonInt a b = p.commonInt b a := by
  rcases ha with rfl | rfl | rfl | rfl | rfl | rfl <;> rcases hb with rfl | rfl | rfl | rfl | rfl | rfl <;>
    simp [Platform.commonInt, Platform.isSigned, Platform.kind, Platform.rank]

theorem common_ints {a b : CType} {s s' : Bool} {w w' : Nat} (ka : p.kind a = .int s w) (kb : p.kind b = .int s' w') :
    p.common a b = p.commonInt (p.promote a) (p.promote b) := by
  unfold Platform.common
  cases a <;> first | cases ka | skip
  all_goals (cases b <;> first | cases kb | skip)
  all_goals simp

theorem sizeOf_int {t : CType} {s : Bool} {w : Nat} (hk : p.kind t = .int s w) : p.sizeOf t = w := by
  unfold Platform.sizeOf
  cases t <;> first | cases hk | skip
  all_goals rfl

theorem implicit_asymm (h : p.Ok) {a b : CType} (ha : a ≠ .bool) (hb : b ≠ .bool)
    (h1 : implicitConvert p a b = true) (h2 : implicitConvert p b a = true) : a = b := by
  simp only [implicitConvert, Bool.and_eq_true, Bool.not_eq_true'] at h1 h2
  rw [narrowing_iff h ha] at h1
  rw [narrowing_iff h hb] at h2
  obtain ⟨n1, r1⟩ := h1
  obtain ⟨n2, r2⟩ := h2
  unfold higherRank at r1 r2
  rcases ka : p.kind a with ⟨s, w⟩ | f <;> rcases kb : p.kind b with ⟨s', w'⟩ | g
  · rw [preserved_int h ha hb ka kb] at n1
    rw [preserved_int h hb ha kb ka] at n2
    have wa := (iOk h ka).1
    have wb := (iOk h kb).1
    have hw : w = w' := by
      unfold Fit at *
      cases s <;> cases s' <;> simp at * <;> omega
    rw [sizeOf_int ka, sizeOf_int kb, if_neg (by omega), decide_eq_true_eq, common_ints ka kb] at r1
    rw [sizeOf_int ka, sizeOf_int kb, if_neg (by omega), decide_eq_true_eq, common_ints kb ka] at r2
    obtain ⟨_, _, p1, _⟩ := promote_spec h ha ka
    obtain ⟨_, _, p2, _⟩ := promote_spec h hb kb
    rw [commonInt_comm p1 p2, r2] at r1
    exact r1
  · exact absurd n2 (not_preserved_float_int h kb ka)
  · exact absurd n1 (not_preserved_float_int h ka kb)
  · have w1 := h.dbl
    have w2 := h.ldbl
    have w3 := h.ldblBits
    unfold Fmt.Within at *
    cases b <;> cases kb <;> cases a <;> cases ka <;>
      simp [Platform.common, Platform.sizeOf, Platform.kind, Fmt.width] at * <;> omega

theorem stdRank_kind {t : CType} {m : Nat} (h : Platform.stdRank t = some m) : t ≠ .bool ∧ ∃ s w, p.kind t = .int s w := by
  cases t <;> first | cases h | skip
  all_goals exact ⟨by simp, _, _, rfl⟩

/-- For integer types, the size or the common type decide as the rank does. -/
theorem implicit_int (h : p.Ok) {a b : CType} (hab : a ≠ b) {m n : Nat} (ra : Platform.stdRank a = some m)
    (rb : Platform.stdRank b = some n) (hp : Preserved p a b) : higherRank p a b = true ↔ m < n := by
  have a1 := h.short; have a2 := h.int; have a3 := h.long; have a4 := h.llong
  obtain ⟨ha, s, w, ka⟩ := stdRank_kind (p := p) ra
  obtain ⟨hb, s', w', kb⟩ := stdRank_kind (p := p) rb
  rw [preserved_int h ha hb ka kb] at hp
  have wa := (iOk h ka).1
  have wb := (iOk h kb).1
  unfold higherRank
  rw [sizeOf_int ka, sizeOf_int kb, common_ints ka kb]
  split_ifs with hw
  · simp only [true_iff]
    cases a <;> cases ra <;> cases ka <;> cases b <;> cases rb <;> cases kb <;> omega
  · have hs : s = s' ∧ w = w' := by
      unfold Fit at hp
      cases s <;> cases s' <;> simp at * <;> omega
    obtain ⟨rfl, rfl⟩ := hs
    clear hp hw
    have q1 : p.promote .short = .int := by
      simp only [Platform.promote, Platform.firstFit, canRepresent_eq h (t := .short) (u := .int) rfl rfl]
      rw [if_pos]; simp [Fit]; omega
    have q2 : p.shortW = p.intW → p.promote .ushort = .uint := by
      intro e
      simp only [Platform.promote, Platform.firstFit, canRepresent_eq h (t := .ushort) (u := .int) rfl rfl,
        canRepresent_eq h (t := .ushort) (u := .uint) rfl rfl]
      rw [if_neg, if_pos] <;> simp [Fit] <;> omega
    obtain ⟨_, _, p1, k1, -⟩ := promote_spec h ha ka
    obtain ⟨_, _, p2, k2, -⟩ := promote_spec h hb kb
    obtain ⟨_, _, pc, -⟩ := commonInt_spec h p1 p2 k1 k2
    rw [decide_eq_true_eq]
    by_cases hn : n ≤ 2
    · have : ¬ Promoted b := by
        unfold Promoted
        rintro (rfl | rfl | rfl | rfl | rfl | rfl) <;> cases rb <;> omega
      constructor
      · intro e; rw [e] at pc; exact absurd pc this
      · intro hmn
        exfalso
        cases a <;> cases ra <;> cases ka <;> cases b <;> cases rb <;> simp [Platform.kind] at kb <;> omega
    · clear pc p1 p2 k1 k2
      cases b <;> cases rb <;> (try omega) <;> cases kb <;> cases a <;> cases ra <;>
        simp [Platform.kind] at ka hab <;>
        first
        | (exfalso; omega)
        | (simp [Platform.promote, Platform.commonInt, Platform.isSigned, Platform.kind, Platform.rank]; done)
        | (rw [q1]; simp [Platform.promote, Platform.commonInt, Platform.isSigned, Platform.kind, Platform.rank]; done)
        | (rw [q2 (by omega)]; simp [Platform.promote, Platform.commonInt, Platform.isSigned, Platform.kind, Platform.rank]; done)

/-- For a conversion from integers to floating point the rank does not matter. -/
theorem implicit_int_float {a b : CType} {s : Bool} {w : Nat} {f : Fmt} (ka : p.kind a = .int s w) (kb : p.kind b = .float f) :
    higherRank p a b = true := by
  unfold higherRank
  split_ifs
  · rfl
  · rw [(common_float ka kb).1]; simp

theorem implicit_float (h : p.Ok) {a b : CType} {f g : Fmt} (hfg : f ≠ g) (ka : p.kind a = .float f) (kb : p.kind b = .float g)
    (hp : Preserved p a b) : higherRank p a b = true := by
  rw [preserved_float h ka kb] at hp
  have hg := (fOk h kb).ok
  unfold higherRank
  split_ifs
  · rfl
  rcases common_floats h ka kb with ⟨e, -⟩ | ⟨-, hw⟩
  · rw [e]; simp
  · exfalso
    apply hfg
    have hb := bias_mono hw.1
    have e1 : f.bias = g.bias := by have := hp.2; omega
    have e2 : f.ebits = g.ebits := by
      have hf := (fOk h ka).ok
      have h1 := (bias_eq hf).1
      have h2 := (bias_eq hg).1
      rw [e1, ← h2] at h1
      exact Nat.pow_right_injective (le_refl 2) h1
    have e3 : f.mbits = g.mbits := by have := hp.1; have := hw.2; omega
    cases f; cases g; simp_all

end StdSimd.Narrowing
