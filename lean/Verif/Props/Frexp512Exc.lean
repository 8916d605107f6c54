import Verif.Model.Frexp512Exc
import Verif.Props.FrexpExc
/-!
# C66, floating-point exceptions of `frexp` and `logb` with AVX-512
-/
namespace StdSimd.Props
open Spec FloatBits FpExc Rounding Math

variable {f : Fmt}

/-- The conversion of the exponent raises invalid for zeros, infinities and NaNs, nothing for other numbers. -/
theorem getexp_toInt_exc (env : f.Env) (hb : f = ⟨8, 23⟩ ∨ f = ⟨11, 52⟩) (x : f.Bits) :
    (toInt32E (getexp env x)).exc = { invalid := decide (f.isZero x ∨ f.isInf x ∨ f.isNaN x) } := by
  have g : Good f := by rcases hb with rfl | rfl; exacts [good32, good64]
  have hl := inf_lt g.ok
  have hi : ∀ y : f.Bits, f.isInf y ∨ f.isNaN y → (toInt32E y).exc = { invalid := true } := by
    intro y hy
    have : ¬ f.isFinite y := fun h => by
      have := finite_not g.ok h; tauto
    show (if _ then _ else _ : Exc) = _
    rw [if_neg (by tauto)]
  have i1 : f.isInf (infBits f) := by rw [isInf_iff, mag_inf g.ok]
  unfold getexp
  by_cases h1 : f.isNaN x
  · rw [if_pos h1, hi _ (.inr (env.isNaN _ _))]; simp [h1]
  · rw [if_neg h1]
    by_cases h2 : f.isInf x
    · rw [if_pos h2, hi _ (.inl i1)]; simp [h2]
    · rw [if_neg h2]
      by_cases h3 : f.isZero x
      · rw [if_pos h3, hi]
        · simp [h3]
        · left
          rcases hb with rfl | rfl <;> decide +kernel
      · rw [if_neg h3]
        have hx : f.isFinite x := by rw [isFinite_iff]; rw [isNaN_iff] at h1; rw [isInf_iff] at h2; omega
        obtain ⟨b1, b2⟩ := int_mag g hx h3
        have hn := ofInt_small env g b1 b2
        have hbe := bias_eq g.ok
        have h30 : 2 ^ f.ebits ≤ 2 ^ 30 := Nat.pow_le_pow_right (by omega) g.small
        have hmb := g.int
        show (if _ then _ else _ : Exc) = _
        rw [hn.2, truncZ_int, if_pos ⟨hn.1, by omega, by omega⟩]
        have : f.isIntegral (Fmt.ofInt env (Int.log 2 |f.ratValue x|)) := by
          unfold Fmt.isIntegral; rw [hn.2]; simp
        simp [this, h1, h2, h3]

/-- C66, C47. `frexp` with AVX-512, with any implementation of the test for numbers other than zero that raises nothing but invalid, and this for zeros,
infinities and NaNs only: the results are right, but invalid is raised exactly if an element is zero, infinite or a NaN.  C Annex F.10.3.7 wants that nothing is raised for
any elements but signalling NaNs. -/
theorem C66_frexp_avx512_invalid (env : f.Env) (hb : f = ⟨8, 23⟩ ∨ f = ⟨11, 52⟩) (junk : f.Bits → f.Bits) (nz : f.Bits → FP Bool) (xs : List f.Bits)
    (hv : ∀ x ∈ xs, (nz x).val = decide (f.isFinite x ∧ ¬ f.isZero x))
    (he : ∀ x ∈ xs, ∃ b : Bool, (nz x).exc = { invalid := b } ∧ (b = true → f.isZero x ∨ f.isInf x ∨ f.isNaN x)) :
    List.Forall₂ (fun x r => f.IsFrexp x r.1 r.2.toInt) xs (frexp512E env junk nz xs).val ∧
    (frexp512E env junk nz xs).exc = { invalid := xs.any (fun x => decide (f.isZero x ∨ f.isInf x ∨ f.isNaN x)) } := by
  have g : Good f := by rcases hb with rfl | rfl; exacts [good32, good64]
  constructor
  · unfold frexp512E
    rw [lanes1_val, List.forall₂_map_right_iff, List.forall₂_same]
    exact fun x hx => frexpAvx512_spec env g junk x (hv x hx)
  · have h1 : ∀ x ∈ xs, (frexp512Elem env junk nz x).exc = { invalid := decide (f.isZero x ∨ f.isInf x ∨ f.isNaN x) } := by
      intro x hx
      obtain ⟨b, e, h⟩ := he x hx
      have hs : f.isSignalling x → f.isZero x ∨ f.isInf x ∨ f.isNaN x := fun h => .inr (.inr h.1)
      show (nz x).exc.or ((getexpE env x).exc.or ((toInt32E (getexp env x)).exc.or ((getmantE junk x).exc.or Exc.clear))) = _
      rw [e, getexp_toInt_exc env hb, or_clear]
      show Exc.or _ (Exc.or { invalid := decide (f.isSignalling x) } (Exc.or _ { invalid := decide (f.isSignalling x) })) = _
      by_cases hz : f.isZero x ∨ f.isInf x ∨ f.isNaN x
      · simp [Exc.or, hz]
      · have hb' : b = false := by rw [← Bool.not_eq_true]; exact fun q => hz (h q)
        have : ¬ f.isSignalling x := fun q => hz (hs q)
        simp [Exc.or, hz, hb', this]
    show Exc.any ((xs.map (frexp512Elem env junk nz)).map FP.exc) = _
    clear hv he
    induction xs with
    | nil => rfl
    | cons a l ih =>
      rw [List.map_cons, List.map_cons, any_cons, ih (fun x hx => h1 x (by simp [hx])), h1 a (by simp)]
      simp [Exc.or]

theorem isnonzerovalue_val (env : f.Env) (hf : f.Ok) (x : f.Bits) :
    (isnonzerovalue env x).val = decide (f.isFinite x ∧ ¬ f.isZero x) := by
  have hl := inf_lt hf
  have i1 : f.isInf (infBits f) := by rw [isInf_iff, mag_inf hf]
  have i2 : ¬ f.isNaN (infBits f) := by rw [isNaN_iff, mag_inf hf]; omega
  have i3 : ¬ f.isZero (infBits f) := by rw [isZero_iff, mag_inf hf]; omega
  have z1 : f.isZero (0 : f.Bits) := by rw [isZero_iff, zero_mag]
  have z2 : ¬ f.isNaN (0 : f.Bits) := by rw [isNaN_iff, zero_mag]; omega
  have z3 : ¬ f.isInf (0 : f.Bits) := by rw [isInf_iff, zero_mag]; omega
  have nn : ∀ s, ¬ f.isNaN (f.ofMag s f.infMag) := fun s h => by
    have := (isNaN_iff _).1 h
    rw [infMag_eq, mag_ofMag s (by omega)] at this; omega
  have m1 : f.isNaN (Fmt.mul env x (infBits f)) ↔ f.isNaN x ∨ f.isZero x := by
    unfold Fmt.mul
    by_cases h : f.isNaN x
    · rw [if_pos (.inl h)]; simp [env.isNaN, h]
    · rw [if_neg (by tauto), if_pos (.inr i1)]
      by_cases h' : f.isZero x
      · rw [if_pos (.inl h')]; simp [env.isNaN, h']
      · rw [if_neg (by tauto)]; simp [h, h', nn]
  have m2 : f.isNaN (Fmt.mul env x 0) ↔ f.isNaN x ∨ f.isInf x := by
    unfold Fmt.mul
    by_cases h : f.isNaN x
    · rw [if_pos (.inl h)]; simp [env.isNaN, h]
    · rw [if_neg (by tauto)]
      by_cases h' : f.isInf x
      · rw [if_pos (.inl h'), if_pos (.inr z1)]; simp [env.isNaN, h']
      · rw [if_neg (by tauto)]; simp [h, h', Hypot.round_not_nan hf]
  show (!(f.unordered (Fmt.mul env x (infBits f)) (Fmt.mul env x 0))) = _
  have hfin : f.isFinite x ↔ ¬ f.isNaN x ∧ ¬ f.isInf x := by
    rw [isFinite_iff, isNaN_iff, isInf_iff]; omega
  rw [unordered_eq hf, ← decide_not, decide_eq_decide, m1, m2, hfin]
  tauto

/-- The two implementations of the test meet the conditions: `fpclass` raises nothing; the exceptions of the products are `C66_frexp_invalid`. -/
theorem C66_frexp_avx512_conditions (env : f.Env) (hf : f.Ok) (hq : ∀ x y, ¬ f.isSignalling (env.nan x y)) (x : f.Bits) :
    ((pure (x86IsnonzerovalueDq f x) : FP Bool).val = decide (f.isFinite x ∧ ¬ f.isZero x) ∧
      (pure (x86IsnonzerovalueDq f x) : FP Bool).exc = { invalid := false }) ∧
    (isnonzerovalue env x).val = decide (f.isFinite x ∧ ¬ f.isZero x) ∧
    ∃ b : Bool, (isnonzerovalue env x).exc = { invalid := b } ∧ (b = true → f.isZero x ∨ f.isInf x ∨ f.isNaN x) := by
  refine ⟨⟨(C34_nonzero_value hf x).1, rfl⟩, isnonzerovalue_val env hf x, _, C66_frexp_invalid env hf hq x, fun h => ?_⟩
  rcases of_decide_eq_true h with h | h | h
  exacts [.inl h, .inr (.inl h), .inr (.inr h.1)]

/-- C66, C48. `logb` with AVX-512: the results are right, invalid is raised for signalling NaNs only; C66 fails for zeros: division by zero, which C
Annex F.10.3.11 wants, is never raised. -/
theorem C66_logb_avx512_wrong (env : f.Env) (hb : f = ⟨8, 23⟩ ∨ f = ⟨11, 52⟩) (xs : List f.Bits) :
    List.Forall₂ (fun x r => f.IsLogb x r) xs (logb512E env xs).val ∧
    (logb512E env xs).exc = { invalid := xs.any (fun x => decide (f.isSignalling x)) } := by
  have g : Good f := by rcases hb with rfl | rfl; exacts [good32, good64]
  constructor
  · unfold logb512E
    rw [lanes1_val, List.forall₂_map_right_iff, List.forall₂_same]
    exact fun x _ => getexp_logb env g x
  · show Exc.any ((xs.map (getexpE env)).map FP.exc) = _
    induction xs with
    | nil => rfl
    | cons a l ih =>
      rw [List.map_cons, List.map_cons, any_cons, ih]
      show Exc.or { invalid := decide (f.isSignalling a) } _ = _
      simp [Exc.or]

/-- A register with a one and a zero: one element raises invalid. -/
example : ([0x3f800000#32, 0#32] : List (⟨8, 23⟩ : Fmt).Bits).any
    (fun x => decide ((⟨8, 23⟩ : Fmt).isZero x ∨ (⟨8, 23⟩ : Fmt).isInf x ∨ (⟨8, 23⟩ : Fmt).isNaN x)) = true := by decide +kernel

end StdSimd.Props
