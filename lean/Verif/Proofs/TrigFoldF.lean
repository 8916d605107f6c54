import Verif.Proofs.TrigFold
/-! # `sin` and `cos`: reduction of `float` arguments -/
namespace StdSimd.Trig
open Spec FloatBits Math
open StdSimd.Rounding

variable (E : Env)

theorem abs_fin {f : Fmt} {x : f.Bits} (h : f.isFinite x) : f.isFinite (FloatBits.abs f x) := by
  rw [isFinite_iff] at h ⊢; rwa [mag_abs]

theorem round_nonneg {f : Fmt} {u : ℚ} (h : Good f u) (zs : Bool) {q : ℚ} (hq : 0 ≤ q) (hB : q ≤ 2 ^ 100) :
    0 ≤ f.ratValue (f.round .nearest zs q) := by
  have h1 := Hypot.round_err (f := f) .nearest q
  rw [h.unit] at h1
  have h4 : |f.roundTo .nearest q| < 2 ^ (f.bias + 1) := by
    have a := abs_sub_abs_le_abs_sub (f.roundTo .nearest q) q
    rw [abs_of_nonneg hq] at a h1
    have b : u * q ≤ 1 * q := mul_le_mul_of_nonneg_right h.small hq
    have c : eta ≤ 1 := by unfold eta; norm_num
    have d : (2 : ℚ) * 2 ^ 100 + 1 < 2 ^ 102 := by norm_num
    linarith [h.big, h.emin]
  rw [(round_spec h.ok .nearest zs h4).2]
  exact (roundTo_sign .nearest).1 hq

theorem piOver4F_val : Near F piOver4F (0x1921FB6 / 2 ^ 25) 0 :=
  (litF 0x1921FB6 (-1 - 24) (0x1921FB6 / 2 ^ 25) (M := 1) (by decide) (by decide) (by norm_num) (by norm_num)).toNear
theorem twoOverPiF_val : Near F twoOverPiF (0x145F306 / 2 ^ 25) 0 :=
  (litF 0x145F306 (-1 - 24) (0x145F306 / 2 ^ 25) (M := 1) (by decide) (by decide) (by norm_num) (by norm_num)).toNear
theorem pi2F5bits0_val : Near F pi2F5bits0 (0x1921fc0 / 2 ^ 24) 0 :=
  (litF 0x1921fc0 (0 - 24) (0x1921fc0 / 2 ^ 24) (M := 2) (by decide) (by decide) (by norm_num) (by norm_num)).toNear
theorem pi2F5bits0Rem_val : Near F pi2F5bits0Rem (-0x15777a6 / 2 ^ 45) 0 :=
  (litF (-0x15777a6) (-21 - 24) (-0x15777a6 / 2 ^ 45) (M := 2) (by decide) (by decide) (by norm_num) (by norm_num [abs_of_neg])).toNear
theorem twoOverPiD_val : Near D twoOverPiD (0x145F306DC9C883 / 2 ^ 53) 0 :=
  (litD 0x145F306DC9C883 (-1 - 52) (0x145F306DC9C883 / 2 ^ 53) (M := 1) (by decide) (by decide) (by norm_num) (by norm_num)).toNear
theorem pi2D_val : Near D pi2D (0x1921fb54442d18 / 2 ^ 52) 0 :=
  (litD 0x1921fb54442d18 (0 - 52) (0x1921fb54442d18 / 2 ^ 52) (M := 2) (by decide) (by decide) (by norm_num) (by norm_num)).toNear
theorem piOver4D_val : Near D piOver4D (0x1921fb54442d18 / 2 ^ 53) 0 :=
  (litD 0x1921fb54442d18 (-1 - 52) (0x1921fb54442d18 / 2 ^ 53) (M := 2) (by decide) (by decide) (by norm_num) (by norm_num)).toNear

/-- The quotient of the argument by `π / 2`, rounded to an integer. -/
theorem quotient {f : Fmt} (env : f.Env) {u : ℚ} (hg : Good f u) (hw : f.mbits < f.bias) (hm : env.mode = .nearest) {p : f.Bits} {q e d : ℚ}
    (hp : Near f p q e) (h0 : 0 ≤ f.ratValue p) (hd : 1 / 2 + e ≤ d) :
    ∃ k : ℕ, Near f (nearbyint env p) (k : ℚ) 0 ∧ |(k : ℚ) - q| ≤ d := by
  obtain ⟨k, hk, hk2⟩ := exists_nat h0
  have hy := nearbyint_eq env hg hw hm hp.fin
  rw [hk] at hy
  refine ⟨k, by exact_mod_cast hy, ?_⟩
  rw [show (k : ℚ) - q = (k - f.ratValue p) + (f.ratValue p - q) by ring]
  refine (abs_add_le _ _).trans ?_
  linarith [hp.err]

theorem quotientF (hm : E.F.mode = .nearest) {a : F.Bits} (ha : F.isFinite a) (h0 : 0 ≤ F.ratValue a) (h1 : F.ratValue a ≤ 48 / 10) :
    ∃ k : ℕ, Near F (nearbyint E.F (Fmt.mul E.F a twoOverPiF)) (k : ℚ) 0 ∧ |(k : ℚ) - F.ratValue a * (0x145F306 / 2 ^ 25)| ≤ 1 / 2 + 2 / 10 ^ 7 := by
  have hB : F.ratValue a * F.ratValue twoOverPiF ≤ 31 / 10 := by rw [twoOverPiF_val.eq]; norm_num; linarith
  have hB0 : 0 ≤ F.ratValue a * F.ratValue twoOverPiF := by rw [twoOverPiF_val.eq]; positivity
  have hp := mul_near E.F goodF hm ha twoOverPiF_val.fin (B := 31 / 10) (by rw [abs_of_nonneg hB0]; exact hB) (by norm_num)
  rw [twoOverPiF_val.eq] at hp
  refine quotient E.F goodF (by decide) hm hp ?_ (by norm_num [eta])
  rw [mul_eq E.F goodF ha twoOverPiF_val.fin, hm]
  exact round_nonneg goodF _ hB0 (hB.trans (by norm_num))

theorem foldSmallF_spec (hm : E.F.mode = .nearest) {a : F.Bits} (ha : F.isFinite a) (h0 : 0 ≤ F.ratValue a) (h1 : F.ratValue a ≤ 48 / 10) :
    Folded F (foldSmallF E a) (F.ratValue a) (1 / 10 ^ 7) := by
  obtain ⟨k, hy, hkv⟩ := quotientF E hm ha h0 h1
  unfold foldSmallF
  generalize nearbyint E.F (Fmt.mul E.F a twoOverPiF) = y at *
  have ha' := Near.self ha
  generalize F.ratValue a = v at *
  have hv2 : |v| ≤ 48 / 10 := by rw [abs_of_nonneg h0]; exact h1
  have hk3 : k ≤ 3 := by
    have h := (abs_le.1 hkv).2
    have h' : (k : ℚ) < (4 : ℕ) := by norm_num at h; push_cast; linarith
    have : k < 4 := by exact_mod_cast h'
    omega
  have hk4 : (k : ℚ) ≤ 3 := by exact_mod_cast hk3
  have hk0 : (0 : ℚ) ≤ k := Nat.cast_nonneg k
  -- the residual
  have hc : |v * (1 - (0x1921fc0 / 2 ^ 24 + -0x15777a6 / 2 ^ 45) * (0x145F306 / 2 ^ 25))| ≤ 5 / 10 ^ 7 := by
    rw [abs_le]; norm_num; constructor <;> linarith
  have hres := residual (P := 0x1921fc0 / 2 ^ 24 + -0x15777a6 / 2 ^ 45) (by norm_num) hkv hc
  replace hres : |v - k * (0x1921fc0 / 2 ^ 24 + -0x15777a6 / 2 ^ 45)| ≤ 786 / 1000 := hres.trans (by norm_num)
  have hres1 : |v - k * (0x1921fc0 / 2 ^ 24)| ≤ 787 / 1000 := by
    rw [abs_le] at hres ⊢
    norm_num at hres ⊢
    constructor <;> linarith
  have s1 := nmadd_rep_step E.F goodF hm (E.fused 21) ha' hy pi2F5bits0_val (K := 787 / 1000) (D := 47 / 10 ^ 9)
    ⟨k * 0x6487F, -18, by rw [abs_of_nonneg (by positivity)]; norm_num; omega, by decide, by push_cast; norm_num; ring⟩
    (by rw [abs_of_nonneg (by positivity)]; norm_num; linarith) hres1 (by norm_num [eta]) (by norm_num)
  have s2 := nmadd_step E.F goodF hm (E.fused 22) s1.toNear hy pi2F5bits0Rem_val (A := 2 / 10 ^ 6) (K := 786 / 1000) (D := 95 / 10 ^ 9)
    (by rw [abs_le]; norm_num; constructor <;> linarith) (by rw [show v - k * (0x1921fc0 / 2 ^ 24) - k * (-0x15777a6 / 2 ^ 45) = v - k * (0x1921fc0 / 2 ^ 24 + -0x15777a6 / 2 ^ 45) by ring]; exact hres) (by norm_num [eta]) (by norm_num) (by norm_num)
  have hq := quadrant_eq E.undefF hy.fin hy.eq (by omega)
  refine folded_of (P := 0x1921fc0 / 2 ^ 24 + -0x15777a6 / 2 ^ 45) (k := k) (d := 1 / 10 ^ 12) (cast_appr s2 (by ring)) (by norm_num) hq ?_ ?_
  · have a1 := pi_gt_27
    have a2 := pi_lt_27
    push_cast
    rw [abs_le]; norm_num at *; constructor <;> linarith
  · have : (k : ℝ) ≤ 3 := by exact_mod_cast hk3
    push_cast; norm_num; linarith

theorem rep_widen {v : ℚ} (h : Rep F v) : Rep D v := by
  obtain ⟨n, e, h1, h2, h3⟩ := h
  exact ⟨n, e, lt_of_lt_of_le h1 (by decide), le_trans (by decide) h2, h3⟩

theorem widen_val {a : F.Bits} (ha : F.isFinite a) (h : |F.ratValue a| ≤ 2 ^ 100) : Near D (widen E a) (F.ratValue a) 0 := by
  obtain ⟨b, c⟩ := finite_not goodF.ok ha
  unfold widen Fmt.convert
  rw [if_neg b, if_neg c]
  exact round_rep goodD _ _ (rep_widen (rep_ratValue goodF.ok a)) h

theorem narrow_near (hm : E.mode = .nearest) {x : D.Bits} {v e K : ℚ} (hx : Appr D x v e K) {D : ℚ} (hD : e + (1 / 2 ^ 24 * (K + e) + eta) ≤ D) (hS : K + e ≤ 2 ^ 100) :
    Appr F (narrow E x) v D K := by
  obtain ⟨b, c⟩ := finite_not goodD.ok hx.fin
  unfold narrow Fmt.convert
  rw [if_neg b, if_neg c, hm]
  have h := round_near goodF (Trig.D.sign x) hx.val hS
  refine ⟨⟨h.fin, ?_⟩, hx.mag⟩
  rw [show F.ratValue (F.round .nearest (Trig.D.sign x) (Trig.D.ratValue x)) - v
    = (F.ratValue (F.round .nearest (Trig.D.sign x) (Trig.D.ratValue x)) - Trig.D.ratValue x) + (Trig.D.ratValue x - v) by ring]
  refine (abs_add_le _ _).trans ?_
  linarith [h.err, hx.err]

theorem quotientFD (hm : E.D.mode = .nearest) {a : D.Bits} (ha : D.isFinite a) (h0 : 0 ≤ D.ratValue a) (h1 : D.ratValue a ≤ 530000) :
    ∃ k : ℕ, Near D (nearbyint E.D (Fmt.mul E.D a twoOverPiD)) (k : ℚ) 0 ∧ |(k : ℚ) - D.ratValue a * (0x145F306DC9C883 / 2 ^ 53)| ≤ 1 / 2 + 1 / 10 ^ 10 := by
  have hB : D.ratValue a * D.ratValue twoOverPiD ≤ 340000 := by rw [twoOverPiD_val.eq]; norm_num; linarith
  have hB0 : 0 ≤ D.ratValue a * D.ratValue twoOverPiD := by rw [twoOverPiD_val.eq]; positivity
  have hp := mul_near E.D goodD hm ha twoOverPiD_val.fin (B := 340000) (by rw [abs_of_nonneg hB0]; exact hB) (by norm_num)
  rw [twoOverPiD_val.eq] at hp
  refine quotient E.D goodD (by decide) hm hp ?_ (by norm_num [eta])
  rw [mul_eq E.D goodD ha twoOverPiD_val.fin, hm]
  exact round_nonneg goodD _ hB0 (hB.trans (by norm_num))

theorem foldLargeF_spec (hm : E.mode = .nearest) {a : F.Bits} (ha : F.isFinite a) (h0 : 0 ≤ F.ratValue a) (h1 : F.ratValue a ≤ 530000) :
    Folded F (foldLargeF E a) (F.ratValue a) (1 / 10 ^ 7) := by
  have hw := widen_val E ha (by rw [abs_of_nonneg h0]; exact h1.trans (by norm_num))
  obtain ⟨k, hy, hkv⟩ := quotientFD E hm hw.fin (by rw [hw.eq]; exact h0) (by rw [hw.eq]; exact h1)
  rw [hw.eq] at hkv
  unfold foldLargeF
  dsimp only
  generalize nearbyint E.D (Fmt.mul E.D (widen E a) twoOverPiD) = y at *
  generalize F.ratValue a = v at *
  have hv2 : |v| ≤ 530000 := by rw [abs_of_nonneg h0]; exact h1
  have hk4 : (k : ℚ) ≤ ((340000 : ℕ) : ℚ) := by have h := (abs_le.1 hkv).2; norm_num at h; push_cast; linarith
  have hk3 : k ≤ 340000 := by exact_mod_cast hk4
  have hk0 : (0 : ℚ) ≤ k := Nat.cast_nonneg k
  have hc : |v * (1 - 0x1921fb54442d18 / 2 ^ 52 * (0x145F306DC9C883 / 2 ^ 53))| ≤ 1 / 10 ^ 9 := by
    rw [abs_le]; norm_num; constructor <;> linarith
  have hres := residual (P := 0x1921fb54442d18 / 2 ^ 52) (by norm_num) hkv hc
  replace hres : |v - k * (0x1921fb54442d18 / 2 ^ 52)| ≤ 786 / 1000 := hres.trans (by norm_num)
  have s1 := nmadd_step E.D goodD hm (E.fused 23) hw hy pi2D_val (A := 540000) (K := 786 / 1000) (D := 1 / 10 ^ 10)
    (by rw [abs_of_nonneg (by positivity)]; norm_num; push_cast at hk4; linarith) hres (by norm_num [eta]) (by norm_num) (by norm_num)
  have s2 := narrow_near E hm s1 (D := 48 / 10 ^ 9) (by norm_num [eta]) (by norm_num)
  have hq := quadrant_eq E.undefD hy.fin hy.eq (by omega)
  refine folded_of (P := 0x1921fb54442d18 / 2 ^ 52) (k := k) (d := 1 / 10 ^ 15) s2 (by norm_num) hq ?_ ?_
  · have a1 := pi_gt_27
    have a2 := pi_lt_27
    push_cast
    rw [abs_le]; norm_num at *; constructor <;> linarith
  · have : (k : ℝ) ≤ 340000 := by exact_mod_cast hk3
    push_cast; norm_num; linarith

end StdSimd.Trig
