import Verif.Proofs.TrigZero
/-! # `sin`: relative errors of small arguments -/
namespace StdSimd.Trig
open Spec FloatBits Math
open StdSimd.Rounding

variable {f : Fmt}

/-! ## Rounding -/

theorem roundEven_nearest (t : ℚ) (n : ℤ) : |(roundEven t : ℚ) - t| ≤ |(n : ℚ) - t| := by
  have h := roundEven_close t
  by_cases h2 : 1 / 2 ≤ |(n : ℚ) - t|
  · exact h.trans h2
  · have h3 := not_le.1 h2
    have h4 : |(roundEven t : ℚ) - n| < 1 := by
      rw [show (roundEven t : ℚ) - n = (roundEven t - t) - (n - t) by ring]
      have := abs_sub (roundEven t - t) (n - t)
      linarith
    have h5 : |roundEven t - n| < 1 := by exact_mod_cast h4
    have h6 : roundEven t = n := by rw [Int.abs_lt_one_iff] at h5; omega
    rw [h6]

/-- The relative error, unless the result is next to a representable number. -/
theorem round_rel {q v : ℚ} (hv : Rep f v) : |f.roundTo .nearest q - q| ≤ f.unitRoundoff .nearest * |q| + |v - q| := by
  have hq : (0 : ℚ) < 2 ^ f.qexp q := by positivity
  have e : f.roundTo .nearest q - q = (roundEven (q / 2 ^ f.qexp q) - q / 2 ^ f.qexp q) * 2 ^ f.qexp q := by
    unfold Fmt.roundTo; rw [sub_mul, div_mul_cancel₀ _ hq.ne']; rfl
  have hu := Hypot.unit_pos (f := f) .nearest
  rcases le_total (Int.log 2 |q| - f.mbits) f.emin with h | h
  · have h1 : f.qexp q = f.emin := max_eq_right h
    obtain ⟨n, k, _, hk, rfl⟩ := hv
    obtain ⟨j, hj⟩ : ∃ j : ℕ, k = f.emin + j := ⟨(k - f.emin).toNat, by omega⟩
    have h2 := roundEven_nearest (q / 2 ^ f.qexp q) (n * 2 ^ j)
    have e2 : (n : ℚ) * 2 ^ k - q = (((n * 2 ^ j : ℤ) : ℚ) - q / 2 ^ f.qexp q) * 2 ^ f.qexp q := by
      rw [sub_mul, div_mul_cancel₀ _ hq.ne', h1, hj, zpow_add₀ (by norm_num), zpow_natCast]
      push_cast; ring
    rw [e, e2, abs_mul, abs_mul]
    have := mul_le_mul_of_nonneg_right h2 (abs_nonneg ((2 : ℚ) ^ f.qexp q))
    have : 0 ≤ f.unitRoundoff .nearest * |q| := by positivity
    linarith
  · have h1 : f.qexp q = Int.log 2 |q| - f.mbits := max_eq_left h
    by_cases h0 : q = 0
    · subst h0
      rw [show f.roundTo .nearest 0 = 0 by unfold Fmt.roundTo; rw [zero_div, show (0 : ℚ) = ((0 : ℤ) : ℚ) by simp, toInt_int]; simp]
      simp
    have h2 := roundEven_close (q / 2 ^ f.qexp q)
    rw [e, abs_mul, abs_of_pos hq]
    have h3 := mul_le_mul_of_nonneg_right h2 hq.le
    have h4 : (1 : ℚ) / 2 * 2 ^ f.qexp q ≤ f.unitRoundoff .nearest * |q| := by
      rw [h1, Hypot.unit_eq, zpow_sub₀ (by norm_num), zpow_natCast]
      have := (abs_zpow_log h0).1
      have hs : Hypot.slack .nearest = 1 / 2 := rfl
      rw [hs, div_mul_eq_mul_div (1 / 2 : ℚ), mul_div_assoc' (1 / 2 : ℚ)]
      apply div_le_div_of_nonneg_right _ (by positivity)
      exact mul_le_mul_of_nonneg_left this (by norm_num)
    have := abs_nonneg (v - q)
    linarith

theorem round_near_rel {u : ℚ} (h : Good f u) (zs : Bool) {q v : ℚ} (hv : Rep f v) (hq : |q| ≤ 1) :
    Near f (f.round .nearest zs q) q (u * |q| + |v - q|) := by
  have h1 := round_rel (q := q) hv
  rw [h.unit] at h1
  have h2 := round_near h zs hq (by norm_num)
  refine ⟨h2.fin, ?_⟩
  have h3 := Hypot.round_err (f := f) .nearest q
  rw [h.unit] at h3
  have h4 : |f.roundTo .nearest q| < 2 ^ (f.bias + 1) := by
    have a := abs_sub_abs_le_abs_sub (f.roundTo .nearest q) q
    have b : u * |q| ≤ 1 * |q| := mul_le_mul_of_nonneg_right h.small (abs_nonneg _)
    have c : eta ≤ 1 := by unfold eta; norm_num
    have d : (4 : ℚ) < 2 ^ 102 := by norm_num
    linarith [h.big, h.emin]
  rw [(round_spec h.ok .nearest zs h4).2]
  exact h1

theorem rep_zero : Rep f 0 := ⟨0, f.emin, by positivity, le_rfl, by simp⟩

section
variable (env : f.Env) {u : ℚ} (hg : Good f u) (hm : env.mode = .nearest)
include hg hm

/-- Products are not much too large, even if they are very small. -/
theorem mul_twice {x y : f.Bits} (hx : f.isFinite x) (hy : f.isFinite y) (h : |f.ratValue x * f.ratValue y| ≤ 1) :
    f.isFinite (Fmt.mul env x y) ∧ |f.ratValue (Fmt.mul env x y)| ≤ 3 * |f.ratValue x * f.ratValue y| := by
  rw [mul_eq env hg hx hy, hm]
  have h1 := round_near_rel hg (f.sign x ^^ f.sign y) rep_zero h
  refine ⟨h1.fin, ?_⟩
  have h2 := h1.abs_le
  rw [zero_sub, abs_neg] at h2
  have : u * |f.ratValue x * f.ratValue y| ≤ 1 * |f.ratValue x * f.ratValue y| := mul_le_mul_of_nonneg_right hg.small (abs_nonneg _)
  linarith

/-- A small multiple of `x` added to `x`. -/
theorem madd_tiny (b : Bool) {y w x : f.Bits} (hy : f.isFinite y) (hw : f.isFinite w) (hx : f.isFinite x) {e : ℚ}
    (h : |f.ratValue y * f.ratValue w| ≤ e * |f.ratValue x|) (he : e ≤ 1 / 100) (hr : |f.ratValue x| ≤ 79 / 10 ^ 2) :
    Near f (madd env b y w x) (f.ratValue x) ((u + 12 * e) * |f.ratValue x|) := by
  have hx0 := abs_nonneg (f.ratValue x)
  have hu := hg.pos
  have hu1 := hg.small
  -- any rounded sum
  have key : ∀ (p : ℚ) (zs : Bool), |p| ≤ 3 * (e * |f.ratValue x|) → Near f (f.round .nearest zs (p + f.ratValue x)) (f.ratValue x) ((u + 12 * e) * |f.ratValue x|) := by
    intro p zs hp
    have hex : e * |f.ratValue x| ≤ 1 / 100 * |f.ratValue x| := mul_le_mul_of_nonneg_right he hx0
    have h0 : 0 ≤ e * |f.ratValue x| := by have := abs_nonneg p; linarith
    have h1 : |p + f.ratValue x| ≤ 3 * (e * |f.ratValue x|) + |f.ratValue x| := (abs_add_le _ _).trans (by linarith)
    have h2 := round_near_rel hg zs (rep_ratValue hg.ok x) (q := p + f.ratValue x) (by linarith)
    refine ⟨h2.fin, ?_⟩
    have h3 := h2.err
    rw [show f.ratValue x - (p + f.ratValue x) = -p by ring, abs_neg] at h3
    have h4 := abs_add_le (f.ratValue (f.round .nearest zs (p + f.ratValue x)) - (p + f.ratValue x)) p
    rw [show f.ratValue (f.round .nearest zs (p + f.ratValue x)) - (p + f.ratValue x) + p = f.ratValue (f.round .nearest zs (p + f.ratValue x)) - f.ratValue x by ring] at h4
    have h5 : u * |p + f.ratValue x| ≤ u * (3 * (e * |f.ratValue x|) + |f.ratValue x|) := mul_le_mul_of_nonneg_left h1 hu
    have h6 : u * (3 * (e * |f.ratValue x|)) ≤ 1 * (3 * (e * |f.ratValue x|)) := mul_le_mul_of_nonneg_right hu1 (by linarith)
    have h7 : (u + 12 * e) * |f.ratValue x| = u * |f.ratValue x| + 12 * (e * |f.ratValue x|) := by ring
    rw [h7]
    rw [mul_add] at h5
    linarith
  have hex : e * |f.ratValue x| ≤ 1 / 100 * |f.ratValue x| := mul_le_mul_of_nonneg_right he hx0
  unfold madd
  split
  · rw [fma_fin env hg.ok hy hw hx, hm]
    exact key _ _ (by have := abs_nonneg (f.ratValue y * f.ratValue w); linarith)
  · have h1 := mul_twice env hg hm hy hw (by linarith)
    rw [add_finite env hg.ok h1.1 hx, hm]
    exact key _ _ (by linarith [h1.2])

/-- The end of `__sinSeries`: `y * (x * x * x) + x`. -/
theorem sin_rel (hu : u ≤ 1 / 2 ^ 24) (b : Bool) {x y : f.Bits} (hx : f.isFinite x) (hr : |f.ratValue x| ≤ 79 / 10 ^ 2) {P e : ℚ}
    (hy : Appr f y P e (1720 / 10 ^ 4)) (he : e ≤ 1 / 10 ^ 6) :
    f.isFinite (madd env b y (Fmt.mul env (Fmt.mul env x x) x) x) ∧
    |f.ratValue (madd env b y (Fmt.mul env (Fmt.mul env x x) x) x) - (P * (f.ratValue x * f.ratValue x * f.ratValue x) + f.ratValue x)|
      ≤ (144 / 100 * u + 63 / 100 * e + 1 / 2 ^ 55) * |f.ratValue x| := by
  have hu0 := hg.pos
  obtain ⟨e0, _⟩ := hy.nonneg
  have hyv := hy.val
  have hr0 := abs_nonneg (f.ratValue x)
  have hrr : |f.ratValue x * f.ratValue x| ≤ 79 / 10 ^ 2 * |f.ratValue x| := by
    rw [abs_mul]; exact mul_le_mul_of_nonneg_right hr hr0
  have hrr1 : |f.ratValue x * f.ratValue x| ≤ 1 := by norm_num at *; linarith
  by_cases hc : (1 : ℚ) / 2 ^ 60 ≤ |f.ratValue x|
  · -- no underflow
    have heta : eta ≤ 1 / 2 ^ 60 * |f.ratValue x| := by
      unfold eta
      have := mul_le_mul_of_nonneg_left hc (show (0 : ℚ) ≤ 1 / 2 ^ 60 by positivity)
      norm_num at *; linarith
    have ht := mul_near env hg hm hx hx le_rfl (hrr1.trans (by norm_num))
    generalize Fmt.mul env x x = t at ht ⊢
    have ht1 : |f.ratValue t - f.ratValue x * f.ratValue x| ≤ 63 / 100 * u + 1 / 2 ^ 60 := by
      refine ht.err.trans ?_
      have h1 : |f.ratValue x * f.ratValue x| ≤ 63 / 100 := by norm_num at *; linarith
      have h2 := mul_le_mul_of_nonneg_left h1 hu0
      norm_num at *; linarith
    have htv : |f.ratValue t| ≤ 625 / 1000 := by
      have h1 : |f.ratValue x * f.ratValue x| ≤ 6241 / 10000 := by norm_num at *; linarith
      have h2 := abs_sub_abs_le_abs_sub (f.ratValue t) (f.ratValue x * f.ratValue x)
      norm_num at *; linarith
    have htr : |f.ratValue t * f.ratValue x| ≤ 625 / 1000 * |f.ratValue x| := by
      rw [abs_mul]; exact mul_le_mul_of_nonneg_right htv hr0
    have hw := mul_near env hg hm ht.fin hx le_rfl (htr.trans (by norm_num at *; linarith))
    generalize Fmt.mul env t x = w at hw ⊢
    have hw1 : |f.ratValue w - f.ratValue x * f.ratValue x * f.ratValue x| ≤ (1255 / 1000 * u + 2 / 2 ^ 60) * |f.ratValue x| := by
      have h1 := abs_add_le (f.ratValue w - f.ratValue t * f.ratValue x) ((f.ratValue t - f.ratValue x * f.ratValue x) * f.ratValue x)
      rw [show f.ratValue w - f.ratValue t * f.ratValue x + (f.ratValue t - f.ratValue x * f.ratValue x) * f.ratValue x
        = f.ratValue w - f.ratValue x * f.ratValue x * f.ratValue x by ring, abs_mul] at h1
      have h2 := mul_le_mul_of_nonneg_right ht1 hr0
      have h3 := mul_le_mul_of_nonneg_left htr hu0
      have h4 := hw.err
      rw [add_mul, mul_assoc (63 / 100 : ℚ)] at h2
      rw [add_mul, mul_assoc (1255 / 1000 : ℚ)]
      rw [mul_left_comm] at h3
      linarith
    have hcube : |f.ratValue x * f.ratValue x * f.ratValue x| ≤ 6241 / 10000 * |f.ratValue x| := by
      rw [abs_mul]
      refine mul_le_mul_of_nonneg_right ?_ hr0
      norm_num at *; linarith
    have hU : u * |f.ratValue x| ≤ 1 / 2 ^ 24 * |f.ratValue x| := mul_le_mul_of_nonneg_right hu hr0
    have hU0 : 0 ≤ u * |f.ratValue x| := mul_nonneg hu0 hr0
    have hwv : |f.ratValue w| ≤ 625 / 1000 * |f.ratValue x| := by
      have h2 := abs_sub_abs_le_abs_sub (f.ratValue w) (f.ratValue x * f.ratValue x * f.ratValue x)
      rw [add_mul, mul_assoc (1255 / 1000 : ℚ)] at hw1
      linarith
    have hyv' : |f.ratValue y| ≤ 17201 / 10 ^ 5 := by norm_num at *; linarith
    have hA : |f.ratValue y * f.ratValue w| ≤ 1076 / 10000 * |f.ratValue x| := by
      rw [abs_mul]
      refine (mul_le_mul hyv' hwv (abs_nonneg _) (by norm_num)).trans ?_
      norm_num at *; linarith
    have hB : |f.ratValue y * f.ratValue w + f.ratValue x| ≤ 11076 / 10000 * |f.ratValue x| := (abs_add_le _ _).trans (by linarith)
    have heta1 : eta ≤ 1 := by unfold eta; norm_num
    have huA : u * (1076 / 10000 * |f.ratValue x|) ≤ 1 / 10 ^ 8 * |f.ratValue x| := by
      rw [mul_left_comm]; norm_num at *; linarith
    have hz := madd_near env hg hm b hy.fin hw.fin hx hA hB le_rfl (by norm_num at *; linarith) (by norm_num at *; linarith)
    refine ⟨hz.fin, ?_⟩
    have hp : |f.ratValue y * f.ratValue w - P * (f.ratValue x * f.ratValue x * f.ratValue x)| ≤ e * (625 / 1000 * |f.ratValue x|) + 1720 / 10 ^ 4 * ((1255 / 1000 * u + 2 / 2 ^ 60) * |f.ratValue x|) :=
      prod_err hy.err hw1 hy.mag hwv
    have h1 := abs_add_le (f.ratValue (madd env b y w x) - (f.ratValue y * f.ratValue w + f.ratValue x)) (f.ratValue y * f.ratValue w - P * (f.ratValue x * f.ratValue x * f.ratValue x))
    rw [show f.ratValue (madd env b y w x) - (f.ratValue y * f.ratValue w + f.ratValue x) + (f.ratValue y * f.ratValue w - P * (f.ratValue x * f.ratValue x * f.ratValue x))
      = f.ratValue (madd env b y w x) - (P * (f.ratValue x * f.ratValue x * f.ratValue x) + f.ratValue x) by ring] at h1
    refine h1.trans ((add_le_add hz.err hp).trans ?_)
    have hx1 : u * (11076 / 10000 * |f.ratValue x| + u * (1076 / 10000 * |f.ratValue x|) + eta) ≤ u * ((11076 / 10000 + 1 / 10 ^ 7) * |f.ratValue x|) := by
      refine mul_le_mul_of_nonneg_left ?_ hu0
      norm_num at *; linarith
    have hE0 : 0 ≤ e * |f.ratValue x| := mul_nonneg e0 hr0
    have e1 : u * (1076 / 10000 * |f.ratValue x|) = 1076 / 10000 * (u * |f.ratValue x|) := by ring
    have e2 : u * ((11076 / 10000 + 1 / 10 ^ 7) * |f.ratValue x|) = (11076 / 10000 + 1 / 10 ^ 7) * (u * |f.ratValue x|) := by ring
    have e3 : e * (625 / 1000 * |f.ratValue x|) = 625 / 1000 * (e * |f.ratValue x|) := by ring
    have e4 : (1255 / 1000 * u + 2 / 2 ^ 60) * |f.ratValue x| = 1255 / 1000 * (u * |f.ratValue x|) + 2 / 2 ^ 60 * |f.ratValue x| := by ring
    have e5 : (144 / 100 * u + 63 / 100 * e + 1 / 2 ^ 55) * |f.ratValue x| = 144 / 100 * (u * |f.ratValue x|) + 63 / 100 * (e * |f.ratValue x|) + 1 / 2 ^ 55 * |f.ratValue x| := by ring
    rw [e2] at hx1
    rw [e1, e3, e4, e5]
    rw [e1] at hx1
    norm_num at *
    linarith
  · -- the cube does not matter
    have hc := (not_le.1 hc).le
    have ht := mul_twice env hg hm hx hx hrr1
    have ht1 : |f.ratValue (Fmt.mul env x x)| ≤ 3 / 2 ^ 60 * |f.ratValue x| := by
      refine ht.2.trans ?_
      rw [abs_mul]
      have := mul_le_mul_of_nonneg_right hc hr0
      linarith
    have htr : |f.ratValue (Fmt.mul env x x) * f.ratValue x| ≤ 3 / 2 ^ 120 * |f.ratValue x| := by
      rw [abs_mul]
      have := mul_le_mul ht1 hc hr0 (by positivity)
      refine this.trans (le_of_eq (by ring))
    have hw := mul_twice env hg hm ht.1 hx (by norm_num at *; linarith)
    have hyw : |f.ratValue y * f.ratValue (Fmt.mul env (Fmt.mul env x x) x)| ≤ 9 / 2 ^ 120 * |f.ratValue x| := by
      rw [abs_mul]
      have h1 : |f.ratValue y| ≤ 1 := by norm_num at *; linarith
      have := mul_le_mul h1 (hw.2.trans (mul_le_mul_of_nonneg_left htr (by norm_num : (0 : ℚ) ≤ 3))) (abs_nonneg _) (by norm_num)
      refine this.trans (le_of_eq (by ring))
    have hz := madd_tiny env hg hm b hy.fin hw.1 hx hyw (by norm_num) hr
    refine ⟨hz.fin, ?_⟩
    have h3 : |P * (f.ratValue x * f.ratValue x * f.ratValue x)| ≤ 1 / 2 ^ 120 * |f.ratValue x| := by
      rw [abs_mul, abs_mul, abs_mul]
      have h1 : |P| ≤ 1 := hy.mag.trans (by norm_num)
      have h2 : |f.ratValue x| * |f.ratValue x| ≤ 1 / 2 ^ 60 * (1 / 2 ^ 60) := mul_le_mul hc hc hr0 (by positivity)
      have h4 := mul_le_mul_of_nonneg_right h2 hr0
      have := mul_le_mul h1 h4 (by positivity) (by norm_num)
      refine this.trans (le_of_eq (by ring))
    have h4 := abs_sub (f.ratValue (madd env b y (Fmt.mul env (Fmt.mul env x x) x) x) - f.ratValue x) (P * (f.ratValue x * f.ratValue x * f.ratValue x))
    rw [show f.ratValue (madd env b y (Fmt.mul env (Fmt.mul env x x) x) x) - f.ratValue x - P * (f.ratValue x * f.ratValue x * f.ratValue x)
      = f.ratValue (madd env b y (Fmt.mul env (Fmt.mul env x x) x) x) - (P * (f.ratValue x * f.ratValue x * f.ratValue x) + f.ratValue x) by ring] at h4
    refine h4.trans ((add_le_add hz.err h3).trans ?_)
    rw [← add_mul]
    refine mul_le_mul_of_nonneg_right ?_ hr0
    norm_num; linarith
end

/-! ## The series -/

/-- The factor of the cube in the series. -/
def qSinF (r : ℚ) : ℚ :=
  let t := r * r
  (-0x19CC000 / 2 ^ 37 * t + 0x1111100 / 2 ^ 31) * t - 0x1555556 / 2 ^ 27
def qSinD (r : ℚ) : ℚ :=
  let t := r * r
  (((((-0x1ACF0000000000 / 2 ^ 93 * t + 0x16124400000000 / 2 ^ 85) * t - 0x1AE64567000000 / 2 ^ 78) * t + 0x171DE3A5540000 / 2 ^ 71) * t
    - 0x1A01A01A01A000 / 2 ^ 65) * t + 0x11111111111110 / 2 ^ 59) * t - 0x15555555555555 / 2 ^ 55

variable (E : Env)

theorem sinSeriesF_form (hm : E.F.mode = .nearest) {x : F.Bits} (hf : F.isFinite x) (hr : |F.ratValue x| ≤ 79 / 10 ^ 2) :
    ∃ y, sinSeriesF E x = madd E.F (E.fused 13) y (Fmt.mul E.F (Fmt.mul E.F x x) x) x ∧ Appr F y (qSinF (F.ratValue x)) (1121 / 10 ^ 11) (1720 / 10 ^ 4) := by
  have hx : Appr F x (F.ratValue x) 0 (79 / 10 ^ 2) := ⟨Near.self hf, hr⟩
  have ht := mul_step E.F goodF hm hx hx (D := 3720 / 10 ^ 11) (K := 6241 / 10 ^ 4) (by norm_num [eta]) (by norm_num) (by norm_num)
  have c0 := litF (-27049984) (-37) (-27049984 / 2 ^ 37) (M := 1969 / 10 ^ 7) (by decide) (by decide) (by norm_num) (by norm_num [abs_of_neg])
  have c1 := litF (17895680) (-31) (17895680 / 2 ^ 31) (M := 8334 / 10 ^ 6) (by decide) (by decide) (by norm_num) (by norm_num [abs_of_neg])
  have y1 := madd_step E.F goodF hm (E.fused 11) c0 ht c1 (D := 5188 / 10 ^ 13) (K := 8457 / 10 ^ 6) (by norm_num [eta]) (by norm_num) (by norm_num) (by norm_num)
  have c2 := litF (22369622) (-27) (22369622 / 2 ^ 27) (M := 1667 / 10 ^ 4) (by decide) (by decide) (by norm_num) (by norm_num [abs_of_neg])
  have y2 := msub_step E.F goodF hm (E.fused 12) y1 ht c2 (D := 1121 / 10 ^ 11) (K := 1720 / 10 ^ 4) (by norm_num [eta]) (by norm_num) (by norm_num) (by norm_num)
  exact ⟨_, rfl, cast_appr y2 (by simp only [qSinF])⟩

theorem sinSeriesD_form (hm : E.D.mode = .nearest) {x : D.Bits} (hf : D.isFinite x) (hr : |D.ratValue x| ≤ 79 / 10 ^ 2) :
    ∃ y, sinSeriesD E x = madd E.D (E.fused 20) y (Fmt.mul E.D (Fmt.mul E.D x x) x) x ∧ Appr D y (qSinD (D.ratValue x)) (2088 / 10 ^ 20) (1720 / 10 ^ 4) := by
  have hx : Appr D x (D.ratValue x) 0 (79 / 10 ^ 2) := ⟨Near.self hf, hr⟩
  have ht := mul_step E.D goodD hm hx hx (D := 6929 / 10 ^ 20) (K := 6241 / 10 ^ 4) (by norm_num [eta]) (by norm_num) (by norm_num)
  have c0 := litD (-7545948301426688) (-93) (-7545948301426688 / 2 ^ 93) (M := 7620 / 10 ^ 16) (by decide) (by decide) (by norm_num) (by norm_num [abs_of_neg])
  have c1 := litD (6212532754710528) (-85) (6212532754710528 / 2 ^ 85) (M := 1606 / 10 ^ 13) (by decide) (by decide) (by norm_num) (by norm_num [abs_of_neg])
  have y1 := madd_step E.D goodD hm (E.fused 14) c0 ht c1 (D := 1799 / 10 ^ 29) (K := 1611 / 10 ^ 13) (by norm_num [eta]) (by norm_num) (by norm_num) (by norm_num)
  have c2 := litD (7571535149662208) (-78) (7571535149662208 / 2 ^ 78) (M := 2506 / 10 ^ 11) (by decide) (by decide) (by norm_num) (by norm_num [abs_of_neg])
  have y2 := msub_step E.D goodD hm (E.fused 15) y1 ht c2 (D := 2827 / 10 ^ 27) (K := 2517 / 10 ^ 11) (by norm_num [eta]) (by norm_num) (by norm_num) (by norm_num)
  have c3 := litD (6506788032872448) (-71) (6506788032872448 / 2 ^ 71) (M := 2756 / 10 ^ 9) (by decide) (by decide) (by norm_num) (by norm_num [abs_of_neg])
  have y3 := madd_step E.D goodD hm (E.fused 16) y2 ht c3 (D := 3130 / 10 ^ 25) (K := 2772 / 10 ^ 9) (by norm_num [eta]) (by norm_num) (by norm_num) (by norm_num)
  have c4 := litD (7320136537186304) (-65) (7320136537186304 / 2 ^ 65) (M := 1985 / 10 ^ 7) (by decide) (by decide) (by norm_num) (by norm_num [abs_of_neg])
  have y4 := msub_step E.D goodD hm (E.fused 17) y3 ht c4 (D := 2281 / 10 ^ 23) (K := 2003 / 10 ^ 7) (by norm_num [eta]) (by norm_num) (by norm_num) (by norm_num)
  have c5 := litD (4803839602528528) (-59) (4803839602528528 / 2 ^ 59) (M := 8334 / 10 ^ 6) (by decide) (by decide) (by norm_num) (by norm_num [abs_of_neg])
  have y5 := madd_step E.D goodD hm (E.fused 18) y4 ht c5 (D := 9812 / 10 ^ 22) (K := 8460 / 10 ^ 6) (by norm_num [eta]) (by norm_num) (by norm_num) (by norm_num)
  have c6 := litD (6004799503160661) (-55) (6004799503160661 / 2 ^ 55) (M := 1667 / 10 ^ 4) (by decide) (by decide) (by norm_num) (by norm_num [abs_of_neg])
  have y6 := msub_step E.D goodD hm (E.fused 19) y5 ht c6 (D := 2088 / 10 ^ 20) (K := 1720 / 10 ^ 4) (by norm_num [eta]) (by norm_num) (by norm_num) (by norm_num)
  exact ⟨_, rfl, cast_appr y6 (by simp only [qSinD])⟩

/-! ## The polynomials -/

theorem taylor9_rel {r : ℝ} (h : |r| ≤ 79 / 100) : |Real.sin r - sinT 9 r| ≤ 4 / 10 ^ 18 * |r| := by
  have h1 := (taylor 9 (by norm_num) r (by linarith)).2
  refine h1.trans ?_
  have : |r| ^ 17 ≤ (79 / 100) ^ 17 := pow_le_pow_left₀ (abs_nonneg _) h 17
  have h3 : ((2 * 9 + 1 : ℕ) * ((2 * 9).factorial * (2 * 9 : ℕ) : ℝ)⁻¹) = 19 / (6402373705728000 * 18) := by
    norm_num [Nat.factorial]
  rw [h3]
  have h4 : |r| ^ 17 * (19 / (6402373705728000 * 18)) ≤ 4 / 10 ^ 18 :=
    (mul_le_mul_of_nonneg_right this (by norm_num)).trans (by norm_num)
  have h5 := mul_le_mul_of_nonneg_right h4 (abs_nonneg r)
  refine le_trans (le_of_eq ?_) h5
  ring

theorem pSinD_rel {r : ℚ} (h : |(r : ℝ)| ≤ 79 / 100) : |(pSinD r : ℝ) - Real.sin r| ≤ 214 / 10 ^ 18 * |(r : ℝ)| := by
  obtain ⟨h0, h1⟩ := sq_bound h
  have hT := taylor9_rel h
  refine close hT (e2 := 210 / 10 ^ 18 * |(r : ℝ)|) ?_ (by have := abs_nonneg (r : ℝ); linarith)
  have e : (pSinD r : ℝ) - sinT 9 r = r * ((r * r : ℝ) * hev [-(0x15555555555555 / 2 ^ 55) + 1 / 6, 0x11111111111110 / 2 ^ 59 - 1 / 120,
      -(0x1A01A01A01A000 / 2 ^ 65) + 1 / 5040, 0x171DE3A5540000 / 2 ^ 71 - 1 / 362880, -(0x1AE64567000000 / 2 ^ 78) + 1 / 39916800,
      0x16124400000000 / 2 ^ 85 - 1 / 6227020800, -(0x1ACF0000000000 / 2 ^ 93) + 1 / 1307674368000, -1 / 355687428096000] (r * r)) := by
    simp only [pSinD, sinT, Finset.sum_range_succ, Finset.sum_range_zero, Nat.factorial, hev]
    push_cast
    ring
  rw [e, abs_mul, mul_comm]
  refine mul_le_mul_of_nonneg_right ?_ (abs_nonneg _)
  generalize (r * r : ℝ) = t at *
  have h2 : |t| ≤ 6241 / 10000 := by rw [abs_of_nonneg h0]; exact h1
  have h3 := fun l => mul_hev_le l h2
  refine (h3 _).trans ?_
  simp only [List.map_cons, List.map_nil, hev]
  norm_num [abs_of_pos, abs_of_neg]

theorem sinF_peak_rel {t : ℝ} (h0 : 0 ≤ t) (h1 : t ≤ 6241 / 10000) :
    |(t * t * t) * (-(0x19CC000 / 2 ^ 37) + 1 / 5040 - 1 / 362880 * t)| ≤ 67 / 10 ^ 9 := by
  have key : ∀ T lo hi : ℝ, t ≤ T → 0 ≤ T →
      lo ≤ -(0x19CC000 / 2 ^ 37) + 1 / 5040 - 1 / 362880 * t → -(0x19CC000 / 2 ^ 37) + 1 / 5040 - 1 / 362880 * t ≤ hi → -hi ≤ lo →
      (T * T * T) * hi ≤ 67 / 10 ^ 9 → |(t * t * t) * (-(0x19CC000 / 2 ^ 37) + 1 / 5040 - 1 / 362880 * t)| ≤ 67 / 10 ^ 9 := by
    intro T lo hi hT hT0 hlo hhi hlh hb
    generalize -(0x19CC000 / 2 ^ 37) + 1 / 5040 - 1 / 362880 * t = g at *
    have a1 : |g| ≤ hi := abs_le.2 ⟨by linarith, hhi⟩
    have a2 : t * t ≤ T * T := mul_le_mul hT hT h0 hT0
    have a3 : |t * t * t| ≤ T * T * T := by
      rw [abs_of_nonneg (by positivity)]; exact mul_le_mul a2 hT h0 (by positivity)
    rw [abs_mul]
    exact (mul_le_mul a3 a1 (abs_nonneg _) (by positivity)).trans hb
  rcases le_total t (3 / 10) with a | a
  · exact key (3 / 10) 0 (16 / 10 ^ 7) a (by norm_num) (by norm_num at *; linarith) (by norm_num at *; linarith) (by norm_num) (by norm_num)
  rcases le_total t (44 / 100) with b | b
  · exact key (44 / 100) 0 (78 / 10 ^ 8) b (by norm_num) (by norm_num at *; linarith) (by norm_num at *; linarith) (by norm_num) (by norm_num)
  rcases le_total t (55 / 100) with c | c
  · exact key (55 / 100) 0 (39 / 10 ^ 8) c (by norm_num) (by norm_num at *; linarith) (by norm_num at *; linarith) (by norm_num) (by norm_num)
  · exact key (6241 / 10000) (-(13 / 10 ^ 8)) (13 / 10 ^ 8) h1 (by norm_num) (by norm_num at *; linarith) (by norm_num at *; linarith) (by norm_num) (by norm_num)

theorem pSinF_rel {r : ℚ} (h : |(r : ℝ)| ≤ 79 / 100) : |(pSinF r : ℝ) - Real.sin r| ≤ 77 / 10 ^ 9 * |(r : ℝ)| := by
  obtain ⟨h0, h1⟩ := sq_bound h
  have hT := taylor9_rel h
  refine close hT (e2 := 765 / 10 ^ 10 * |(r : ℝ)|) ?_ (by have := abs_nonneg (r : ℝ); linarith)
  have e : (pSinF r : ℝ) - sinT 9 r = r * (((r * r) * (r * r) * (r * r)) * (-(0x19CC000 / 2 ^ 37) + 1 / 5040 - 1 / 362880 * (r * r))
      + ((r * r : ℝ) * hev [-(0x1555556 / 2 ^ 27) + 1 / 6, 0x1111100 / 2 ^ 31 - 1 / 120, 0, 0, 1 / 39916800, -1 / 6227020800,
        1 / 1307674368000, -1 / 355687428096000] (r * r))) := by
    simp only [pSinF, sinT, Finset.sum_range_succ, Finset.sum_range_zero, Nat.factorial, hev]
    push_cast
    ring
  rw [e, abs_mul, mul_comm]
  refine mul_le_mul_of_nonneg_right ?_ (abs_nonneg _)
  have h4 := sinF_peak_rel h0 h1
  generalize (r * r : ℝ) = t at *
  have h2 : |t| ≤ 6241 / 10000 := by rw [abs_of_nonneg h0]; exact h1
  refine (abs_add_le _ _).trans ?_
  have h5 : |(t * hev [-(0x1555556 / 2 ^ 27) + 1 / 6, 0x1111100 / 2 ^ 31 - 1 / 120, 0, 0, 1 / 39916800, -1 / 6227020800,
      1 / 1307674368000, -1 / 355687428096000] t)| ≤ 9 / 10 ^ 9 := by
    have h3 := fun l => mul_hev_le l h2
    refine (h3 _).trans ?_
    simp only [List.map_cons, List.map_nil, hev]
    norm_num [abs_of_pos, abs_of_neg]
  linarith

end StdSimd.Trig
