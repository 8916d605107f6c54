import Verif.Proofs.TrigTaylor
import Mathlib.Tactic.Linarith
import Mathlib.Tactic.Positivity
import Mathlib.Tactic.NormNum
/-! # The polynomials of `__cosSeries` and `__sinSeries` approximate cosine and sine -/
namespace StdSimd.Trig

/-- The exact values of the series. -/
def pCosF (r : ℚ) : ℚ :=
  let t := r * r
  ((0x1a / 2 ^ 20 * t - 0x16c1 / 2 ^ 22) * t + 0x1555556 / 2 ^ 29) * (t * t) - 1 / 2 * t + 1
def pSinF (r : ℚ) : ℚ :=
  let t := r * r
  ((-0x19CC000 / 2 ^ 37 * t + 0x1111100 / 2 ^ 31) * t - 0x1555556 / 2 ^ 27) * (t * r) + r
def pCosD (r : ℚ) : ℚ :=
  let t := r * r
  (((((((0x1AC00000000000 / 2 ^ 97 * t - 0x19394000000000 / 2 ^ 89) * t + 0x11EED8C0000000 / 2 ^ 81) * t - 0x127E4FB7400000 / 2 ^ 74) * t
    + 0x1A01A01A018000 / 2 ^ 68) * t - 0x16C16C16C16C00 / 2 ^ 62) * t + 0x15555555555554 / 2 ^ 57) * t - 1 / 2) * t + 1
def pSinD (r : ℚ) : ℚ :=
  let t := r * r
  ((((((-0x1ACF0000000000 / 2 ^ 93 * t + 0x16124400000000 / 2 ^ 85) * t - 0x1AE64567000000 / 2 ^ 78) * t + 0x171DE3A5540000 / 2 ^ 71) * t
    - 0x1A01A01A01A000 / 2 ^ 65) * t + 0x11111111111110 / 2 ^ 59) * t - 0x15555555555555 / 2 ^ 55) * (t * r) + r

/-- Evaluation of a polynomial. -/
noncomputable def hev : List ℝ → ℝ → ℝ
  | [], _ => 0
  | d :: ds, t => d + t * hev ds t

theorem hev_le (ds : List ℝ) {t T : ℝ} (h : |t| ≤ T) : |hev ds t| ≤ hev (ds.map abs) T := by
  have hT : 0 ≤ T := (abs_nonneg _).trans h
  induction ds with
  | nil => simp [hev]
  | cons d ds ih =>
    simp only [hev, List.map_cons]
    refine (abs_add_le _ _).trans ?_
    rw [abs_mul]
    have := mul_le_mul h ih (abs_nonneg _) hT
    linarith

theorem mul_hev_le (ds : List ℝ) {t T : ℝ} (h : |t| ≤ T) : |t * hev ds t| ≤ T * hev (ds.map abs) T := by
  rw [abs_mul]; exact mul_le_mul h (hev_le ds h) (abs_nonneg _) ((abs_nonneg _).trans h)

theorem sq_bound {r : ℝ} (h : |r| ≤ 79 / 100) : 0 ≤ r * r ∧ r * r ≤ 6241 / 10000 := by
  refine ⟨mul_self_nonneg r, ?_⟩
  have := mul_le_mul h h (abs_nonneg _) (by norm_num)
  rw [abs_mul_abs_self] at this
  linarith

/-- The remainder of the Taylor polynomials used. -/
theorem taylor9 {r : ℝ} (h : |r| ≤ 79 / 100) :
    |Real.cos r - cosT 9 r| ≤ 3 / 10 ^ 18 ∧ |Real.sin r - sinT 9 r| ≤ 3 / 10 ^ 18 := by
  have h1 := taylor 9 (by norm_num) r (by linarith)
  have h2 : |r| ^ (2 * 9) * ((2 * 9 + 1 : ℕ) * ((2 * 9).factorial * (2 * 9 : ℕ) : ℝ)⁻¹) ≤ 3 / 10 ^ 18 := by
    have : |r| ^ 18 ≤ (79 / 100) ^ 18 := pow_le_pow_left₀ (abs_nonneg _) h 18
    have h3 : ((2 * 9 + 1 : ℕ) * ((2 * 9).factorial * (2 * 9 : ℕ) : ℝ)⁻¹) = 19 / (6402373705728000 * 18) := by
      norm_num [Nat.factorial]
    rw [h3]
    have h4 : |r| ^ 18 * (19 / (6402373705728000 * 18)) ≤ (79 / 100) ^ 18 * (19 / (6402373705728000 * 18)) :=
      mul_le_mul_of_nonneg_right this (by norm_num)
    exact h4.trans (by norm_num)
  exact ⟨h1.1.trans h2, h1.2.trans h2⟩

theorem close {a b c e1 e2 e : ℝ} (h1 : |a - b| ≤ e1) (h2 : |c - b| ≤ e2) (h : e1 + e2 ≤ e) : |c - a| ≤ e := by
  have : c - a = (c - b) + -(a - b) := by ring
  rw [this]
  have := abs_add_le (c - b) (-(a - b))
  rw [abs_neg] at this
  linarith

theorem pCosD_close {r : ℚ} (h : |(r : ℝ)| ≤ 79 / 100) : |(pCosD r : ℝ) - Real.cos r| ≤ 8 / 10 ^ 17 := by
  obtain ⟨h0, h1⟩ := sq_bound h
  refine close (taylor9 h).1 (e2 := 7 / 10 ^ 17) ?_ (by norm_num)
  have e : (pCosD r : ℝ) - cosT 9 r = (r * r : ℝ) * (r * r) * hev [0x15555555555554 / 2 ^ 57 - 1 / 24, -(0x16C16C16C16C00 / 2 ^ 62) + 1 / 720,
      0x1A01A01A018000 / 2 ^ 68 - 1 / 40320, -(0x127E4FB7400000 / 2 ^ 74) + 1 / 3628800, 0x11EED8C0000000 / 2 ^ 81 - 1 / 479001600,
      -(0x19394000000000 / 2 ^ 89) + 1 / 87178291200, 0x1AC00000000000 / 2 ^ 97 - 1 / 20922789888000] (r * r) := by
    simp only [pCosD, cosT, Finset.sum_range_succ, Finset.sum_range_zero, Nat.factorial, hev]
    push_cast
    ring
  rw [e]
  generalize (r * r : ℝ) = t at *
  have h2 : |t| ≤ 6241 / 10000 := by rw [abs_of_nonneg h0]; exact h1
  have h3 : |t * t| ≤ 6241 / 10000 * (6241 / 10000) := by rw [abs_mul]; exact mul_le_mul h2 h2 (abs_nonneg _) (by norm_num)
  rw [abs_mul]
  refine (mul_le_mul h3 (hev_le _ h2) (abs_nonneg _) (by norm_num)).trans ?_
  simp only [List.map_cons, List.map_nil, hev]
  norm_num [abs_of_pos, abs_of_neg]

theorem pSinD_close {r : ℚ} (h : |(r : ℝ)| ≤ 79 / 100) : |(pSinD r : ℝ) - Real.sin r| ≤ 17 / 10 ^ 17 := by
  obtain ⟨h0, h1⟩ := sq_bound h
  refine close (taylor9 h).2 (e2 := 165 / 10 ^ 18) ?_ (by norm_num)
  have e : (pSinD r : ℝ) - sinT 9 r = r * ((r * r : ℝ) * hev [-(0x15555555555555 / 2 ^ 55) + 1 / 6, 0x11111111111110 / 2 ^ 59 - 1 / 120,
      -(0x1A01A01A01A000 / 2 ^ 65) + 1 / 5040, 0x171DE3A5540000 / 2 ^ 71 - 1 / 362880, -(0x1AE64567000000 / 2 ^ 78) + 1 / 39916800,
      0x16124400000000 / 2 ^ 85 - 1 / 6227020800, -(0x1ACF0000000000 / 2 ^ 93) + 1 / 1307674368000, -1 / 355687428096000] (r * r)) := by
    simp only [pSinD, sinT, Finset.sum_range_succ, Finset.sum_range_zero, Nat.factorial, hev]
    push_cast
    ring
  rw [e, abs_mul]
  generalize (r * r : ℝ) = t at *
  have h2 : |t| ≤ 6241 / 10000 := by rw [abs_of_nonneg h0]; exact h1
  have h3 := fun l => mul_hev_le l h2
  refine (mul_le_mul h (h3 _) (abs_nonneg _) (by norm_num)).trans ?_
  simp only [List.map_cons, List.map_nil, hev]
  norm_num [abs_of_pos, abs_of_neg]

theorem pCosF_close {r : ℚ} (h : |(r : ℝ)| ≤ 79 / 100) : |(pCosF r : ℝ) - Real.cos r| ≤ 54 / 10 ^ 9 := by
  obtain ⟨h0, h1⟩ := sq_bound h
  refine close (taylor9 h).1 (e2 := 53 / 10 ^ 9) ?_ (by norm_num)
  have e : (pCosF r : ℝ) - cosT 9 r = (r * r : ℝ) * (r * r) * hev [0x1555556 / 2 ^ 29 - 1 / 24, -(0x16c1 / 2 ^ 22) + 1 / 720,
      0x1a / 2 ^ 20 - 1 / 40320, 1 / 3628800, -1 / 479001600, 1 / 87178291200, -1 / 20922789888000] (r * r) := by
    simp only [pCosF, cosT, Finset.sum_range_succ, Finset.sum_range_zero, Nat.factorial, hev]
    push_cast
    ring
  rw [e]
  generalize (r * r : ℝ) = t at *
  have h2 : |t| ≤ 6241 / 10000 := by rw [abs_of_nonneg h0]; exact h1
  have h3 : |t * t| ≤ 6241 / 10000 * (6241 / 10000) := by rw [abs_mul]; exact mul_le_mul h2 h2 (abs_nonneg _) (by norm_num)
  rw [abs_mul]
  refine (mul_le_mul h3 (hev_le _ h2) (abs_nonneg _) (by norm_num)).trans ?_
  simp only [List.map_cons, List.map_nil, hev]
  norm_num [abs_of_pos, abs_of_neg]

/-- The difference of the seventh powers' coefficients and the ninth power nearly cancel. -/
theorem sinF_peak {r t : ℝ} (hr : r * r = t) (h : |r| ≤ 79 / 100) :
    |r * (t * t * t) * (-(0x19CC000 / 2 ^ 37) + 1 / 5040 - 1 / 362880 * t)| ≤ 5 / 10 ^ 8 := by
  obtain ⟨h0, h1⟩ := sq_bound h
  rw [hr] at h0 h1
  have key : ∀ R T lo hi : ℝ, |r| ≤ R → t ≤ T → 0 ≤ R → 0 ≤ T →
      lo ≤ -(0x19CC000 / 2 ^ 37) + 1 / 5040 - 1 / 362880 * t → -(0x19CC000 / 2 ^ 37) + 1 / 5040 - 1 / 362880 * t ≤ hi → -hi ≤ lo →
      R * (T * T * T) * hi ≤ 5 / 10 ^ 8 → |r * (t * t * t) * (-(0x19CC000 / 2 ^ 37) + 1 / 5040 - 1 / 362880 * t)| ≤ 5 / 10 ^ 8 := by
    intro R T lo hi hR hT hR0 hT0 hlo hhi hlh hb
    generalize -(0x19CC000 / 2 ^ 37) + 1 / 5040 - 1 / 362880 * t = g at *
    have a1 : |g| ≤ hi := abs_le.2 ⟨by linarith, hhi⟩
    have a2 : t * t ≤ T * T := mul_le_mul hT hT h0 hT0
    have a3 : |t * t * t| ≤ T * T * T := by
      rw [abs_of_nonneg (by positivity)]; exact mul_le_mul a2 hT h0 (by positivity)
    have a4 : |r * (t * t * t)| ≤ R * (T * T * T) := by
      rw [abs_mul]; exact mul_le_mul hR a3 (abs_nonneg _) hR0
    rw [abs_mul]
    exact (mul_le_mul a4 a1 (abs_nonneg _) (by positivity)).trans hb
  have rb : ∀ T R : ℝ, t ≤ T → 0 ≤ R → T ≤ R * R → |r| ≤ R := by
    intro T R h1 h2 h3
    have : |r| * |r| ≤ R * R := by rw [abs_mul_abs_self, hr]; linarith
    exact abs_le_of_sq_le_sq (by rw [sq, sq]; rw [abs_mul_abs_self] at this; exact this) h2
  rcases le_total t (3 / 10) with a | a
  · exact key (55 / 100) (3 / 10) 0 (16 / 10 ^ 7) (rb _ _ a (by norm_num) (by norm_num)) a (by norm_num) (by norm_num)
      (by norm_num at *; linarith) (by norm_num at *; linarith) (by norm_num) (by norm_num)
  rcases le_total t (44 / 100) with b | b
  · exact key (664 / 1000) (44 / 100) 0 (78 / 10 ^ 8) (rb _ _ b (by norm_num) (by norm_num)) b (by norm_num) (by norm_num)
      (by norm_num at *; linarith) (by norm_num at *; linarith) (by norm_num) (by norm_num)
  rcases le_total t (55 / 100) with c | c
  · exact key (742 / 1000) (55 / 100) 0 (39 / 10 ^ 8) (rb _ _ c (by norm_num) (by norm_num)) c (by norm_num) (by norm_num)
      (by norm_num at *; linarith) (by norm_num at *; linarith) (by norm_num) (by norm_num)
  · exact key (79 / 100) (6241 / 10000) (-(13 / 10 ^ 8)) (13 / 10 ^ 8) h h1 (by norm_num) (by norm_num)
      (by norm_num at *; linarith) (by norm_num at *; linarith) (by norm_num) (by norm_num)

theorem pSinF_close {r : ℚ} (h : |(r : ℝ)| ≤ 79 / 100) : |(pSinF r : ℝ) - Real.sin r| ≤ 58 / 10 ^ 9 := by
  obtain ⟨h0, h1⟩ := sq_bound h
  refine close (taylor9 h).2 (e2 := 57 / 10 ^ 9) ?_ (by norm_num)
  have e : (pSinF r : ℝ) - sinT 9 r = r * ((r * r) * (r * r) * (r * r)) * (-(0x19CC000 / 2 ^ 37) + 1 / 5040 - 1 / 362880 * (r * r))
      + r * ((r * r : ℝ) * hev [-(0x1555556 / 2 ^ 27) + 1 / 6, 0x1111100 / 2 ^ 31 - 1 / 120, 0, 0, 1 / 39916800, -1 / 6227020800,
        1 / 1307674368000, -1 / 355687428096000] (r * r)) := by
    simp only [pSinF, sinT, Finset.sum_range_succ, Finset.sum_range_zero, Nat.factorial, hev]
    push_cast
    ring
  rw [e]
  have h4 := sinF_peak rfl h
  generalize (r * r : ℝ) = t at *
  have h2 : |t| ≤ 6241 / 10000 := by rw [abs_of_nonneg h0]; exact h1
  refine (abs_add_le _ _).trans ?_
  have h5 : |(r : ℝ) * (t * hev [-(0x1555556 / 2 ^ 27) + 1 / 6, 0x1111100 / 2 ^ 31 - 1 / 120, 0, 0, 1 / 39916800, -1 / 6227020800,
      1 / 1307674368000, -1 / 355687428096000] t)| ≤ 7 / 10 ^ 9 := by
    rw [abs_mul]
    have h3 := fun l => mul_hev_le l h2
    refine (mul_le_mul h (h3 _) (abs_nonneg _) (by norm_num)).trans ?_
    simp only [List.map_cons, List.map_nil, hev]
    norm_num [abs_of_pos, abs_of_neg]
  linarith

end StdSimd.Trig
