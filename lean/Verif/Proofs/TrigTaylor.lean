import Mathlib.Analysis.Complex.Trigonometric
import Mathlib.Analysis.Complex.Norm
/-! # Taylor polynomials of sine and cosine -/
namespace StdSimd.Trig
open Finset

/-- The Taylor polynomials with `k` terms. -/
noncomputable def cosT (k : ℕ) (x : ℝ) : ℝ := ∑ j ∈ range k, (-1) ^ j * x ^ (2 * j) / (2 * j).factorial
noncomputable def sinT (k : ℕ) (x : ℝ) : ℝ := ∑ j ∈ range k, (-1) ^ j * x ^ (2 * j + 1) / (2 * j + 1).factorial

theorem sum_exp (k : ℕ) (x : ℝ) :
    ∑ m ∈ range (2 * k), ((x : ℂ) * Complex.I) ^ m / (m.factorial : ℂ) = (cosT k x : ℂ) + (sinT k x : ℂ) * Complex.I := by
  induction k with
  | zero => simp [cosT, sinT]
  | succ k ih =>
    rw [show 2 * (k + 1) = 2 * k + 1 + 1 by ring, sum_range_succ, sum_range_succ, ih]
    unfold cosT sinT
    rw [sum_range_succ, sum_range_succ]
    have h : ((x : ℂ) * Complex.I) ^ (2 * k) = (-1) ^ k * (x : ℂ) ^ (2 * k) := by
      rw [mul_pow, pow_mul Complex.I, Complex.I_sq]; ring
    rw [pow_succ ((x : ℂ) * Complex.I), h]
    push_cast
    ring

theorem taylor (k : ℕ) (hk : 0 < k) (x : ℝ) (hx : |x| ≤ 1) :
    |Real.cos x - cosT k x| ≤ |x| ^ (2 * k) * ((2 * k + 1 : ℕ) * ((2 * k).factorial * (2 * k : ℕ) : ℝ)⁻¹)
      ∧ |Real.sin x - sinT k x| ≤ |x| ^ (2 * k) * ((2 * k + 1 : ℕ) * ((2 * k).factorial * (2 * k : ℕ) : ℝ)⁻¹) := by
  have hn : ‖(x : ℂ) * Complex.I‖ = |x| := by simp
  have h := Complex.exp_bound (x := (x : ℂ) * Complex.I) (by rw [hn]; exact hx) (n := 2 * k) (by omega)
  rw [hn, sum_exp, Complex.exp_mul_I] at h
  have e : Complex.cos x + Complex.sin x * Complex.I - ((cosT k x : ℂ) + (sinT k x : ℂ) * Complex.I)
    = ((Real.cos x - cosT k x : ℝ) : ℂ) + ((Real.sin x - sinT k x : ℝ) : ℂ) * Complex.I := by push_cast; ring
  rw [e] at h
  generalize Real.cos x - cosT k x = a at h ⊢
  generalize Real.sin x - sinT k x = b at h ⊢
  refine ⟨?_, ?_⟩
  · have h2 := (Complex.abs_re_le_norm _).trans h
    simpa using h2
  · have h2 := (Complex.abs_im_le_norm _).trans h
    simpa using h2

end StdSimd.Trig
