import Verif.Proofs.TrigOps
/-! # `sin` and `cos`: errors of a chain of operations -/
namespace StdSimd.Trig
open Spec FloatBits

variable {f : Fmt}

/-- `x` is a number within `e` of `v`, whose magnitude is at most `M`. -/
structure Appr (f : Fmt) (x : f.Bits) (v e M : ℚ) : Prop extends Near f x v e where
  mag : |v| ≤ M

theorem Appr.nonneg {x : f.Bits} {v e M : ℚ} (h : Appr f x v e M) : 0 ≤ e ∧ 0 ≤ M :=
  ⟨(abs_nonneg _).trans h.err, (abs_nonneg _).trans h.mag⟩

theorem Appr.val {x : f.Bits} {v e M : ℚ} (h : Appr f x v e M) : |f.ratValue x| ≤ M + e := by
  have := h.toNear.abs_le; linarith [h.mag]

theorem Appr.of_lit {x : f.Bits} {v w M : ℚ} (h : Near f x v 0) (hv : v = w) (hM : |w| ≤ M) : Appr f x w 0 M := by
  subst hv; exact ⟨h, hM⟩

theorem prod_err {x y v w e e' M N : ℚ} (h1 : |x - v| ≤ e) (h2 : |y - w| ≤ e') (h3 : |v| ≤ M) (h4 : |y| ≤ N) :
    |x * y - v * w| ≤ e * N + M * e' := by
  have a : x * y - v * w = (x - v) * y + v * (y - w) := by ring
  rw [a]
  refine (abs_add_le _ _).trans ?_
  rw [abs_mul, abs_mul]
  exact add_le_add (mul_le_mul h1 h4 (abs_nonneg _) ((abs_nonneg _).trans h1)) (mul_le_mul h3 h2 (abs_nonneg _) ((abs_nonneg _).trans h3))

section
variable (env : f.Env) {u : ℚ} (hg : Good f u) (hm : env.mode = .nearest)
include hg hm

theorem mul_step {x y : f.Bits} {v w e e' M N : ℚ} (hx : Appr f x v e M) (hy : Appr f y w e' N) {D K : ℚ}
    (hD : e * (N + e') + M * e' + (u * ((M + e) * (N + e')) + eta) ≤ D) (hK : M * N ≤ K) (hS : (M + e) * (N + e') ≤ 2 ^ 100) :
    Appr f (Fmt.mul env x y) (v * w) D K := by
  obtain ⟨e0, M0⟩ := hx.nonneg
  obtain ⟨e0', N0⟩ := hy.nonneg
  have h1 : |f.ratValue x * f.ratValue y| ≤ (M + e) * (N + e') := by
    rw [abs_mul]; exact mul_le_mul hx.val hy.val (abs_nonneg _) (by linarith)
  have h2 := mul_near env hg hm hx.fin hy.fin h1 hS
  have h3 := prod_err hx.err hy.err hx.mag hy.val
  refine ⟨⟨h2.fin, ?_⟩, ?_⟩
  · have e1 : f.ratValue (Fmt.mul env x y) - v * w
      = (f.ratValue (Fmt.mul env x y) - f.ratValue x * f.ratValue y) + (f.ratValue x * f.ratValue y - v * w) := by ring
    rw [e1]
    refine (abs_add_le _ _).trans ?_
    linarith [h2.err]
  · rw [abs_mul]; exact (mul_le_mul hx.mag hy.mag (abs_nonneg _) M0).trans hK

theorem add_step {x y : f.Bits} {v w e e' M N : ℚ} (hx : Appr f x v e M) (hy : Appr f y w e' N) {D K : ℚ}
    (hD : e + e' + (u * (M + N + e + e') + eta) ≤ D) (hK : M + N ≤ K) (hS : M + N + e + e' ≤ 2 ^ 100) :
    Appr f (Fmt.add env x y) (v + w) D K := by
  have h1 : |f.ratValue x + f.ratValue y| ≤ M + N + e + e' := by
    refine (abs_add_le _ _).trans ?_; linarith [hx.val, hy.val]
  have h2 := add_near env hg hm hx.fin hy.fin h1 hS
  refine ⟨⟨h2.fin, ?_⟩, ?_⟩
  · have e1 : f.ratValue (Fmt.add env x y) - (v + w)
      = (f.ratValue (Fmt.add env x y) - (f.ratValue x + f.ratValue y)) + ((f.ratValue x - v) + (f.ratValue y - w)) := by ring
    rw [e1]
    refine (abs_add_le _ _).trans ?_
    have := abs_add_le (f.ratValue x - v) (f.ratValue y - w)
    linarith [h2.err, hx.err, hy.err]
  · refine (abs_add_le _ _).trans ?_; linarith [hx.mag, hy.mag]

theorem madd_step (b : Bool) {x y z : f.Bits} {v w c e e' e'' M N C : ℚ} (hx : Appr f x v e M) (hy : Appr f y w e' N) (hz : Appr f z c e'' C) {D K : ℚ}
    (hD : e * (N + e') + M * e' + e'' + (u * ((M + e) * (N + e')) + u * (((M + e) * (N + e') + C + e'') + u * ((M + e) * (N + e')) + eta) + 2 * eta) ≤ D)
    (hK : M * N + C ≤ K) (hS : (M + e) * (N + e') ≤ 2 ^ 98) (hC : C + e'' ≤ 2 ^ 98) :
    Appr f (madd env b x y z) (v * w + c) D K := by
  obtain ⟨e0, M0⟩ := hx.nonneg
  obtain ⟨e0', N0⟩ := hy.nonneg
  have h1 : |f.ratValue x * f.ratValue y| ≤ (M + e) * (N + e') := by
    rw [abs_mul]; exact mul_le_mul hx.val hy.val (abs_nonneg _) (by linarith)
  have h2 : |f.ratValue x * f.ratValue y + f.ratValue z| ≤ (M + e) * (N + e') + C + e'' := by
    refine (abs_add_le _ _).trans ?_; linarith [hz.val]
  have hA0 : 0 ≤ (M + e) * (N + e') := (abs_nonneg _).trans h1
  have hu : u * ((M + e) * (N + e')) ≤ 1 * ((M + e) * (N + e')) := mul_le_mul_of_nonneg_right hg.small hA0
  have he : eta ≤ 1 := by unfold eta; norm_num
  have h3 := madd_near env hg hm b hx.fin hy.fin hz.fin h1 h2 le_rfl (by norm_num at *; linarith) (by norm_num at *; linarith)
  have h4 := prod_err hx.err hy.err hx.mag hy.val
  refine ⟨⟨h3.fin, ?_⟩, ?_⟩
  · have e1 : f.ratValue (madd env b x y z) - (v * w + c)
      = (f.ratValue (madd env b x y z) - (f.ratValue x * f.ratValue y + f.ratValue z)) + ((f.ratValue x * f.ratValue y - v * w) + (f.ratValue z - c)) := by
      ring
    rw [e1]
    refine (abs_add_le _ _).trans ?_
    have := abs_add_le (f.ratValue x * f.ratValue y - v * w) (f.ratValue z - c)
    linarith [h3.err, hz.err]
  · refine (abs_add_le _ _).trans ?_
    rw [abs_mul]
    have := mul_le_mul hx.mag hy.mag (abs_nonneg _) M0
    linarith [hz.mag]

theorem msub_step (b : Bool) {x y z : f.Bits} {v w c e e' e'' M N C : ℚ} (hx : Appr f x v e M) (hy : Appr f y w e' N) (hz : Appr f z c e'' C) {D K : ℚ}
    (hD : e * (N + e') + M * e' + e'' + (u * ((M + e) * (N + e')) + u * (((M + e) * (N + e') + C + e'') + u * ((M + e) * (N + e')) + eta) + 2 * eta) ≤ D)
    (hK : M * N + C ≤ K) (hS : (M + e) * (N + e') ≤ 2 ^ 98) (hC : C + e'' ≤ 2 ^ 98) :
    Appr f (msub env b x y z) (v * w - c) D K := by
  obtain ⟨e0, M0⟩ := hx.nonneg
  obtain ⟨e0', N0⟩ := hy.nonneg
  have h1 : |f.ratValue x * f.ratValue y| ≤ (M + e) * (N + e') := by
    rw [abs_mul]; exact mul_le_mul hx.val hy.val (abs_nonneg _) (by linarith)
  have h2 : |f.ratValue x * f.ratValue y - f.ratValue z| ≤ (M + e) * (N + e') + C + e'' := by
    refine (abs_sub _ _).trans ?_; linarith [hz.val]
  have hA0 : 0 ≤ (M + e) * (N + e') := (abs_nonneg _).trans h1
  have hu : u * ((M + e) * (N + e')) ≤ 1 * ((M + e) * (N + e')) := mul_le_mul_of_nonneg_right hg.small hA0
  have he : eta ≤ 1 := by unfold eta; norm_num
  have h3 := msub_near env hg hm b hx.fin hy.fin hz.fin h1 h2 le_rfl (by norm_num at *; linarith) (by norm_num at *; linarith)
  have h4 := prod_err hx.err hy.err hx.mag hy.val
  refine ⟨⟨h3.fin, ?_⟩, ?_⟩
  · have e1 : f.ratValue (msub env b x y z) - (v * w - c)
      = (f.ratValue (msub env b x y z) - (f.ratValue x * f.ratValue y - f.ratValue z)) + ((f.ratValue x * f.ratValue y - v * w) + -(f.ratValue z - c)) := by
      ring
    rw [e1]
    refine (abs_add_le _ _).trans ?_
    have := abs_add_le (f.ratValue x * f.ratValue y - v * w) (-(f.ratValue z - c))
    rw [abs_neg] at this
    linarith [h3.err, hz.err]
  · refine (abs_sub _ _).trans ?_
    rw [abs_mul]
    have := mul_le_mul hx.mag hy.mag (abs_nonneg _) M0
    linarith [hz.mag]

end
end StdSimd.Trig
