import Verif.Model.Trig
import Verif.Proofs.Hypot
/-! # `sin` and `cos`: errors of the operations -/
namespace StdSimd.Trig
open Spec FloatBits Math
open StdSimd.Rounding

variable {f : Fmt}

/-- A bound of the error due to underflow. -/
def eta : ℚ := 1 / 2 ^ 120

theorem eta_pos : 0 < eta := by unfold eta; positivity

/-- The format has unit roundoff `u` and enough exponents. -/
structure Good (f : Fmt) (u : ℚ) : Prop where
  ok : f.Ok
  unit : f.unitRoundoff .nearest = u
  pos : 0 ≤ u
  small : u ≤ 1
  emin : (2 : ℚ) ^ f.emin ≤ eta
  big : (2 : ℚ) ^ 102 ≤ 2 ^ (f.bias + 1)

theorem goodF : Good F (1 / 2 ^ 24) where
  ok := by decide
  unit := by simp only [Fmt.unitRoundoff, if_true]; norm_num
  pos := by positivity
  small := by norm_num
  emin := by
    rw [show F.emin = -149 by decide, eta, show (1 : ℚ) / 2 ^ 120 = 2 ^ (-120 : ℤ) by norm_num]
    exact zpow_le_zpow_right₀ (by norm_num) (by norm_num)
  big := pow_le_pow_right₀ (by norm_num) (by decide)

theorem goodD : Good D (1 / 2 ^ 53) where
  ok := by decide
  unit := by simp only [Fmt.unitRoundoff, if_true]; norm_num
  pos := by positivity
  small := by norm_num
  emin := by
    rw [show D.emin = -1074 by decide, eta, show (1 : ℚ) / 2 ^ 120 = 2 ^ (-120 : ℤ) by norm_num]
    exact zpow_le_zpow_right₀ (by norm_num) (by norm_num)
  big := pow_le_pow_right₀ (by norm_num) (by decide)

/-- `x` is a number within `e` of `v`. -/
structure Near (f : Fmt) (x : f.Bits) (v e : ℚ) : Prop where
  fin : f.isFinite x
  err : |f.ratValue x - v| ≤ e

theorem Near.mono {x : f.Bits} {v e e' : ℚ} (h : Near f x v e) (h2 : e ≤ e') : Near f x v e' := ⟨h.fin, h.err.trans h2⟩
theorem Near.self {x : f.Bits} (h : f.isFinite x) : Near f x (f.ratValue x) 0 := ⟨h, by simp⟩
theorem Near.eq {x : f.Bits} {v : ℚ} (h : Near f x v 0) : f.ratValue x = v := by
  have := h.err; rwa [abs_nonpos_iff, sub_eq_zero] at this
theorem Near.abs_le {x : f.Bits} {v e : ℚ} (h : Near f x v e) : |f.ratValue x| ≤ |v| + e := by
  have h1 := h.err
  have h2 := abs_sub_abs_le_abs_sub (f.ratValue x) v
  linarith

theorem round_near {u : ℚ} (h : Good f u) (zs : Bool) {q B : ℚ} (hq : |q| ≤ B) (hB : B ≤ 2 ^ 100) :
    Near f (f.round .nearest zs q) q (u * B + eta) := by
  have h1 := Hypot.round_err (f := f) .nearest q
  rw [h.unit] at h1
  have h2 : u * |q| ≤ u * B := mul_le_mul_of_nonneg_left hq h.pos
  have h3 : |f.roundTo .nearest q - q| ≤ u * B + eta := by linarith [h.emin]
  have h4 : |f.roundTo .nearest q| < 2 ^ (f.bias + 1) := by
    have a := abs_sub_abs_le_abs_sub (f.roundTo .nearest q) q
    have b : u * |q| ≤ 1 * |q| := mul_le_mul_of_nonneg_right h.small (abs_nonneg _)
    have c : eta ≤ 1 := by unfold eta; norm_num
    have d : (2 : ℚ) * 2 ^ 100 + 1 < 2 ^ 102 := by norm_num
    linarith [h.big, h.emin]
  have h5 := round_spec h.ok .nearest zs h4
  exact ⟨h5.1, by rw [h5.2]; exact h3⟩

theorem round_rep {u : ℚ} (h : Good f u) (m : RMode) (zs : Bool) {q : ℚ} (hr : Rep f q) (hB : |q| ≤ 2 ^ 100) : Near f (f.round m zs q) q 0 := by
  have h5 := round_exact h.ok m zs hr (lt_of_le_of_lt hB (lt_of_lt_of_le (by norm_num) h.big))
  exact ⟨h5.1, by rw [h5.2]; simp⟩

section
variable (env : f.Env) {u : ℚ} (hg : Good f u)
include hg

theorem mul_eq {x y : f.Bits} (hx : f.isFinite x) (hy : f.isFinite y) :
    Fmt.mul env x y = f.round env.mode (f.sign x ^^ f.sign y) (f.ratValue x * f.ratValue y) := by
  obtain ⟨c1, c2⟩ := finite_not hg.ok hx
  obtain ⟨d1, d2⟩ := finite_not hg.ok hy
  unfold Fmt.mul
  rw [if_neg (by tauto), if_neg (by tauto)]

theorem mul_exact {x y : f.Bits} (hx : f.isFinite x) (hy : f.isFinite y) (hr : Rep f (f.ratValue x * f.ratValue y))
    (hB : |f.ratValue x * f.ratValue y| ≤ 2 ^ 100) : Near f (Fmt.mul env x y) (f.ratValue x * f.ratValue y) 0 := by
  rw [mul_eq env hg hx hy]; exact round_rep hg _ _ hr hB

variable (hm : env.mode = .nearest)
include hm

theorem mul_near {x y : f.Bits} {B : ℚ} (hx : f.isFinite x) (hy : f.isFinite y) (hB : |f.ratValue x * f.ratValue y| ≤ B) (hB2 : B ≤ 2 ^ 100) :
    Near f (Fmt.mul env x y) (f.ratValue x * f.ratValue y) (u * B + eta) := by
  rw [mul_eq env hg hx hy, hm]; exact round_near hg _ hB hB2

theorem add_near {x y : f.Bits} {B : ℚ} (hx : f.isFinite x) (hy : f.isFinite y) (hB : |f.ratValue x + f.ratValue y| ≤ B) (hB2 : B ≤ 2 ^ 100) :
    Near f (Fmt.add env x y) (f.ratValue x + f.ratValue y) (u * B + eta) := by
  rw [add_finite env hg.ok hx hy]; rw [show ∀ zs q, f.round env.mode zs q = f.round .nearest zs q by rw [hm]; intros; rfl]
  exact round_near hg _ hB hB2

theorem sub_near {x y : f.Bits} {B : ℚ} (hx : f.isFinite x) (hy : f.isFinite y) (hB : |f.ratValue x - f.ratValue y| ≤ B) (hB2 : B ≤ 2 ^ 100) :
    Near f (Fmt.sub env x y) (f.ratValue x - f.ratValue y) (u * B + eta) := by
  have a := (finite_not hg.ok hx).1
  have b := (finite_not hg.ok hy).1
  have e : f.ratValue x - f.ratValue y = f.ratValue x + f.ratValue (Fmt.neg y) := by rw [ratValue_neg]; ring
  unfold Fmt.sub
  rw [if_neg (by tauto), e]
  exact add_near env hg hm hx (finite_neg.2 hy) (by rw [← e]; exact hB) hB2

theorem fma_near {x y z : f.Bits} {B : ℚ} (hx : f.isFinite x) (hy : f.isFinite y) (hz : f.isFinite z)
    (hB : |f.ratValue x * f.ratValue y + f.ratValue z| ≤ B) (hB2 : B ≤ 2 ^ 100) :
    Near f (Fmt.fma env x y z) (f.ratValue x * f.ratValue y + f.ratValue z) (u * B + eta) := by
  obtain ⟨c1, c2⟩ := finite_not hg.ok hx
  obtain ⟨d1, d2⟩ := finite_not hg.ok hy
  obtain ⟨e1, e2⟩ := finite_not hg.ok hz
  unfold Fmt.fma
  rw [if_neg (by tauto), if_neg (by tauto), if_neg e2]
  rw [show ∀ zs q, f.round env.mode zs q = f.round .nearest zs q by rw [hm]; intros; rfl]
  exact round_near hg _ hB hB2

/-- `x * y` rounded, then `± z` added and rounded. -/
theorem two_steps {a p z w A B E : ℚ} (h1 : |p - a| ≤ u * A + eta) (hA0 : 0 ≤ A)
    (hE : u * A + u * (B + u * A + eta) + 2 * eta ≤ E) (h2 : |w - (p + z)| ≤ u * (B + u * A + eta) + eta) : |w - (a + z)| ≤ E := by
  have e : w - (a + z) = (w - (p + z)) + (p - a) := by ring
  rw [e]
  have := abs_add_le (w - (p + z)) (p - a)
  linarith

theorem two_bound {a p z A B : ℚ} (h1 : |p - a| ≤ u * A + eta) (hB : |a + z| ≤ B) : |p + z| ≤ B + u * A + eta := by
  have e : p + z = (p - a) + (a + z) := by ring
  rw [e]
  have := abs_add_le (p - a) (a + z)
  linarith

/-- `x * y + z`, contracted or not. -/
theorem madd_near {x y z : f.Bits} {A B E : ℚ} (b : Bool) (hx : f.isFinite x) (hy : f.isFinite y) (hz : f.isFinite z)
    (hA : |f.ratValue x * f.ratValue y| ≤ A) (hB : |f.ratValue x * f.ratValue y + f.ratValue z| ≤ B)
    (hE : u * A + u * (B + u * A + eta) + 2 * eta ≤ E) (hA2 : A ≤ 2 ^ 100) (hB2 : B + u * A + eta ≤ 2 ^ 100) :
    Near f (madd env b x y z) (f.ratValue x * f.ratValue y + f.ratValue z) E := by
  have hA0 : 0 ≤ A := (abs_nonneg _).trans hA
  have hu := hg.pos
  have he := eta_pos
  have huA : 0 ≤ u * A := mul_nonneg hu hA0
  unfold madd
  cases b
  · rw [if_neg (by decide)]
    have h1 := mul_near env hg hm hx hy hA hA2
    have h3 := add_near env hg hm h1.fin hz (two_bound env hg hm h1.err hB) hB2
    exact ⟨h3.fin, two_steps env hg hm h1.err hA0 hE h3.err⟩
  · rw [if_pos rfl]
    refine (fma_near env hg hm hx hy hz hB (by linarith)).mono ?_
    have : u * B ≤ u * (B + u * A + eta) := mul_le_mul_of_nonneg_left (by linarith) hu
    linarith

/-- `x * y - z`, contracted or not. -/
theorem msub_near {x y z : f.Bits} {A B E : ℚ} (b : Bool) (hx : f.isFinite x) (hy : f.isFinite y) (hz : f.isFinite z)
    (hA : |f.ratValue x * f.ratValue y| ≤ A) (hB : |f.ratValue x * f.ratValue y - f.ratValue z| ≤ B)
    (hE : u * A + u * (B + u * A + eta) + 2 * eta ≤ E) (hA2 : A ≤ 2 ^ 100) (hB2 : B + u * A + eta ≤ 2 ^ 100) :
    Near f (msub env b x y z) (f.ratValue x * f.ratValue y - f.ratValue z) E := by
  have hA0 : 0 ≤ A := (abs_nonneg _).trans hA
  have hu := hg.pos
  have he := eta_pos
  have huA : 0 ≤ u * A := mul_nonneg hu hA0
  have e : f.ratValue x * f.ratValue y - f.ratValue z = f.ratValue x * f.ratValue y + f.ratValue (Fmt.neg z) := by rw [ratValue_neg]; ring
  rw [e] at hB ⊢
  unfold msub
  cases b
  · rw [if_neg (by decide)]
    have h1 := mul_near env hg hm hx hy hA hA2
    have h2 := two_bound env hg hm h1.err hB
    have e2 : f.ratValue (Fmt.mul env x y) - f.ratValue z = f.ratValue (Fmt.mul env x y) + f.ratValue (Fmt.neg z) := by
      rw [ratValue_neg]; ring
    have h3 := sub_near env hg hm h1.fin hz (by rw [e2]; exact h2) hB2
    rw [e2] at h3
    exact ⟨h3.fin, two_steps env hg hm h1.err hA0 hE h3.err⟩
  · rw [if_pos rfl]
    refine (fma_near env hg hm hx hy (finite_neg.2 hz) hB (by linarith)).mono ?_
    have : u * B ≤ u * (B + u * A + eta) := mul_le_mul_of_nonneg_left (by linarith) hu
    linarith

/-- `z - x * y`, contracted or not. -/
theorem nmadd_near {x y z : f.Bits} {A B E : ℚ} (b : Bool) (hx : f.isFinite x) (hy : f.isFinite y) (hz : f.isFinite z)
    (hA : |f.ratValue x * f.ratValue y| ≤ A) (hB : |f.ratValue z - f.ratValue x * f.ratValue y| ≤ B)
    (hE : u * A + u * (B + u * A + eta) + 2 * eta ≤ E) (hA2 : A ≤ 2 ^ 100) (hB2 : B + u * A + eta ≤ 2 ^ 100) :
    Near f (nmadd env b z x y) (f.ratValue z - f.ratValue x * f.ratValue y) E := by
  have hA0 : 0 ≤ A := (abs_nonneg _).trans hA
  have hu := hg.pos
  have he := eta_pos
  have huA : 0 ≤ u * A := mul_nonneg hu hA0
  unfold nmadd
  cases b
  · rw [if_neg (by decide)]
    have h1 := mul_near env hg hm hx hy hA hA2
    have h1' : |-f.ratValue (Fmt.mul env x y) - -(f.ratValue x * f.ratValue y)| ≤ u * A + eta := by
      rw [show -f.ratValue (Fmt.mul env x y) - -(f.ratValue x * f.ratValue y) = -(f.ratValue (Fmt.mul env x y) - f.ratValue x * f.ratValue y) by ring,
        abs_neg]
      exact h1.err
    have h2 := two_bound env hg hm (z := f.ratValue z) (B := B) h1' (by rw [neg_add_eq_sub]; exact hB)
    rw [neg_add_eq_sub] at h2
    have h3 := sub_near env hg hm hz h1.fin h2 hB2
    refine ⟨h3.fin, ?_⟩
    have := two_steps env hg hm (z := f.ratValue z) h1' hA0 hE (by rw [neg_add_eq_sub]; exact h3.err)
    rwa [neg_add_eq_sub] at this
  · rw [if_pos rfl]
    have e : f.ratValue z - f.ratValue x * f.ratValue y = f.ratValue (Fmt.neg x) * f.ratValue y + f.ratValue z := by rw [ratValue_neg]; ring
    rw [e] at hB ⊢
    refine (fma_near env hg hm (finite_neg.2 hx) hy hz hB (by linarith)).mono ?_
    have : u * B ≤ u * (B + u * A + eta) := mul_le_mul_of_nonneg_left (by linarith) hu
    linarith

/-- `z - x * y`, contracted or not, if the product is representable. -/
theorem nmadd_rep {x y z : f.Bits} {B : ℚ} (b : Bool) (hx : f.isFinite x) (hy : f.isFinite y) (hz : f.isFinite z)
    (hr : Rep f (f.ratValue x * f.ratValue y)) (hA : |f.ratValue x * f.ratValue y| ≤ 2 ^ 100)
    (hB : |f.ratValue z - f.ratValue x * f.ratValue y| ≤ B) (hB2 : B ≤ 2 ^ 100) :
    Near f (nmadd env b z x y) (f.ratValue z - f.ratValue x * f.ratValue y) (u * B + eta) := by
  unfold nmadd
  cases b
  · rw [if_neg (by decide)]
    have h1 := mul_exact env hg hx hy hr hA
    have h2 := h1.eq
    rw [← h2] at hB ⊢
    exact sub_near env hg hm hz h1.fin hB hB2
  · rw [if_pos rfl]
    have e : f.ratValue z - f.ratValue x * f.ratValue y = f.ratValue (Fmt.neg x) * f.ratValue y + f.ratValue z := by rw [ratValue_neg]; ring
    rw [e] at hB ⊢
    exact fma_near env hg hm (finite_neg.2 hx) hy hz hB hB2

end

/-! ## literals -/

theorem lit_near {u : ℚ} (h : Good f u) {m e : ℤ} (h1 : |m| < 2 ^ (f.mbits + 1)) (h2 : f.emin ≤ e) (h3 : |(m : ℚ) * 2 ^ e| ≤ 2 ^ 100) :
    Near f (lit f m e) (m * 2 ^ e) 0 := round_rep h _ _ ⟨m, e, h1, h2, rfl⟩ h3

end StdSimd.Trig
