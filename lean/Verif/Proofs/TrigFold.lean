import Verif.Proofs.TrigStep
import Verif.Proofs.TrigSeries
import Verif.Proofs.TrigPi
/-! # `sin` and `cos`: reduction of the argument, common parts -/
namespace StdSimd.Trig
open Spec FloatBits Math
open StdSimd.Rounding

variable {f : Fmt}

theorem nearbyint_eq (env : f.Env) {u : ℚ} (hg : Good f u) (hw : f.mbits < f.bias) (hm : env.mode = .nearest) {x : f.Bits} (hx : f.isFinite x) :
    Near f (nearbyint env x) (roundEven (f.ratValue x) : ℤ) 0 := by
  unfold nearbyint
  rw [hm]
  have h := rint_num env hg.ok hw .nearest hx
  exact ⟨h.1, by rw [h.2]; simp [RMode.toInt]⟩

/-- The quadrant. -/
theorem quadrant_eq {x : f.Bits} (uu : f.Bits → BitVec 32) {k : ℕ} (hx : f.isFinite x) (hv : f.ratValue x = k) (hk : k < 2 ^ 31) :
    toInt32 f uu x &&& 3 = BitVec.ofNat 32 (k % 4) := by
  have h1 : truncZ (f.ratValue x) = (k : ℤ) := by
    rw [hv]; exact_mod_cast truncZ_int (k : ℤ)
  unfold toInt32
  rw [h1, if_pos ⟨hx, by omega, by exact_mod_cast hk⟩]
  apply BitVec.eq_of_toNat_eq
  rw [BitVec.toNat_and, BitVec.ofInt_natCast, BitVec.toNat_ofNat, BitVec.toNat_ofNat, show (3 : BitVec 32).toNat = 2 ^ 2 - 1 by decide,
    Nat.and_two_pow_sub_one_eq_mod, Nat.mod_mod_of_dvd _ (by norm_num), Nat.mod_eq_of_lt (show k % 4 < 2 ^ 32 by omega)]

/-- The nearest integer of a nonnegative number. -/
theorem exists_nat {q : ℚ} (h : 0 ≤ q) : ∃ k : ℕ, roundEven q = k ∧ |(k : ℚ) - q| ≤ 1 / 2 := by
  have h1 : 0 ≤ roundEven q := by
    have := roundEven_mono h
    rwa [show roundEven (0 : ℚ) = 0 by exact_mod_cast roundEven_int 0] at this
  obtain ⟨k, hk⟩ := Int.eq_ofNat_of_zero_le h1
  refine ⟨k, hk, ?_⟩
  have := roundEven_close q
  rw [hk] at this
  exact_mod_cast this

section
variable (env : f.Env) {u : ℚ} (hg : Good f u) (hm : env.mode = .nearest)
include hg hm

/-- `a - y * c` for a representable product. -/
theorem nmadd_rep_step (b : Bool) {a y c : f.Bits} {v k w e K : ℚ} (ha : Near f a v e) (hy : Near f y k 0) (hc : Near f c w 0)
    (hr : Rep f (k * w)) (hp : |k * w| ≤ 2 ^ 100) (hK : |v - k * w| ≤ K) {D : ℚ} (hD : e + (u * (K + e) + eta) ≤ D) (hS : K + e ≤ 2 ^ 100) :
    Appr f (nmadd env b a y c) (v - k * w) D K := by
  have h1 : |f.ratValue a - f.ratValue y * f.ratValue c| ≤ K + e := by
    rw [hy.eq, hc.eq, show f.ratValue a - k * w = (f.ratValue a - v) + (v - k * w) by ring]
    refine (abs_add_le _ _).trans ?_
    linarith [ha.err]
  have h2 := nmadd_rep env hg hm b hy.fin hc.fin ha.fin (by rw [hy.eq, hc.eq]; exact hr) (by rw [hy.eq, hc.eq]; exact hp) h1 hS
  refine ⟨⟨h2.fin, ?_⟩, hK⟩
  have h3 := h2.err
  rw [hy.eq, hc.eq] at h3
  rw [show f.ratValue (nmadd env b a y c) - (v - k * w) = (f.ratValue (nmadd env b a y c) - (f.ratValue a - k * w)) + (f.ratValue a - v) by ring]
  refine (abs_add_le _ _).trans ?_
  linarith [ha.err]

/-- `a - y * c`. -/
theorem nmadd_step (b : Bool) {a y c : f.Bits} {v k w e A K : ℚ} (ha : Near f a v e) (hy : Near f y k 0) (hc : Near f c w 0)
    (hA : |k * w| ≤ A) (hK : |v - k * w| ≤ K) {D : ℚ} (hD : e + (u * A + u * ((K + e) + u * A + eta) + 2 * eta) ≤ D)
    (hA2 : A ≤ 2 ^ 98) (hS : K + e ≤ 2 ^ 98) : Appr f (nmadd env b a y c) (v - k * w) D K := by
  have h1 : |f.ratValue a - f.ratValue y * f.ratValue c| ≤ K + e := by
    rw [hy.eq, hc.eq, show f.ratValue a - k * w = (f.ratValue a - v) + (v - k * w) by ring]
    refine (abs_add_le _ _).trans ?_
    linarith [ha.err]
  have hA0 : 0 ≤ A := (abs_nonneg _).trans hA
  have hu : u * A ≤ 1 * A := mul_le_mul_of_nonneg_right hg.small hA0
  have he : eta ≤ 1 := by unfold eta; norm_num
  have h2 := nmadd_near env hg hm b hy.fin hc.fin ha.fin (A := A) (by rw [hy.eq, hc.eq]; exact hA) h1 le_rfl
    (by norm_num at *; linarith) (by norm_num at *; linarith)
  refine ⟨⟨h2.fin, ?_⟩, hK⟩
  have h3 := h2.err
  rw [hy.eq, hc.eq] at h3
  rw [show f.ratValue (nmadd env b a y c) - (v - k * w) = (f.ratValue (nmadd env b a y c) - (f.ratValue a - k * w)) + (f.ratValue a - v) by ring]
  refine (abs_add_le _ _).trans ?_
  linarith [ha.err]

/-- `a - p`. -/
theorem sub_step {a p : f.Bits} {v w e e' K : ℚ} (ha : Near f a v e) (hp : Near f p w e') (hK : |v - w| ≤ K) {D : ℚ}
    (hD : e + e' + (u * (K + e + e') + eta) ≤ D) (hS : K + e + e' ≤ 2 ^ 100) : Appr f (Fmt.sub env a p) (v - w) D K := by
  have h1 : |f.ratValue a - f.ratValue p| ≤ K + e + e' := by
    rw [show f.ratValue a - f.ratValue p = ((f.ratValue a - v) + -(f.ratValue p - w)) + (v - w) by ring]
    refine (abs_add_le _ _).trans ?_
    have := abs_add_le (f.ratValue a - v) (-(f.ratValue p - w))
    rw [abs_neg] at this
    linarith [ha.err, hp.err]
  have h2 := sub_near env hg hm ha.fin hp.fin h1 hS
  refine ⟨⟨h2.fin, ?_⟩, hK⟩
  rw [show f.ratValue (Fmt.sub env a p) - (v - w)
    = (f.ratValue (Fmt.sub env a p) - (f.ratValue a - f.ratValue p)) + ((f.ratValue a - v) + -(f.ratValue p - w)) by ring]
  refine (abs_add_le _ _).trans ?_
  have := abs_add_le (f.ratValue a - v) (-(f.ratValue p - w))
  rw [abs_neg] at this
  linarith [ha.err, hp.err, h2.err]

end

/-- The distance of `v` from `k` units `P`, if `k` is near `v / P`. -/
theorem residual {v k P c d e : ℚ} (hP : 0 ≤ P) (h1 : |k - v * c| ≤ d) (h2 : |v * (1 - P * c)| ≤ e) : |v - k * P| ≤ P * d + e := by
  rw [show v - k * P = P * -(k - v * c) + v * (1 - P * c) by ring]
  refine (abs_add_le _ _).trans ?_
  rw [abs_mul, abs_neg, abs_of_nonneg hP]
  have := mul_le_mul_of_nonneg_left h1 hP
  linarith

/-- A folded element: `p.1` is within `d` of `v - k * π / 2`, and `p.2` is `k` modulo 4. -/
def Folded (f : Fmt) (p : f.Bits × BitVec 32) (v : ℚ) (d : ℝ) : Prop :=
  f.isFinite p.1 ∧ |f.ratValue p.1| ≤ 79 / 10 ^ 2 ∧
    ∃ k : ℕ, p.2 = BitVec.ofNat 32 (k % 4) ∧ |(f.ratValue p.1 : ℝ) - (v - k * (Real.pi / 2))| ≤ d

theorem Folded.mono {p : f.Bits × BitVec 32} {v : ℚ} {d d' : ℝ} (h : Folded f p v d) (h2 : d ≤ d') : Folded f p v d' := by
  obtain ⟨a, b, k, c, e⟩ := h
  exact ⟨a, b, k, c, e.trans h2⟩

/-- From the rational approximation `P` of `π / 2`. -/
theorem folded_of {r : f.Bits} {q : BitVec 32} {v P e K : ℚ} {k : ℕ} {d D : ℝ} (h : Appr f r (v - k * P) e K) (hK : K + e ≤ 79 / 10 ^ 2)
    (hq : q = BitVec.ofNat 32 (k % 4)) (hP : |(P : ℝ) - Real.pi / 2| ≤ d) (hD : e + k * d ≤ D) : Folded f (r, q) v D := by
  refine ⟨h.fin, h.val.trans hK, k, hq, ?_⟩
  have h1 : |((f.ratValue r : ℚ) : ℝ) - (v - k * P)| ≤ e := by
    have := h.err
    have h2 : ((|f.ratValue r - (v - k * P)| : ℚ) : ℝ) ≤ (e : ℝ) := by exact_mod_cast this
    push_cast at h2
    exact h2
  rw [show ((f.ratValue r : ℚ) : ℝ) - (v - k * (Real.pi / 2)) = (((f.ratValue r : ℚ) : ℝ) - (v - k * P)) + -(k * (P - Real.pi / 2)) by ring]
  refine (abs_add_le _ _).trans ?_
  rw [abs_neg, abs_mul, abs_of_nonneg (Nat.cast_nonneg k : (0 : ℝ) ≤ k)]
  have := mul_le_mul_of_nonneg_left hP (Nat.cast_nonneg k : (0 : ℝ) ≤ k)
  linarith

end StdSimd.Trig
