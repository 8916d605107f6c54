import Verif.Proofs.TrigFoldF
/-! # `sin` and `cos`: reduction of `double` arguments -/
namespace StdSimd.Trig
open Spec FloatBits Math
open StdSimd.Rounding

variable (E : Env)

/-- `2 * __pi_over_4`. -/
theorem halfPi_val : Near D (D.round .nearest false (2 * D.ratValue piOver4D)) (0x1921fb54442d18 / 2 ^ 52) 0 := by
  rw [piOver4D_val.eq, show (2 : ℚ) * (0x1921fb54442d18 / 2 ^ 53) = 0x1921fb54442d18 / 2 ^ 52 by norm_num]
  exact round_rep goodD _ _ ⟨0x1921fb54442d18, -52, by decide, by decide, by norm_num⟩ (by norm_num)

theorem div_near {f : Fmt} (env : f.Env) {u : ℚ} (hg : Good f u) (hm : env.mode = .nearest) {x y : f.Bits} {B : ℚ} (hx : f.isFinite x) (hy : f.isFinite y)
    (h0 : f.ratValue y ≠ 0) (hp : 0 ≤ f.ratValue x / f.ratValue y) (hB : f.ratValue x / f.ratValue y ≤ B) (hB2 : B ≤ 2 ^ 100) :
    Near f (Fmt.div env x y) (f.ratValue x / f.ratValue y) (u * B + eta) ∧ 0 ≤ f.ratValue (Fmt.div env x y) := by
  obtain ⟨c1, c2⟩ := finite_not hg.ok hx
  obtain ⟨d1, d2⟩ := finite_not hg.ok hy
  have hz : ¬ f.isZero y := by
    intro h
    apply h0
    unfold Fmt.ratValue Fmt.significand
    rw [if_pos h.1, h.2]; simp
  unfold Fmt.div
  rw [if_neg (by tauto), if_neg c2, if_neg d2, if_neg hz, hm]
  exact ⟨round_near hg _ (by rw [abs_of_nonneg hp]; exact hB) hB2, round_nonneg hg _ hp (hB.trans hB2)⟩

/-- The quotient by `π / 2`; `B` is a bound of the argument. -/
theorem foldY_spec (hm : E.D.mode = .nearest) {a : D.Bits} (ha : D.isFinite a) (h0 : 0 ≤ D.ratValue a) {B d : ℚ} (h1 : D.ratValue a ≤ B) (hB : B ≤ 2 ^ 90)
    (hd : 1 / 2 + (1 / 2 ^ 53 * B + eta) ≤ d) :
    ∃ k : ℕ, Near D (foldY E a) (k : ℚ) 0 ∧ |(k : ℚ) - D.ratValue a * (2 ^ 52 / 0x1921fb54442d18)| ≤ d := by
  have h2 : D.ratValue a / D.ratValue (D.round .nearest false (2 * D.ratValue piOver4D)) = D.ratValue a * (2 ^ 52 / 0x1921fb54442d18) := by
    rw [halfPi_val.eq]; ring
  have h3 : 0 ≤ D.ratValue a * (2 ^ 52 / 0x1921fb54442d18) := by positivity
  have h4 : D.ratValue a * (2 ^ 52 / 0x1921fb54442d18) ≤ B := by norm_num; linarith
  have h5 := div_near E.D goodD hm ha halfPi_val.fin (B := B) (by rw [halfPi_val.eq]; norm_num) (by rw [h2]; exact h3) (by rw [h2]; exact h4)
    (hB.trans (by norm_num))
  rw [h2] at h5
  exact quotient E.D goodD (by decide) hm h5.1 h5.2 hd

theorem foldSmallD_spec (hm : E.D.mode = .nearest) {a : D.Bits} (ha : D.isFinite a) (h0 : 0 ≤ D.ratValue a) (h1 : D.ratValue a ≤ 806) :
    Folded D (foldSmallD E a (foldY E a), toInt32 D E.undefD (foldY E a) &&& 3) (D.ratValue a) (27 / 10 ^ 17) := by
  obtain ⟨k, hy, hkv⟩ := foldY_spec E hm ha h0 h1 (by norm_num) (d := 1 / 2 + 1 / 10 ^ 12) (by norm_num [eta])
  unfold foldSmallD
  generalize foldY E a = y at *
  have ha' := Near.self ha
  generalize D.ratValue a = v at *
  have hk4 : (k : ℚ) < ((514 : ℕ) : ℚ) := by have h := (abs_le.1 hkv).2; norm_num at h; push_cast; linarith
  have hk3 : k < 514 := by exact_mod_cast hk4
  push_cast at hk4
  have hk0 : (0 : ℚ) ≤ k := Nat.cast_nonneg k
  have hc : |v * (1 - (0x1921FB54443000 / 2 ^ 52 + -0x173DCB3B39A000 / 2 ^ 95 + 0x145C06E0E68948 / 2 ^ 138) * (2 ^ 52 / 0x1921fb54442d18))| ≤ 1 / 10 ^ 12 := by
    rw [abs_le]; norm_num; constructor <;> linarith
  have hres := residual (P := 0x1921FB54443000 / 2 ^ 52 + -0x173DCB3B39A000 / 2 ^ 95 + 0x145C06E0E68948 / 2 ^ 138) (by norm_num) hkv hc
  replace hres : |v - k * (0x1921FB54443000 / 2 ^ 52 + -0x173DCB3B39A000 / 2 ^ 95 + 0x145C06E0E68948 / 2 ^ 138)| ≤ 786 / 1000 := hres.trans (by norm_num)
  have hres2 : |v - k * (0x1921FB54443000 / 2 ^ 52) - k * (-0x173DCB3B39A000 / 2 ^ 95)| ≤ 787 / 1000 := by
    rw [abs_le] at hres ⊢
    norm_num at hres ⊢
    constructor <;> linarith
  have hres1 : |v - k * (0x1921FB54443000 / 2 ^ 52)| ≤ 787 / 1000 := by
    rw [abs_le] at hres ⊢
    norm_num at hres ⊢
    constructor <;> linarith
  have c1 := (litD 0x1921FB54443000 (0 - 52) (0x1921FB54443000 / 2 ^ 52) (M := 2) (by decide) (by decide) (by norm_num) (by norm_num)).toNear
  have c2 := (litD (-0x173DCB3B39A000) (-43 - 52) (-0x173DCB3B39A000 / 2 ^ 95) (M := 2) (by decide) (by decide) (by norm_num) (by norm_num [abs_of_neg])).toNear
  have c3 := (litD 0x145C06E0E68948 (-86 - 52) (0x145C06E0E68948 / 2 ^ 138) (M := 2) (by decide) (by decide) (by norm_num) (by norm_num)).toNear
  have s1 := nmadd_rep_step E.D goodD hm (E.fused 24) ha' hy c1 (K := 787 / 1000) (D := 88 / 10 ^ 18)
    ⟨k * 0x1921FB54443, -40, by rw [abs_of_nonneg (by positivity)]; norm_num; omega, by decide, by push_cast; norm_num; ring⟩
    (by rw [abs_of_nonneg (by positivity)]; norm_num; linarith) hres1 (by norm_num [eta]) (by norm_num)
  have s2 := nmadd_rep_step E.D goodD hm (E.fused 25) s1.toNear hy c2 (K := 787 / 1000) (D := 176 / 10 ^ 18)
    ⟨k * -0xB9EE59D9CD, -82, by rw [abs_lt]; norm_num; constructor <;> omega, by decide, by push_cast; norm_num; ring⟩
    (by rw [abs_le]; norm_num; constructor <;> linarith) hres2 (by norm_num [eta]) (by norm_num)
  have s3 := nmadd_step E.D goodD hm (E.fused 26) s2.toNear hy c3 (A := 1 / 10 ^ 22) (K := 786 / 1000) (D := 265 / 10 ^ 18)
    (by rw [abs_of_nonneg (by positivity)]; norm_num; linarith)
    (by rw [show v - k * (0x1921FB54443000 / 2 ^ 52) - k * (-0x173DCB3B39A000 / 2 ^ 95) - k * (0x145C06E0E68948 / 2 ^ 138)
          = v - k * (0x1921FB54443000 / 2 ^ 52 + -0x173DCB3B39A000 / 2 ^ 95 + 0x145C06E0E68948 / 2 ^ 138) by ring]; exact hres)
    (by norm_num [eta]) (by norm_num) (by norm_num)
  have hq := quadrant_eq E.undefD hy.fin hy.eq (by omega)
  refine folded_of (P := 0x1921FB54443000 / 2 ^ 52 + -0x173DCB3B39A000 / 2 ^ 95 + 0x145C06E0E68948 / 2 ^ 138) (k := k) (d := 1 / 10 ^ 26)
    (cast_appr s3 (by ring)) (by norm_num) hq ?_ ?_
  · have a1 := pi_gt_27
    have a2 := pi_lt_27
    push_cast
    rw [abs_le]; norm_num at *; constructor <;> linarith
  · have : (k : ℝ) ≤ 514 := by exact_mod_cast hk3.le
    push_cast; norm_num; linarith

theorem foldMediumD_spec (hm : E.D.mode = .nearest) {a : D.Bits} (ha : D.isFinite a) (h0 : 0 ≤ D.ratValue a) (h1 : D.ratValue a ≤ 2 ^ 31)
    (hle : D.le (foldY E a) (lit D 1 30) = true) :
    Folded D (foldMediumD E a (foldY E a), toInt32 D E.undefD (foldY E a) &&& 3) (D.ratValue a) (1 / 10 ^ 14) := by
  obtain ⟨k, hy, hkv⟩ := foldY_spec E hm ha h0 h1 (by norm_num) (d := 1 / 2 + 3 / 10 ^ 7) (by norm_num [eta])
  unfold foldMediumD
  have hone := (litD 1 30 (2 ^ 30) (M := 2 ^ 30) (by decide) (by decide) (by norm_num) (by norm_num)).toNear
  rw [le_finite goodD.ok hy.fin hone.fin, hy.eq, hone.eq] at hle
  have hk4 : (k : ℚ) ≤ 2 ^ 30 := of_decide_eq_true hle
  generalize foldY E a = y at *
  have ha' := Near.self ha
  generalize D.ratValue a = v at *
  have hk3 : k ≤ 2 ^ 30 := by exact_mod_cast hk4
  have hk0 : (0 : ℚ) ≤ k := Nat.cast_nonneg k
  replace hk4 : (k : ℚ) ≤ 1073741824 := hk4.trans (by norm_num)
  replace h1 : v ≤ 2147483648 := h1.trans (by norm_num)
  have hc : |v * (1 - (0x1921FB40000000 / 2 ^ 52 + 0x14442D00000000 / 2 ^ 76 + 0x18469898CC5170 / 2 ^ 100) * (2 ^ 52 / 0x1921fb54442d18))| ≤ 1 / 10 ^ 6 := by
    rw [abs_le]; norm_num; constructor <;> linarith
  have hres := residual (P := 0x1921FB40000000 / 2 ^ 52 + 0x14442D00000000 / 2 ^ 76 + 0x18469898CC5170 / 2 ^ 100) (by norm_num) hkv hc
  replace hres : |v - k * (0x1921FB40000000 / 2 ^ 52 + 0x14442D00000000 / 2 ^ 76 + 0x18469898CC5170 / 2 ^ 100)| ≤ 786 / 1000 := hres.trans (by norm_num)
  have hres2 : |v - k * (0x1921FB40000000 / 2 ^ 52) - k * (0x14442D00000000 / 2 ^ 76)| ≤ 787 / 1000 := by
    rw [abs_le] at hres ⊢
    norm_num at hres ⊢
    constructor <;> linarith
  have hres1 : |v - k * (0x1921FB40000000 / 2 ^ 52)| ≤ 82 := by
    rw [abs_le] at hres ⊢
    norm_num at hres ⊢
    constructor <;> linarith
  have c1 := (litD 0x1921FB40000000 (0 - 52) (0x1921FB40000000 / 2 ^ 52) (M := 2) (by decide) (by decide) (by norm_num) (by norm_num)).toNear
  have c2 := (litD 0x14442D00000000 (-24 - 52) (0x14442D00000000 / 2 ^ 76) (M := 2) (by decide) (by decide) (by norm_num) (by norm_num)).toNear
  have c3 := (litD 0x18469898CC5170 (-48 - 52) (0x18469898CC5170 / 2 ^ 100) (M := 2) (by decide) (by decide) (by norm_num) (by norm_num)).toNear
  have s1 := nmadd_rep_step E.D goodD hm (E.fused 27) ha' hy c1 (K := 82) (D := 9104 / 10 ^ 18)
    ⟨k * 0x6487ED, -22, by rw [abs_of_nonneg (by positivity)]; norm_num at hk3 ⊢; omega, by decide, by push_cast; norm_num; ring⟩
    (by rw [abs_of_nonneg (by positivity)]; norm_num; linarith) hres1 (by norm_num [eta]) (by norm_num)
  have s2 := nmadd_rep_step E.D goodD hm (E.fused 28) s1.toNear hy c2 (K := 787 / 1000) (D := 9192 / 10 ^ 18)
    ⟨k * 0x14442D, -44, by rw [abs_of_nonneg (by positivity)]; norm_num at hk3 ⊢; omega, by decide, by push_cast; norm_num; ring⟩
    (by rw [abs_of_nonneg (by positivity)]; norm_num; linarith) hres2 (by norm_num [eta]) (by norm_num)
  have s3 := nmadd_step E.D goodD hm (E.fused 29) s2.toNear hy c3 (A := 1 / 10 ^ 5) (K := 786 / 1000) (D := 9300 / 10 ^ 18)
    (by rw [abs_of_nonneg (by positivity)]; norm_num; linarith)
    (by rw [show v - k * (0x1921FB40000000 / 2 ^ 52) - k * (0x14442D00000000 / 2 ^ 76) - k * (0x18469898CC5170 / 2 ^ 100)
          = v - k * (0x1921FB40000000 / 2 ^ 52 + 0x14442D00000000 / 2 ^ 76 + 0x18469898CC5170 / 2 ^ 100) by ring]; exact hres)
    (by norm_num [eta]) (by norm_num) (by norm_num)
  have hq := quadrant_eq E.undefD hy.fin hy.eq (by omega)
  refine folded_of (P := 0x1921FB40000000 / 2 ^ 52 + 0x14442D00000000 / 2 ^ 76 + 0x18469898CC5170 / 2 ^ 100) (k := k) (d := 1 / 10 ^ 26)
    (cast_appr s3 (by ring)) (by norm_num) hq ?_ ?_
  · have a1 := pi_gt_27
    have a2 := pi_lt_27
    push_cast
    rw [abs_le]; norm_num at *; constructor <;> linarith
  · have : (k : ℝ) ≤ ((1073741824 : ℕ) : ℝ) := by exact_mod_cast hk3.trans (by norm_num)
    push_cast at this ⊢; norm_num; linarith

end StdSimd.Trig
