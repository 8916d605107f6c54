import Verif.Proofs.TrigStep
import Verif.Proofs.TrigPoly
/-! # `sin` and `cos`: rounding errors of `__cosSeries` and `__sinSeries` (generated numerals) -/
namespace StdSimd.Trig
open Spec FloatBits

theorem cast_appr {f : Fmt} {x : f.Bits} {v w e M : ℚ} (h : Appr f x v e M) (hv : v = w) : Appr f x w e M := hv ▸ h

theorem litF (m e : ℤ) (v : ℚ) {M : ℚ} (h1 : m % 2 = 0 ∧ |m / 2| < 2 ^ 24) (h2 : F.emin ≤ e ∧ e ≤ 50) (h3 : (m : ℚ) * 2 ^ e = v) (h4 : |v| ≤ M) :
    Appr F (lit F m e) v 0 M := by
  subst h3
  refine ⟨round_rep goodF _ _ ⟨m / 2, e + 1, h1.2, by omega, ?_⟩ ?_, h4⟩
  · have : m = m / 2 * 2 := by omega
    rw [show ((m : ℤ) : ℚ) = ((m / 2 : ℤ) : ℚ) * 2 by exact_mod_cast this, zpow_add₀ (by norm_num)]
    ring
  rw [abs_mul, abs_of_pos (show (0 : ℚ) < 2 ^ e by positivity)]
  have a : |(m : ℚ)| ≤ 2 ^ 25 := by
    have : |m| ≤ 2 ^ 25 := by have := h1.2; rw [abs_lt] at this; rw [abs_le]; omega
    exact_mod_cast this
  have b : (2 : ℚ) ^ e ≤ 2 ^ (50 : ℤ) := zpow_le_zpow_right₀ (by norm_num) h2.2
  exact (mul_le_mul a b (by positivity) (by positivity)).trans (by norm_num)

theorem litF1 (m e : ℤ) (v : ℚ) {M : ℚ} (h1 : |m| < 2 ^ 24) (h2 : F.emin ≤ e ∧ e ≤ 50) (h3 : (m : ℚ) * 2 ^ e = v) (h4 : |v| ≤ M) :
    Appr F (lit F m e) v 0 M := by
  subst h3
  refine ⟨lit_near goodF h1 h2.1 ?_, h4⟩
  rw [abs_mul, abs_of_pos (show (0 : ℚ) < 2 ^ e by positivity)]
  have a : |(m : ℚ)| ≤ 2 ^ 24 := by exact_mod_cast h1.le
  have b : (2 : ℚ) ^ e ≤ 2 ^ (50 : ℤ) := zpow_le_zpow_right₀ (by norm_num) h2.2
  exact (mul_le_mul a b (by positivity) (by positivity)).trans (by norm_num)

theorem litD (m e : ℤ) (v : ℚ) {M : ℚ} (h1 : |m| < 2 ^ 53) (h2 : D.emin ≤ e ∧ e ≤ 40) (h3 : (m : ℚ) * 2 ^ e = v) (h4 : |v| ≤ M) :
    Appr D (lit D m e) v 0 M := by
  subst h3
  refine ⟨lit_near goodD h1 h2.1 ?_, h4⟩
  rw [abs_mul, abs_of_pos (show (0 : ℚ) < 2 ^ e by positivity)]
  have a : |(m : ℚ)| ≤ 2 ^ 53 := by exact_mod_cast h1.le
  have b : (2 : ℚ) ^ e ≤ 2 ^ (40 : ℤ) := zpow_le_zpow_right₀ (by norm_num) h2.2
  exact (mul_le_mul a b (by positivity) (by positivity)).trans (by norm_num)

variable (E : Env)

theorem cosSeriesF_appr (hm : E.F.mode = .nearest) {x : F.Bits} (hf : F.isFinite x) (hr : |F.ratValue x| ≤ 79 / 10 ^ 2) :
    Appr F (cosSeriesF E x) (pCosF (F.ratValue x)) (1410 / 10 ^ 10) (1329 / 10 ^ 3) := by
  have hx : Appr F x (F.ratValue x) 0 (79 / 10 ^ 2) := ⟨Near.self hf, hr⟩
  have ht := mul_step E.F goodF hm hx hx (D := 3720 / 10 ^ 11) (K := 6241 / 10 ^ 4) (by norm_num [eta]) (by norm_num) (by norm_num)
  have c0 := litF1 (26) (-20) (26 / 2 ^ 20) (M := 2480 / 10 ^ 8) (by decide) (by decide) (by norm_num) (by norm_num [abs_of_neg])
  have c1 := litF1 (5825) (-22) (5825 / 2 ^ 22) (M := 1389 / 10 ^ 6) (by decide) (by decide) (by norm_num) (by norm_num [abs_of_neg])
  have y1 := msub_step E.F goodF hm (E.fused 0) c0 ht c1 (D := 8556 / 10 ^ 14) (K := 1405 / 10 ^ 6) (by norm_num [eta]) (by norm_num) (by norm_num) (by norm_num)
  have c2 := litF (22369622) (-29) (22369622 / 2 ^ 29) (M := 4167 / 10 ^ 5) (by decide) (by decide) (by norm_num) (by norm_num [abs_of_neg])
  have y2 := madd_step E.F goodF hm (E.fused 1) y1 ht c2 (D := 2694 / 10 ^ 12) (K := 4255 / 10 ^ 5) (by norm_num [eta]) (by norm_num) (by norm_num) (by norm_num)
  have w := mul_step E.F goodF hm ht ht (D := 6965 / 10 ^ 11) (K := 3896 / 10 ^ 4) (by norm_num [eta]) (by norm_num) (by norm_num)
  have ch := litF1 1 (-1) (1 / 2 ^ 1) (M := 5000 / 10 ^ 4) (by decide) (by decide) (by norm_num) (by norm_num [abs_of_neg])
  have h := mul_step E.F goodF hm ch ht (D := 3720 / 10 ^ 11) (K := 3121 / 10 ^ 4) (by norm_num [eta]) (by norm_num) (by norm_num)
  have z := msub_step E.F goodF hm (E.fused 2) y2 w h (D := 6180 / 10 ^ 11) (K := 3287 / 10 ^ 4) (by norm_num [eta]) (by norm_num) (by norm_num) (by norm_num)
  have co := litF1 1 0 (1) (M := 1000 / 10 ^ 3) (by decide) (by decide) (by norm_num) (by norm_num [abs_of_neg])
  have zz := add_step E.F goodF hm z co (D := 1410 / 10 ^ 10) (K := 1329 / 10 ^ 3) (by norm_num [eta]) (by norm_num) (by norm_num)
  unfold cosSeriesF
  exact cast_appr zz (by simp only [pCosF]; norm_num)

theorem sinSeriesF_appr (hm : E.F.mode = .nearest) {x : F.Bits} (hf : F.isFinite x) (hr : |F.ratValue x| ≤ 79 / 10 ^ 2) :
    Appr F (sinSeriesF E x) (pSinF (F.ratValue x)) (7284 / 10 ^ 11) (8749 / 10 ^ 4) := by
  have hx : Appr F x (F.ratValue x) 0 (79 / 10 ^ 2) := ⟨Near.self hf, hr⟩
  have ht := mul_step E.F goodF hm hx hx (D := 3720 / 10 ^ 11) (K := 6241 / 10 ^ 4) (by norm_num [eta]) (by norm_num) (by norm_num)
  have c0 := litF (-27049984) (-37) (-27049984 / 2 ^ 37) (M := 1969 / 10 ^ 7) (by decide) (by decide) (by norm_num) (by norm_num [abs_of_neg])
  have c1 := litF (17895680) (-31) (17895680 / 2 ^ 31) (M := 8334 / 10 ^ 6) (by decide) (by decide) (by norm_num) (by norm_num [abs_of_neg])
  have y1 := madd_step E.F goodF hm (E.fused 11) c0 ht c1 (D := 5188 / 10 ^ 13) (K := 8457 / 10 ^ 6) (by norm_num [eta]) (by norm_num) (by norm_num) (by norm_num)
  have c2 := litF (22369622) (-27) (22369622 / 2 ^ 27) (M := 1667 / 10 ^ 4) (by decide) (by decide) (by norm_num) (by norm_num [abs_of_neg])
  have y2 := msub_step E.F goodF hm (E.fused 12) y1 ht c2 (D := 1121 / 10 ^ 11) (K := 1720 / 10 ^ 4) (by norm_num [eta]) (by norm_num) (by norm_num) (by norm_num)
  have w := mul_step E.F goodF hm ht hx (D := 5878 / 10 ^ 11) (K := 4931 / 10 ^ 4) (by norm_num [eta]) (by norm_num) (by norm_num)
  have z := madd_step E.F goodF hm (E.fused 13) y2 w hx (D := 7284 / 10 ^ 11) (K := 8749 / 10 ^ 4) (by norm_num [eta]) (by norm_num) (by norm_num) (by norm_num)
  unfold sinSeriesF
  exact cast_appr z (by simp only [pSinF])

theorem cosSeriesD_appr (hm : E.D.mode = .nearest) {x : D.Bits} (hf : D.isFinite x) (hr : |D.ratValue x| ≤ 79 / 10 ^ 2) :
    Appr D (cosSeriesD E x) (pCosD (D.ratValue x)) (2627 / 10 ^ 19) (1329 / 10 ^ 3) := by
  have hx : Appr D x (D.ratValue x) 0 (79 / 10 ^ 2) := ⟨Near.self hf, hr⟩
  have ht := mul_step E.D goodD hm hx hx (D := 6929 / 10 ^ 20) (K := 6241 / 10 ^ 4) (by norm_num [eta]) (by norm_num) (by norm_num)
  have c0 := litD (7529455627010048) (-97) (7529455627010048 / 2 ^ 97) (M := 4752 / 10 ^ 17) (by decide) (by decide) (by norm_num) (by norm_num [abs_of_neg])
  have c1 := litD (7099821458456576) (-89) (7099821458456576 / 2 ^ 89) (M := 1148 / 10 ^ 14) (by decide) (by decide) (by norm_num) (by norm_num [abs_of_neg])
  have y1 := msub_step E.D goodD hm (E.fused 3) c0 ht c1 (D := 1285 / 10 ^ 30) (K := 1151 / 10 ^ 14) (by norm_num [eta]) (by norm_num) (by norm_num) (by norm_num)
  have c2 := litD (5047689305653248) (-81) (5047689305653248 / 2 ^ 81) (M := 2088 / 10 ^ 12) (by decide) (by decide) (by norm_num) (by norm_num [abs_of_neg])
  have y2 := madd_step E.D goodD hm (E.fused 4) y1 ht c2 (D := 2351 / 10 ^ 28) (K := 2096 / 10 ^ 12) (by norm_num [eta]) (by norm_num) (by norm_num) (by norm_num)
  have c3 := litD (5205430422732800) (-74) (5205430422732800 / 2 ^ 74) (M := 2756 / 10 ^ 10) (by decide) (by decide) (by norm_num) (by norm_num [abs_of_neg])
  have y3 := msub_step E.D goodD hm (E.fused 5) y2 ht c3 (D := 3119 / 10 ^ 26) (K := 2770 / 10 ^ 10) (by norm_num [eta]) (by norm_num) (by norm_num) (by norm_num)
  have c4 := litD (7320136537178112) (-68) (7320136537178112 / 2 ^ 68) (M := 2481 / 10 ^ 8) (by decide) (by decide) (by norm_num) (by norm_num [abs_of_neg])
  have y4 := madd_step E.D goodD hm (E.fused 6) y3 ht c4 (D := 2832 / 10 ^ 24) (K := 2499 / 10 ^ 8) (by norm_num [eta]) (by norm_num) (by norm_num) (by norm_num)
  have c5 := litD (6405119470038016) (-62) (6405119470038016 / 2 ^ 62) (M := 1389 / 10 ^ 6) (by decide) (by decide) (by norm_num) (by norm_num [abs_of_neg])
  have y5 := msub_step E.D goodD hm (E.fused 7) y4 ht c5 (D := 1612 / 10 ^ 22) (K := 1405 / 10 ^ 6) (by norm_num [eta]) (by norm_num) (by norm_num) (by norm_num)
  have c6 := litD (6004799503160660) (-57) (6004799503160660 / 2 ^ 57) (M := 4167 / 10 ^ 5) (by decide) (by decide) (by norm_num) (by norm_num [abs_of_neg])
  have y6 := madd_step E.D goodD hm (E.fused 8) y5 ht c6 (D := 5019 / 10 ^ 21) (K := 4255 / 10 ^ 5) (by norm_num [eta]) (by norm_num) (by norm_num) (by norm_num)
  have ch := litD 1 (-1) (1 / 2 ^ 1) (M := 5000 / 10 ^ 4) (by decide) (by decide) (by norm_num) (by norm_num [abs_of_neg])
  have z := msub_step E.D goodD hm (E.fused 9) y6 ht ch (D := 6749 / 10 ^ 20) (K := 5266 / 10 ^ 4) (by norm_num [eta]) (by norm_num) (by norm_num) (by norm_num)
  have co := litD 1 0 (1) (M := 1000 / 10 ^ 3) (by decide) (by decide) (by norm_num) (by norm_num [abs_of_neg])
  have zz := madd_step E.D goodD hm (E.fused 10) z ht co (D := 2627 / 10 ^ 19) (K := 1329 / 10 ^ 3) (by norm_num [eta]) (by norm_num) (by norm_num) (by norm_num)
  unfold cosSeriesD
  exact cast_appr zz (by simp only [pCosD]; norm_num)

theorem sinSeriesD_appr (hm : E.D.mode = .nearest) {x : D.Bits} (hf : D.isFinite x) (hr : |D.ratValue x| ≤ 79 / 10 ^ 2) :
    Appr D (sinSeriesD E x) (pSinD (D.ratValue x)) (1357 / 10 ^ 19) (8749 / 10 ^ 4) := by
  have hx : Appr D x (D.ratValue x) 0 (79 / 10 ^ 2) := ⟨Near.self hf, hr⟩
  have ht := mul_step E.D goodD hm hx hx (D := 6929 / 10 ^ 20) (K := 6241 / 10 ^ 4) (by norm_num [eta]) (by norm_num) (by norm_num)
  have c0 := litD (-7545948301426688) (-93) (-7545948301426688 / 2 ^ 93) (M := 7620 / 10 ^ 16) (by decide) (by decide) (by norm_num) (by norm_num [abs_of_neg])
  have c1 := litD (6212532754710528) (-85) (6212532754710528 / 2 ^ 85) (M := 1606 / 10 ^ 13) (by decide) (by decide) (by norm_num) (by norm_num [abs_of_neg])
  have y1 := madd_step E.D goodD hm (E.fused 14) c0 ht c1 (D := 1799 / 10 ^ 29) (K := 1611 / 10 ^ 13) (by norm_num [eta]) (by norm_num) (by norm_num) (by norm_num)
  have c2 := litD (7571535149662208) (-78) (7571535149662208 / 2 ^ 78) (M := 2506 / 10 ^ 11) (by decide) (by decide) (by norm_num) (by norm_num [abs_of_neg])
  have y2 := msub_step E.D goodD hm (E.fused 15) y1 ht c2 (D := 2827 / 10 ^ 27) (K := 2517 / 10 ^ 11) (by norm_num [eta]) (by norm_num) (by norm_num) (by norm_num)
  have c3 := litD (6506788032872448) (-71) (6506788032872448 / 2 ^ 71) (M := 2756 / 10 ^ 9) (by decide) (by decide) (by norm_num) (by norm_num [abs_of_neg])
  have y3 := madd_step E.D goodD hm (E.fused 16) y2 ht c3 (D := 3130 / 10 ^ 25) (K := 2772 / 10 ^ 9) (by norm_num [eta]) (by norm_num) (by norm_num) (by norm_num)
  have c4 := litD (7320136537186304) (-65) (7320136537186304 / 2 ^ 65) (M := 1985 / 10 ^ 7) (by decide) (by decide) (by norm_num) (by norm_num [abs_of_neg])
  have y4 := msub_step E.D goodD hm (E.fused 17) y3 ht c4 (D := 2281 / 10 ^ 23) (K := 2003 / 10 ^ 7) (by norm_num [eta]) (by norm_num) (by norm_num) (by norm_num)
  have c5 := litD (4803839602528528) (-59) (4803839602528528 / 2 ^ 59) (M := 8334 / 10 ^ 6) (by decide) (by decide) (by norm_num) (by norm_num [abs_of_neg])
  have y5 := madd_step E.D goodD hm (E.fused 18) y4 ht c5 (D := 9812 / 10 ^ 22) (K := 8460 / 10 ^ 6) (by norm_num [eta]) (by norm_num) (by norm_num) (by norm_num)
  have c6 := litD (6004799503160661) (-55) (6004799503160661 / 2 ^ 55) (M := 1667 / 10 ^ 4) (by decide) (by decide) (by norm_num) (by norm_num [abs_of_neg])
  have y6 := msub_step E.D goodD hm (E.fused 19) y5 ht c6 (D := 2088 / 10 ^ 20) (K := 1720 / 10 ^ 4) (by norm_num [eta]) (by norm_num) (by norm_num) (by norm_num)
  have w := mul_step E.D goodD hm ht hx (D := 1095 / 10 ^ 19) (K := 4931 / 10 ^ 4) (by norm_num [eta]) (by norm_num) (by norm_num)
  have z := madd_step E.D goodD hm (E.fused 20) y6 w hx (D := 1357 / 10 ^ 19) (K := 8749 / 10 ^ 4) (by norm_num [eta]) (by norm_num) (by norm_num) (by norm_num)
  unfold sinSeriesD
  exact cast_appr z (by simp only [pSinD])

end StdSimd.Trig
