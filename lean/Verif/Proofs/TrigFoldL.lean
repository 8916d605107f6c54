import Verif.Proofs.TrigFoldD
/-! # `sin` and `cos`: reduction of large `double` arguments -/
namespace StdSimd.Trig
open Spec FloatBits Math
open StdSimd.Rounding

variable (E : Env)

theorem and_allOnes_shl {w : ℕ} (x : BitVec w) (n : ℕ) : x &&& (BitVec.allOnes w <<< n) = (x >>> n) <<< n := by
  apply BitVec.eq_of_getLsbD_eq
  intro i hi
  simp only [BitVec.getLsbD_and, BitVec.getLsbD_shiftLeft, BitVec.getLsbD_ushiftRight, BitVec.getLsbD_allOnes]
  by_cases h : i < n
  · simp [h]
  · have h2 : n + (i - n) = i := by omega
    have h4 : i - n < w := by omega
    simp [h, h2, hi, h4]

theorem zeroLow_toNat (y : D.Bits) : (zeroLowBits y).toNat = y.toNat / 2 ^ 26 * 2 ^ 26 := by
  have h : zeroLowBits y = (y >>> 26) <<< 26 := and_allOnes_shl (w := 64) y 26
  rw [h, BitVec.toNat_shiftLeft, BitVec.toNat_ushiftRight, Nat.shiftRight_eq_div_pow, Nat.shiftLeft_eq]
  apply Nat.mod_eq_of_lt
  exact lt_of_le_of_lt (Nat.div_mul_le_self _ _) y.isLt

/-- `y = yhi + ylo` with few bits in both parts. -/
theorem zeroLow_spec {y : D.Bits} {k : ℕ} (hy : Near D y (k : ℚ) 0) (h1 : 1 ≤ k) (h2 : k < 2 ^ 31) :
    ∃ (h l : ℕ) (e : ℤ), h < 2 ^ 27 ∧ l < 2 ^ 26 ∧ -52 ≤ e ∧ e ≤ -22 ∧ Near D (zeroLowBits y) (h * 2 ^ (e + 26)) 0
      ∧ (k : ℚ) = h * 2 ^ (e + 26) + l * 2 ^ e := by
  have hv := hy.eq
  have hfin := hy.fin
  have ht := zeroLow_toNat y
  have hlt := y.isLt
  have hsy : D.sign y = false := by
    cases h : D.sign y
    · rfl
    · have := (ratValue_sign (x := y)).2 h
      rw [hv] at this
      have : (1 : ℚ) ≤ k := by exact_mod_cast h1
      linarith
  have hsz : D.sign (zeroLowBits y) = false := by
    unfold Fmt.sign at hsy ⊢
    rw [BitVec.getLsbD, Nat.testBit_eq_decide_div_mod_eq] at hsy ⊢
    rw [decide_eq_false_iff_not] at hsy ⊢
    rw [ht]
    have a : D.ebits + D.mbits = 63 := rfl
    rw [a] at hsy ⊢
    norm_num at hsy ⊢
    omega
  have hex : D.expo (zeroLowBits y) = D.expo y := by
    unfold Fmt.expo
    rw [ht]
    have a : D.mbits = 52 := rfl
    have b : D.ebits = 11 := rfl
    rw [a, b]
    norm_num
    omega
  have hma : D.mant (zeroLowBits y) = D.mant y / 2 ^ 26 * 2 ^ 26 := by
    unfold Fmt.mant
    rw [ht]
    have a : D.mbits = 52 := rfl
    rw [a]
    norm_num
    omega
  have hm52 : D.mant y < 2 ^ 52 := Nat.mod_lt _ (by decide)
  set s := D.significand y with hs
  have hsg : D.significand (zeroLowBits y) = s / 2 ^ 26 * 2 ^ 26 := by
    rw [hs]
    unfold Fmt.significand
    rw [hex, hma]
    have a : D.mbits = 52 := rfl
    rw [a]
    split <;> norm_num <;> omega
  have hs53 : s < 2 ^ 53 := by
    rw [hs]; unfold Fmt.significand
    have a : D.mbits = 52 := rfl
    rw [a]
    split <;> norm_num at hm52 ⊢ <;> omega
  set e : ℤ := (max (D.expo y) 1 : ℤ) - D.bias - D.mbits with he
  have hval : (k : ℚ) = s * 2 ^ e := by
    rw [← hv]; unfold Fmt.ratValue; rw [hsy]; simp only [Bool.false_eq_true, if_false, one_mul]; rfl
  have hvalz : D.ratValue (zeroLowBits y) = ((s / 2 ^ 26 * 2 ^ 26 : ℕ) : ℚ) * 2 ^ e := by
    unfold Fmt.ratValue; rw [hsz, hex, hsg]; simp only [Bool.false_eq_true, if_false, one_mul]; rfl
  have hk1 : (1 : ℚ) ≤ k := by exact_mod_cast h1
  have hk2 : (k : ℚ) < 2 ^ 31 := by exact_mod_cast h2
  have he1 : -52 ≤ e := by
    by_contra hc
    have h3 : (2 : ℚ) ^ e ≤ 2 ^ (-53 : ℤ) := zpow_le_zpow_right₀ (by norm_num) (by omega)
    have h4 : (s : ℚ) < 2 ^ 53 := by exact_mod_cast hs53
    have h5 : (s : ℚ) * 2 ^ e ≤ s * 2 ^ (-53 : ℤ) := mul_le_mul_of_nonneg_left h3 (Nat.cast_nonneg s)
    have h6 : (s : ℚ) * 2 ^ (-53 : ℤ) < 2 ^ 53 * 2 ^ (-53 : ℤ) := mul_lt_mul_of_pos_right h4 (by positivity)
    rw [← hval] at h5
    have h7 : (2 : ℚ) ^ 53 * 2 ^ (-53 : ℤ) = 1 := by norm_num
    linarith
  have hex0 : D.expo y ≠ 0 := by
    intro h
    rw [he, h] at he1
    have a : (D.mbits : ℤ) = 52 := rfl
    have b : (D.bias : ℤ) = 1023 := by decide
    rw [a, b] at he1
    norm_num at he1
  have hs52 : 2 ^ 52 ≤ s := by
    rw [hs]; unfold Fmt.significand
    rw [if_neg hex0]
    exact Nat.le_add_right _ _
  have he2 : e ≤ -22 := by
    by_contra hc
    have h3 : (2 : ℚ) ^ (-21 : ℤ) ≤ 2 ^ e := zpow_le_zpow_right₀ (by norm_num) (by omega)
    have h4 : (2 : ℚ) ^ 52 ≤ s := by exact_mod_cast hs52
    have h5 : (2 : ℚ) ^ 52 * 2 ^ (-21 : ℤ) ≤ s * 2 ^ e := mul_le_mul h4 h3 (by positivity) (Nat.cast_nonneg s)
    rw [← hval] at h5
    have h7 : (2 : ℚ) ^ 52 * 2 ^ (-21 : ℤ) = 2 ^ 31 := by norm_num
    linarith
  refine ⟨s / 2 ^ 26, s % 2 ^ 26, e, ?_, Nat.mod_lt _ (by decide), he1, he2, ⟨?_, ?_⟩, ?_⟩
  · norm_num at hs53 ⊢; omega
  · unfold Fmt.isFinite at hfin ⊢; rw [hex]; exact hfin
  · rw [hvalz, zpow_add₀ (by norm_num)]
    refine le_of_eq (abs_eq_zero.2 ?_)
    push_cast
    norm_num
    ring
  · rw [hval, zpow_add₀ (by norm_num)]
    have h3 : s = s / 2 ^ 26 * 2 ^ 26 + s % 2 ^ 26 := by omega
    have h4 : (s : ℚ) = (s / 2 ^ 26 : ℕ) * 2 ^ 26 + (s % 2 ^ 26 : ℕ) := by exact_mod_cast h3
    rw [h4]
    norm_num
    ring

theorem zeroLow_zero {y : D.Bits} (hy : Near D y 0 0) : Near D (zeroLowBits y) 0 0 := by
  have hv := hy.eq
  have ht := zeroLow_toNat y
  have a : D.mbits = 52 := rfl
  have b : D.ebits = 11 := rfl
  have hex : D.expo (zeroLowBits y) = D.expo y := by
    unfold Fmt.expo
    rw [ht, a, b]
    norm_num
    omega
  have hma : D.mant (zeroLowBits y) = D.mant y / 2 ^ 26 * 2 ^ 26 := by
    unfold Fmt.mant
    rw [ht, a]
    norm_num
    omega
  have hs : D.significand y = 0 := by
    unfold Fmt.ratValue at hv
    rcases mul_eq_zero.1 hv with h | h
    · rcases mul_eq_zero.1 h with h | h
      · split at h <;> norm_num at h
      · exact_mod_cast h
    · exact absurd h (by positivity)
  have hs' : D.significand (zeroLowBits y) = 0 := by
    unfold Fmt.significand at hs ⊢
    rw [hex, hma]
    split at hs
    · rw [if_pos (by assumption), hs]; norm_num
    · rw [a] at hs; norm_num at hs
  refine ⟨by have := hy.fin; unfold Fmt.isFinite at this ⊢; rw [hex]; exact this, ?_⟩
  unfold Fmt.ratValue
  rw [hs']; simp

theorem zeroLow_spec' {y : D.Bits} {k : ℕ} (hy : Near D y (k : ℚ) 0) (h2 : k < 2 ^ 31) :
    ∃ (h l : ℕ) (e : ℤ), h < 2 ^ 27 ∧ l < 2 ^ 26 ∧ -52 ≤ e ∧ e ≤ -22 ∧ Near D (zeroLowBits y) (h * 2 ^ (e + 26)) 0
      ∧ (k : ℚ) = h * 2 ^ (e + 26) + l * 2 ^ e := by
  rcases Nat.eq_zero_or_pos k with h | h
  · subst h
    refine ⟨0, 0, -22, by norm_num, by norm_num, by norm_num, by norm_num, ?_, by norm_num⟩
    rw [show ((0 : ℕ) : ℚ) * 2 ^ ((-22 : ℤ) + 26) = 0 by norm_num]
    exact zeroLow_zero (by simpa using hy)
  · exact zeroLow_spec hy h h2

section
variable {f : Fmt} (env : f.Env) {u : ℚ} (hg : Good f u)
include hg

theorem sub_rep {x y : f.Bits} {v w : ℚ} (hx : Near f x v 0) (hy : Near f y w 0) (hr : Rep f (v - w)) (hB : |v - w| ≤ 2 ^ 100) :
    Near f (Fmt.sub env x y) (v - w) 0 := by
  have a := (finite_not hg.ok hx.fin).1
  have b := (finite_not hg.ok hy.fin).1
  unfold Fmt.sub
  rw [if_neg (by tauto), add_finite env hg.ok hx.fin (finite_neg.2 hy.fin), ratValue_neg, hx.eq, hy.eq, ← sub_eq_add_neg]
  exact round_rep hg _ _ hr hB

theorem mul_rep {x y : f.Bits} {v w : ℚ} (hx : Near f x v 0) (hy : Near f y w 0) (hr : Rep f (v * w)) (hB : |v * w| ≤ 2 ^ 100) :
    Near f (Fmt.mul env x y) (v * w) 0 := by
  have := mul_exact env hg hx.fin hy.fin (by rw [hx.eq, hy.eq]; exact hr) (by rw [hx.eq, hy.eq]; exact hB)
  rwa [hx.eq, hy.eq] at this

theorem fmax_near {x y : f.Bits} {v w e : ℚ} (hx : Near f x v e) (hy : Near f y w e) : Near f (fmax x y) (max v w) e := by
  have h : f.isFinite (fmax x y) ∧ f.ratValue (fmax x y) = max (f.ratValue x) (f.ratValue y) := by
    unfold fmax
    rw [lt_finite hg.ok hx.fin hy.fin]
    by_cases h : f.ratValue x < f.ratValue y
    · rw [if_pos (by simpa using h), max_eq_right h.le]; exact ⟨hy.fin, rfl⟩
    · rw [if_neg (by simpa using h), max_eq_left (not_lt.1 h)]; exact ⟨hx.fin, rfl⟩
  refine ⟨h.1, ?_⟩
  rw [h.2]
  exact (abs_max_sub_max_le_max _ _ _ _).trans (max_le hx.err hy.err)

theorem fmin_near {x y : f.Bits} {v w e : ℚ} (hx : Near f x v e) (hy : Near f y w e) : Near f (fmin x y) (min v w) e := by
  have h : f.isFinite (fmin x y) ∧ f.ratValue (fmin x y) = min (f.ratValue x) (f.ratValue y) := by
    unfold fmin
    rw [lt_finite hg.ok hy.fin hx.fin]
    by_cases h : f.ratValue y < f.ratValue x
    · rw [if_pos (by simpa using h), min_eq_right h.le]; exact ⟨hy.fin, rfl⟩
    · rw [if_neg (by simpa using h), min_eq_left (not_lt.1 h)]; exact ⟨hx.fin, rfl⟩
  refine ⟨h.1, ?_⟩
  rw [h.2]
  exact (abs_min_sub_min_le_max _ _ _ _).trans (max_le hx.err hy.err)

end

/-- A number of few bits times a constant of 25 bits is exact. -/
theorem rep_prod {n m : ℕ} {a j : ℤ} (hn : n < 2 ^ 27) (hm : m < 2 ^ 26) (ha : -60 ≤ a) (hj : -200 ≤ j) : Rep D ((n * 2 ^ a) * (m * 2 ^ j)) := by
  refine ⟨n * m, a + j, ?_, le_trans (by decide : D.emin ≤ -1000) (by omega), ?_⟩
  · rw [abs_of_nonneg (by positivity)]
    have : n * m < 2 ^ 27 * 2 ^ 26 := Nat.mul_lt_mul'' hn hm
    exact_mod_cast this
  · rw [zpow_add₀ (by norm_num)]; push_cast; ring

/-- The exact products. -/
theorem prod_val (y c : D.Bits) {n m : ℕ} {a j : ℤ} (hy : Near D y (n * 2 ^ a) 0) (hc : Near D c (m * 2 ^ j) 0) (hn : n < 2 ^ 27) (hm : m < 2 ^ 26)
    (ha : -60 ≤ a ∧ a ≤ 10) (hj : -200 ≤ j ∧ j ≤ 10) : Near D (Fmt.mul E.D y c) (n * 2 ^ a * (m * 2 ^ j)) 0 := by
  refine mul_rep E.D goodD hy hc (rep_prod hn hm ha.1 hj.1) ?_
  have h1 : (n : ℚ) ≤ 2 ^ 27 := by exact_mod_cast hn.le
  have h2 : (m : ℚ) ≤ 2 ^ 26 := by exact_mod_cast hm.le
  have h3 : (2 : ℚ) ^ a ≤ 2 ^ (10 : ℤ) := zpow_le_zpow_right₀ (by norm_num) ha.2
  have h4 : (2 : ℚ) ^ j ≤ 2 ^ (10 : ℤ) := zpow_le_zpow_right₀ (by norm_num) hj.2
  rw [abs_of_nonneg (by positivity)]
  have h5 := mul_le_mul h1 h3 (by positivity) (by positivity)
  have h6 := mul_le_mul h2 h4 (by positivity) (by positivity)
  exact (mul_le_mul h5 h6 (by positivity) (by positivity)).trans (by norm_num)

/-- The six subtractions. -/
theorem chain (hm : E.D.mode = .nearest) {a x1 y1 x2 y2 x3 y3 : D.Bits} {R A B C G H I : ℚ} (ha : Appr D a (R + (A + B) + (C + G) + (H + I)) (5330 / 10 ^ 18) 48)
    (hA : Near D x1 A 0) (hB : Near D y1 B 0) (hC : Near D x2 C 0) (hG : Near D y2 G 0) (hH : Near D x3 H (1 / 10 ^ 30)) (hI : Near D y3 I 0)
    (hR : |R| ≤ 786 / 1000) (a0 : 0 ≤ A) (a1 : A ≤ 22) (b0 : 0 ≤ B) (b1 : B ≤ 26) (c0 : 0 ≤ C) (c1 : C ≤ 1 / 10 ^ 6) (g0 : 0 ≤ G) (g1 : G ≤ 1 / 10 ^ 6)
    (h0 : 0 ≤ H) (h1 : H ≤ 1 / 10 ^ 6) (i0 : 0 ≤ I) (i1 : I ≤ 1 / 10 ^ 6) :
    Appr D (Fmt.sub E.D (Fmt.sub E.D (Fmt.sub E.D (Fmt.sub E.D (Fmt.sub E.D (Fmt.sub E.D a (fmax x1 y1)) (fmin x1 y1)) (fmax x2 y2)) (fmin x2 y2))
      (fmax x3 y3)) (fmin x3 y3)) R (8400 / 10 ^ 18) (786 / 1000) := by
  have m1 := max_add_min A B
  have m2 := max_add_min C G
  have m3 := max_add_min H I
  have n1 : 0 ≤ min A B := le_min a0 b0
  have n2 : 0 ≤ min C G := le_min c0 g0
  have n3 : 0 ≤ min H I := le_min h0 i0
  have n4 : min A B ≤ 22 := (min_le_left _ _).trans a1
  have n5 : min C G ≤ 1 / 10 ^ 6 := (min_le_left _ _).trans c1
  have n6 : min H I ≤ 1 / 10 ^ 6 := (min_le_left _ _).trans h1
  have p1 := fmax_near goodD hA hB
  have p2 := fmin_near goodD hA hB
  have p3 := fmax_near goodD hC hG
  have p4 := fmin_near goodD hC hG
  have hI' := hI.mono (e' := 1 / 10 ^ 30) (by norm_num)
  have p5 := fmax_near goodD hH hI'
  have p6 := fmin_near goodD hH hI'
  rw [abs_le] at hR
  generalize max A B = A1 at *
  generalize min A B = A2 at *
  generalize max C G = C1 at *
  generalize min C G = C2 at *
  generalize max H I = H1 at *
  generalize min H I = H2 at *
  have s1 := sub_step E.D goodD hm (cast_appr ha (w := R + A1 + A2 + (C + G) + (H + I)) (by linarith)).toNear p1 (K := 23) (D := 7885 / 10 ^ 18)
    (by rw [abs_le]; norm_num at *; constructor <;> linarith) (by norm_num [eta]) (by norm_num)
  have s2 := sub_step E.D goodD hm s1.toNear p2 (K := 787 / 1000) (D := 7973 / 10 ^ 18)
    (by rw [abs_le]; norm_num at *; constructor <;> linarith) (by norm_num [eta]) (by norm_num)
  have s3 := sub_step E.D goodD hm (cast_appr s2 (w := R + C1 + C2 + (H + I)) (by linarith)).toNear p3 (K := 787 / 1000) (D := 8061 / 10 ^ 18)
    (by rw [abs_le]; norm_num at *; constructor <;> linarith) (by norm_num [eta]) (by norm_num)
  have s4 := sub_step E.D goodD hm s3.toNear p4 (K := 787 / 1000) (D := 8149 / 10 ^ 18)
    (by rw [abs_le]; norm_num at *; constructor <;> linarith) (by norm_num [eta]) (by norm_num)
  have s5 := sub_step E.D goodD hm (cast_appr s4 (w := R + H1 + H2) (by linarith)).toNear p5 (K := 787 / 1000) (D := 8237 / 10 ^ 18)
    (by rw [abs_le]; norm_num at *; constructor <;> linarith) (by norm_num [eta]) (by norm_num)
  have s6 := sub_step E.D goodD hm s5.toNear p6 (K := 786 / 1000) (D := 8400 / 10 ^ 18)
    (by rw [show R + H1 + H2 - H1 - H2 = R by ring, abs_le]; exact hR) (by norm_num [eta]) (by norm_num)
  exact cast_appr s6 (by ring)

theorem foldLargeD_spec (hm : E.D.mode = .nearest) {a : D.Bits} (ha : D.isFinite a) (h0 : 0 ≤ D.ratValue a) (h1 : D.ratValue a ≤ 2 ^ 31) :
    Folded D (foldLargeD E a (foldY E a), toInt32 D E.undefD (foldY E a) &&& 3) (D.ratValue a) (1 / 10 ^ 14) := by
  obtain ⟨k, hy, hkv⟩ := foldY_spec E hm ha h0 h1 (by norm_num) (d := 1 / 2 + 3 / 10 ^ 7) (by norm_num [eta])
  unfold foldLargeD
  generalize foldY E a = y at *
  have ha' := Near.self ha
  generalize D.ratValue a = v at *
  have hk0 : (0 : ℚ) ≤ k := Nat.cast_nonneg k
  replace h1 : v ≤ 2147483648 := h1.trans (by norm_num)
  have hk4 : (k : ℚ) ≤ ((1368000000 : ℕ) : ℚ) := by
    have h2 := (abs_le.1 hkv).2
    push_cast
    norm_num at h2
    linarith
  have hk3 : k ≤ 1368000000 := by exact_mod_cast hk4
  replace hk4 : (k : ℚ) ≤ 1368000000 := hk4.trans (by norm_num)
  obtain ⟨h, l, e, hh, hl, he1, he2, hhi, hsum⟩ := zeroLow_spec' hy (by omega)
  have c1 := (litD 0x1921FB50000000 (0 - 52) (((0x1921FB5 : ℕ) : ℚ) * 2 ^ (-24 : ℤ)) (M := 2) (by decide) (by decide) (by norm_num) (by norm_num)).toNear
  have c2 := (litD 0x1110B460000000 (-26 - 52) (((0x1110B46 : ℕ) : ℚ) * 2 ^ (-50 : ℤ)) (M := 2) (by decide) (by decide) (by norm_num) (by norm_num)).toNear
  have c3 := (litD 0x11A62630000000 (-54 - 52) (((0x11A6263 : ℕ) : ℚ) * 2 ^ (-78 : ℤ)) (M := 2) (by decide) (by decide) (by norm_num) (by norm_num)).toNear
  have c4 := (litD 0x18A2E03707344A (-81 - 52) (0x18A2E03707344A / 2 ^ 133) (M := 2) (by decide) (by decide) (by norm_num) (by norm_num)).toNear
  have z : (2 : ℚ) ^ e ≤ 2 ^ (-22 : ℤ) := zpow_le_zpow_right₀ (by norm_num) he2
  have hlo : Near D (Fmt.sub E.D y (zeroLowBits y)) (l * 2 ^ e) 0 := by
    have hL : (k : ℚ) - h * 2 ^ (e + 26) = l * 2 ^ e := by rw [hsum]; ring
    have hLB : (l : ℚ) * 2 ^ e ≤ 2 ^ 26 * 2 ^ (-22 : ℤ) := mul_le_mul (by exact_mod_cast hl.le) z (by positivity) (by positivity)
    have := sub_rep E.D goodD hy hhi (by
      rw [hL]; exact ⟨l, e, by rw [abs_of_nonneg (by positivity)]; norm_num at hl ⊢; omega, le_trans (by decide : D.emin ≤ -1000) (by omega), by push_cast; rfl⟩)
      (by rw [hL, abs_of_nonneg (by positivity)]; exact hLB.trans (by norm_num))
    rwa [hL] at this
  have q1 := prod_val E (zeroLowBits y) _ hhi c2 hh (by norm_num) ⟨by omega, by omega⟩ (by norm_num)
  have q2 := prod_val E (Fmt.sub E.D y (zeroLowBits y)) _ hlo c1 (hl.trans (by norm_num)) (by norm_num) ⟨by omega, by omega⟩ (by norm_num)
  have q3 := prod_val E (zeroLowBits y) _ hhi c3 hh (by norm_num) ⟨by omega, by omega⟩ (by norm_num)
  have q4 := prod_val E (Fmt.sub E.D y (zeroLowBits y)) _ hlo c2 (hl.trans (by norm_num)) (by norm_num) ⟨by omega, by omega⟩ (by norm_num)
  have q6 := prod_val E (Fmt.sub E.D y (zeroLowBits y)) _ hlo c3 (hl.trans (by norm_num)) (by norm_num) ⟨by omega, by omega⟩ (by norm_num)
  have q5 := mul_near E.D goodD hm (B := 1 / 10 ^ 15) hy.fin c4.fin
    (by rw [hy.eq, c4.eq, abs_of_nonneg (by positivity)]; norm_num; linarith) (by norm_num)
  rw [hy.eq, c4.eq] at q5
  have hr1 := rep_prod (a := e + 26) (j := -24) hh (show 0x1921FB5 < 2 ^ 26 by norm_num) (by omega) (by norm_num)
  have hL0 : 0 ≤ (l : ℚ) * 2 ^ e := by positivity
  have hH0 : 0 ≤ (h : ℚ) * 2 ^ (e + 26) := by positivity
  have hL1 : (l : ℚ) * 2 ^ e ≤ 16 := by
    refine (mul_le_mul (show (l : ℚ) ≤ 2 ^ 26 by exact_mod_cast hl.le) z (by positivity) (by positivity)).trans (by norm_num)
  generalize (l : ℚ) * 2 ^ e = L at *
  generalize (h : ℚ) * 2 ^ (e + 26) = H at *
  have hH1 : H ≤ 1368000000 := by linarith
  have hres : |v - k * (0x1921FB5 / 2 ^ 24 + 0x1110B46 / 2 ^ 50 + 0x11A6263 / 2 ^ 78 + 0x18A2E03707344A / 2 ^ 133)| ≤ 786 / 1000 := by
    have hc : |v * (1 - (0x1921FB5 / 2 ^ 24 + 0x1110B46 / 2 ^ 50 + 0x11A6263 / 2 ^ 78 + 0x18A2E03707344A / 2 ^ 133) * (2 ^ 52 / 0x1921fb54442d18))| ≤ 1 / 10 ^ 6 := by
      rw [abs_le]; norm_num; constructor <;> linarith
    have hres := residual (P := 0x1921FB5 / 2 ^ 24 + 0x1110B46 / 2 ^ 50 + 0x11A6263 / 2 ^ 78 + 0x18A2E03707344A / 2 ^ 133) (by norm_num) hkv hc
    exact hres.trans (by norm_num)
  have hK : |v - H * (((0x1921FB5 : ℕ) : ℚ) * 2 ^ (-24 : ℤ))| ≤ 48 := by
    rw [hsum] at hres
    rw [abs_le] at hres ⊢
    norm_num at hres ⊢
    constructor <;> linarith
  have s1 := nmadd_rep_step E.D goodD hm (E.fused 30) ha' hhi c1 (K := 48) (D := 5330 / 10 ^ 18) hr1
    (by rw [abs_of_nonneg (by positivity)]; norm_num; linarith) hK (by norm_num [eta]) (by norm_num)
  have fin := chain E hm (R := v - k * (0x1921FB5 / 2 ^ 24 + 0x1110B46 / 2 ^ 50 + 0x11A6263 / 2 ^ 78 + 0x18A2E03707344A / 2 ^ 133))
    (cast_appr s1 (by rw [hsum]; push_cast; norm_num; ring)) q1 q2 q3 q4 (q5.mono (by norm_num [eta])) q6 hres
    (by positivity) (by norm_num; linarith) (by positivity) (by norm_num; linarith) (by positivity) (by norm_num; linarith) (by positivity) (by norm_num; linarith)
    (by positivity) (by norm_num; linarith) (by positivity) (by norm_num; linarith)
  have hq := quadrant_eq E.undefD hy.fin hy.eq (by omega)
  refine folded_of (P := 0x1921FB5 / 2 ^ 24 + 0x1110B46 / 2 ^ 50 + 0x11A6263 / 2 ^ 78 + 0x18A2E03707344A / 2 ^ 133) (k := k) (d := 1 / 10 ^ 26)
    fin (by norm_num) hq ?_ ?_
  · have a1 := pi_gt_27
    have a2 := pi_lt_27
    push_cast
    rw [abs_le]; norm_num at *; constructor <;> linarith
  · have : (k : ℝ) ≤ ((1368000000 : ℕ) : ℝ) := by exact_mod_cast hk3
    push_cast at this ⊢; norm_num; linarith

end StdSimd.Trig
