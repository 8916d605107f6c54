import Verif.Proofs.TrigRel
/-! # `sin` and `cos`: small arguments in any vector -/
namespace StdSimd.Trig
open Spec FloatBits Math
open StdSimd.Rounding

variable {f : Fmt} (E : Env)

/-! ## The series -/

theorem cast79 {q : ℚ} (h : |q| ≤ 79 / 10 ^ 2) : |(q : ℝ)| ≤ 79 / 100 := by
  have : ((|q| : ℚ) : ℝ) ≤ ((79 / 10 ^ 2 : ℚ) : ℝ) := by exact_mod_cast h
  push_cast at this
  norm_num at this ⊢
  exact this

/-- Sine of small numbers is about the number. -/
theorem sin_ge {r : ℝ} (h : |r| ≤ 79 / 100) : 89 / 100 * |r| ≤ |Real.sin r| := by
  have key : ∀ s : ℝ, 0 < s → s ≤ 79 / 100 → 89 / 100 * s ≤ Real.sin s := by
    intro s h0 h1
    have h2 := Real.sin_gt_sub_cube h0
    have h3 : s ^ 3 / 6 ≤ 11 / 100 * s := by
      have : s * s ≤ 63 / 100 := by nlinarith
      nlinarith
    linarith
  rcases lt_trichotomy r 0 with h0 | rfl | h0
  · rw [abs_of_neg h0] at h ⊢
    have := key (-r) (by linarith) h
    rw [Real.sin_neg] at this
    have h2 := neg_le_abs (Real.sin r)
    linarith
  · simp
  · rw [abs_of_pos h0] at h ⊢
    exact (key r h0 h).trans (le_abs_self _)

theorem sinD_series (hm : E.mode = .nearest) {x : D.Bits} (hf : D.isFinite x) (hr : |D.ratValue x| ≤ 79 / 10 ^ 2) :
    D.isFinite (sinSeriesD E x) ∧ |(D.ratValue (sinSeriesD E x) : ℝ) - Real.sin (D.ratValue x)| ≤ 1 / 2 ^ 51 * |(D.ratValue x : ℝ)| := by
  obtain ⟨y, e, hy⟩ := sinSeriesD_form E hm hf hr
  have h := sin_rel E.D goodD hm (by norm_num) (E.fused 20) hf hr hy (by norm_num)
  rw [← e] at h
  refine ⟨h.1, ?_⟩
  have h1 := pSinD_rel (cast79 hr)
  have h2 : |((D.ratValue (sinSeriesD E x) : ℚ) : ℝ) - (pSinD (D.ratValue x) : ℚ)| ≤ 205 / 10 ^ 18 * |(D.ratValue x : ℝ)| := by
    have h3 : |D.ratValue (sinSeriesD E x) - pSinD (D.ratValue x)| ≤ 205 / 10 ^ 18 * |D.ratValue x| := by
      have e2 : pSinD (D.ratValue x) = qSinD (D.ratValue x) * (D.ratValue x * D.ratValue x * D.ratValue x) + D.ratValue x := by simp only [pSinD, qSinD]
      rw [e2]
      refine h.2.trans (mul_le_mul_of_nonneg_right ?_ (abs_nonneg _))
      norm_num
    have h4 : ((|D.ratValue (sinSeriesD E x) - pSinD (D.ratValue x)| : ℚ) : ℝ) ≤ ((205 / 10 ^ 18 * |D.ratValue x| : ℚ) : ℝ) := by exact_mod_cast h3
    push_cast at h4
    exact h4
  have h4 := abs_sub_le ((D.ratValue (sinSeriesD E x) : ℚ) : ℝ) ((pSinD (D.ratValue x) : ℚ) : ℝ) (Real.sin (D.ratValue x))
  have := abs_nonneg (D.ratValue x : ℝ)
  norm_num at h1 h2 ⊢; linarith

theorem sinF_series (hm : E.mode = .nearest) {x : F.Bits} (hf : F.isFinite x) (hr : |F.ratValue x| ≤ 79 / 10 ^ 2) :
    F.isFinite (sinSeriesF E x) ∧ |(F.ratValue (sinSeriesF E x) : ℝ) - Real.sin (F.ratValue x)| ≤ 171 / 10 ^ 9 * |(F.ratValue x : ℝ)| := by
  obtain ⟨y, e, hy⟩ := sinSeriesF_form E hm hf hr
  have h := sin_rel E.F goodF hm (by norm_num) (E.fused 13) hf hr hy (by norm_num)
  rw [← e] at h
  refine ⟨h.1, ?_⟩
  have h1 := pSinF_rel (cast79 hr)
  have h2 : |((F.ratValue (sinSeriesF E x) : ℚ) : ℝ) - (pSinF (F.ratValue x) : ℚ)| ≤ 93 / 10 ^ 9 * |(F.ratValue x : ℝ)| := by
    have h3 : |F.ratValue (sinSeriesF E x) - pSinF (F.ratValue x)| ≤ 93 / 10 ^ 9 * |F.ratValue x| := by
      have e2 : pSinF (F.ratValue x) = qSinF (F.ratValue x) * (F.ratValue x * F.ratValue x * F.ratValue x) + F.ratValue x := by simp only [pSinF, qSinF]
      rw [e2]
      refine h.2.trans (mul_le_mul_of_nonneg_right ?_ (abs_nonneg _))
      norm_num
    have h4 : ((|F.ratValue (sinSeriesF E x) - pSinF (F.ratValue x)| : ℚ) : ℝ) ≤ ((93 / 10 ^ 9 * |F.ratValue x| : ℚ) : ℝ) := by exact_mod_cast h3
    push_cast at h4
    exact h4
  have h4 := abs_sub_le ((F.ratValue (sinSeriesF E x) : ℚ) : ℝ) ((pSinF (F.ratValue x) : ℚ) : ℝ) (Real.sin (F.ratValue x))
  have := abs_nonneg (F.ratValue x : ℝ)
  norm_num at h1 h2 ⊢; linarith

/-! ## Reduction does nothing -/

/-- The value is not changed. -/
def Same (f : Fmt) (p : f.Bits × BitVec 32) (v : ℚ) : Prop := f.isFinite p.1 ∧ f.ratValue p.1 = v ∧ p.2 = 0

theorem nmadd_same (env : f.Env) (hok : f.Ok) (b : Bool) {x y z : f.Bits} {v : ℚ} (hz : f.isFinite z ∧ f.ratValue z = v) (hx : AZ f x) (hy : f.isFinite y) :
    f.isFinite (nmadd env b z x y) ∧ f.ratValue (nmadd env b z x y) = v := by
  rw [← hz.2]
  unfold nmadd
  split
  · rw [fma_fin env hok (finite_neg.2 hx.1) hy hz.1, ratValue_neg, hx.2, neg_zero, zero_mul, zero_add]; exact round_own hok hz.1 _ _
  · have h1 := mul_az' env hok hx hy
    have a := (finite_not hok h1.1).1
    have b := (finite_not hok hz.1).1
    unfold Fmt.sub
    rw [if_neg (by tauto), add_finite env hok hz.1 (finite_neg.2 h1.1), ratValue_neg, h1.2, neg_zero, add_zero]
    exact round_own hok hz.1 _ _

theorem sub_same (env : f.Env) (hok : f.Ok) {x y : f.Bits} {v : ℚ} (hx : f.isFinite x ∧ f.ratValue x = v) (hy : AZ f y) :
    f.isFinite (Fmt.sub env x y) ∧ f.ratValue (Fmt.sub env x y) = v := by
  rw [← hx.2]
  have a := (finite_not hok hx.1).1
  have b := (finite_not hok hy.1).1
  unfold Fmt.sub
  rw [if_neg (by tauto), add_finite env hok hx.1 (finite_neg.2 hy.1), ratValue_neg, hy.2, neg_zero, add_zero]
  exact round_own hok hx.1 _ _

theorem nat_zero {k : ℕ} {q d : ℚ} (h : |(k : ℚ) - q| ≤ d) (h2 : q + d < 1) : k = 0 := by
  have h3 := (abs_le.1 h).2
  have : (k : ℚ) < (1 : ℕ) := by push_cast; linarith
  have : k < 1 := by exact_mod_cast this
  omega

section
variable (hm : E.mode = .nearest)
include hm

theorem foldY_small {a : D.Bits} (ha : D.isFinite a) (h0 : 0 ≤ D.ratValue a) (h1 : D.ratValue a ≤ 785 / 1000) : AZ D (foldY E a) := by
  obtain ⟨k, hy, hkv⟩ := foldY_spec E hm ha h0 h1 (by norm_num) (d := 1 / 2 + 1 / 10 ^ 12) (by norm_num [eta])
  have hk := nat_zero hkv (by norm_num at *; linarith)
  subst hk
  exact ⟨hy.fin, by have := hy.eq; simpa using this⟩

theorem foldD_same (xs : List D.Bits) : ∃ g : D.Bits → D.Bits × BitVec 32,
    foldD E xs = xs.map (fun x => g (FloatBits.abs D x)) ∧
    ∀ a, D.isFinite a → 0 ≤ D.ratValue a → D.ratValue a ≤ 785 / 1000 → Same D (g a) (D.ratValue a) := by
  unfold foldD
  simp only
  split
  · exact ⟨fun a => (a, 0), by rw [List.map_map]; rfl, fun a ha _ _ => ⟨ha, rfl, rfl⟩⟩
  · split
    · refine ⟨fun a => (foldSmallD E a (foldY E a), toInt32 D E.undefD (foldY E a) &&& 3), by rw [List.map_map]; rfl, fun a ha h0 h1 => ?_⟩
      have hy := foldY_small E hm ha h0 h1
      have s1 := nmadd_same E.D goodD.ok (E.fused 24) ⟨ha, rfl⟩ hy (y := lit D 0x1921FB54443000 (0 - 52)) (finLitD (by decide) (by decide))
      have s2 := nmadd_same E.D goodD.ok (E.fused 25) s1 hy (y := lit D (-0x173DCB3B39A000) (-43 - 52)) (finLitD (by decide) (by decide))
      have s3 := nmadd_same E.D goodD.ok (E.fused 26) s2 hy (y := lit D 0x145C06E0E68948 (-86 - 52)) (finLitD (by decide) (by decide))
      exact ⟨s3.1, s3.2, quadrant_zero _ hy⟩
    · split
      · refine ⟨fun a => (foldMediumD E a (foldY E a), toInt32 D E.undefD (foldY E a) &&& 3), by rw [List.map_map]; rfl, fun a ha h0 h1 => ?_⟩
        have hy := foldY_small E hm ha h0 h1
        have s1 := nmadd_same E.D goodD.ok (E.fused 27) ⟨ha, rfl⟩ hy (y := lit D 0x1921FB40000000 (0 - 52)) (finLitD (by decide) (by decide))
        have s2 := nmadd_same E.D goodD.ok (E.fused 28) s1 hy (y := lit D 0x14442D00000000 (-24 - 52)) (finLitD (by decide) (by decide))
        have s3 := nmadd_same E.D goodD.ok (E.fused 29) s2 hy (y := lit D 0x18469898CC5170 (-48 - 52)) (finLitD (by decide) (by decide))
        exact ⟨s3.1, s3.2, quadrant_zero _ hy⟩
      · refine ⟨fun a => (foldLargeD E a (foldY E a), toInt32 D E.undefD (foldY E a) &&& 3), by rw [List.map_map]; rfl, fun a ha h0 h1 => ?_⟩
        have hy := foldY_small E hm ha h0 h1
        have hhi := zeroLow_az hy
        have hlo : AZ D (Fmt.sub E.D (foldY E a) (zeroLowBits (foldY E a))) := sub_same E.D goodD.ok hy hhi
        have p1 : D.isFinite (lit D 0x1921FB50000000 (0 - 52)) := finLitD (by decide) (by decide)
        have p2 : D.isFinite (lit D 0x1110B460000000 (-26 - 52)) := finLitD (by decide) (by decide)
        have p3 : D.isFinite (lit D 0x11A62630000000 (-54 - 52)) := finLitD (by decide) (by decide)
        have p4 : D.isFinite (lit D 0x18A2E03707344A (-81 - 52)) := finLitD (by decide) (by decide)
        have m1 := fmax_az (mul_az' E.D goodD.ok hhi p2) (mul_az' E.D goodD.ok hlo p1)
        have m2 := fmax_az (mul_az' E.D goodD.ok hhi p3) (mul_az' E.D goodD.ok hlo p2)
        have m3 := fmax_az (mul_az' E.D goodD.ok hy p4) (mul_az' E.D goodD.ok hlo p3)
        have s1 := nmadd_same E.D goodD.ok (E.fused 30) ⟨ha, rfl⟩ hhi p1
        have s2 := sub_same E.D goodD.ok s1 m1.1
        have s3 := sub_same E.D goodD.ok s2 m1.2
        have s4 := sub_same E.D goodD.ok s3 m2.1
        have s5 := sub_same E.D goodD.ok s4 m2.2
        have s6 := sub_same E.D goodD.ok s5 m3.1
        have s7 := sub_same E.D goodD.ok s6 m3.2
        exact ⟨s7.1, s7.2, quadrant_zero _ hy⟩

theorem foldF_same (xs : List F.Bits) : ∃ g : F.Bits → F.Bits × BitVec 32,
    foldF E xs = xs.map (fun x => g (FloatBits.abs F x)) ∧
    ∀ a, F.isFinite a → 0 ≤ F.ratValue a → F.ratValue a ≤ 785 / 1000 → Same F (g a) (F.ratValue a) := by
  unfold foldF
  simp only
  split
  · exact ⟨fun a => (a, 0), by rw [List.map_map]; rfl, fun a ha _ _ => ⟨ha, rfl, rfl⟩⟩
  · split
    · refine ⟨foldSmallF E, by rw [List.map_map]; rfl, fun a ha h0 h1 => ?_⟩
      obtain ⟨k, hy, hkv⟩ := quotientF E hm ha h0 (h1.trans (by norm_num))
      have hk := nat_zero hkv (by norm_num at *; linarith)
      subst hk
      have hy : AZ F _ := ⟨hy.fin, by have := hy.eq; simpa using this⟩
      have s1 := nmadd_same E.F goodF.ok (E.fused 21) ⟨ha, rfl⟩ hy pi2F5bits0_val.fin
      have s2 := nmadd_same E.F goodF.ok (E.fused 22) s1 hy pi2F5bits0Rem_val.fin
      exact ⟨s2.1, s2.2, quadrant_zero _ hy⟩
    · refine ⟨foldLargeF E, by rw [List.map_map]; rfl, fun a ha h0 h1 => ?_⟩
      have hw := widen_val E ha (by rw [abs_of_nonneg h0]; exact h1.trans (by norm_num))
      obtain ⟨k, hy, hkv⟩ := quotientFD E hm hw.fin (by rw [hw.eq]; exact h0) (by rw [hw.eq]; exact h1.trans (by norm_num))
      rw [hw.eq] at hkv
      have hk := nat_zero hkv (by norm_num at *; linarith)
      subst hk
      have hy : AZ D _ := ⟨hy.fin, by have := hy.eq; simpa using this⟩
      have s1 := nmadd_same E.D goodD.ok (E.fused 23) ⟨hw.fin, hw.eq⟩ hy pi2D_val.fin
      have s2 : F.isFinite (narrow E (nmadd E.D (E.fused 23) (widen E a) (nearbyint E.D (Fmt.mul E.D (widen E a) twoOverPiD)) pi2D)) ∧
          F.ratValue (narrow E (nmadd E.D (E.fused 23) (widen E a) (nearbyint E.D (Fmt.mul E.D (widen E a) twoOverPiD)) pi2D)) = F.ratValue a := by
        obtain ⟨a1, a2⟩ := finite_not goodD.ok s1.1
        unfold narrow Fmt.convert
        rw [if_neg a1, if_neg a2, s1.2]
        exact round_own goodF.ok ha _ _
      exact ⟨s2.1, s2.2, quadrant_zero _ hy⟩


end

/-! ## The elements -/

theorem cosElem_same (env : f.Env) {cosS sinS : f.Bits → f.Bits} {p : f.Bits × BitVec 32} {v : ℚ} (hp : Same f p v) : cosElem env cosS sinS p = cosS p.1 := by
  unfold cosElem
  rw [hp.2.2]
  have h := cosFlip_eq env (j := 0) (by norm_num)
  rw [show (0 : BitVec 32) = BitVec.ofNat 32 0 from rfl, h, flip_eq]
  simp

theorem sinElem_same (env : f.Env) {cosS sinS : f.Bits → f.Bits} {p : f.Bits × BitVec 32} {v : ℚ} (hp : Same f p v) (x : f.Bits) :
    sinElem env cosS sinS x p = if f.sign x then Fmt.neg (sinS p.1) else sinS p.1 := by
  unfold sinElem
  rw [hp.2.2]
  have h : sinFlip env x 0 = _ := sinFlip_eq env x (j := 0) (by norm_num)
  have e : ((0 : BitVec 32) &&& 1 == 0) = true := by decide
  rw [h, flip_eq]
  simp [e]

theorem sign_value (x : f.Bits) : f.ratValue x = if f.sign x then -|f.ratValue x| else |f.ratValue x| := by
  have h := ratValue_mag x
  have h4 := quantum_pos (f := f)
  cases hs : f.sign x
  · rw [hs] at h
    simp only [Bool.false_eq_true, if_false] at h ⊢
    rw [abs_of_nonneg]; rw [h]; positivity
  · rw [hs] at h
    simp only [if_true] at h ⊢
    rw [abs_of_nonpos]; · ring
    rw [h]
    have : (0 : ℚ) ≤ unit f.mbits (mag f x) * quantum f := by positivity
    linarith

/-- The signs cancel. -/
theorem sin_sign {x y : f.Bits} {c : ℝ} (h : |(f.ratValue y : ℝ) - Real.sin ((|f.ratValue x| : ℚ) : ℝ)| ≤ c) :
    |(f.ratValue (if f.sign x then Fmt.neg y else y) : ℝ) - Real.sin (f.ratValue x)| ≤ c := by
  rw [ratValue_cond_neg]
  have e := sign_value x
  cases hs : f.sign x
  · rw [hs] at e
    simp only [Bool.false_eq_true, if_false] at e ⊢
    rw [e]; exact h
  · rw [hs] at e
    simp only [if_true] at e ⊢
    rw [e]
    push_cast at h ⊢
    rw [Real.sin_neg, ← abs_neg]
    convert h using 2
    ring

theorem cos_ge {r : ℝ} (h : |r| ≤ 785 / 1000) : 69 / 100 ≤ |Real.cos r| := by
  have h1 := Real.one_sub_sq_div_two_le_cos (x := r)
  have h2 : r ^ 2 ≤ 62 / 100 := by
    rw [← sq_abs]; nlinarith [abs_nonneg r]
  have := le_abs_self (Real.cos r)
  linarith

theorem cast785 {q : ℚ} (h : |q| ≤ 785 / 1000) : |(q : ℝ)| ≤ 785 / 1000 := by
  have : ((|q| : ℚ) : ℝ) ≤ ((785 / 1000 : ℚ) : ℝ) := by exact_mod_cast h
  push_cast at this
  exact this

theorem relApprox_map {s : ℝ → ℝ} {B : ℚ} {e : ℝ} {xs : List f.Bits} {g : f.Bits → f.Bits}
    (h : ∀ x ∈ xs, f.isFinite x → |f.ratValue x| ≤ B → f.isFinite (g x) ∧ |(f.ratValue (g x) : ℝ) - s (f.ratValue x)| ≤ e * |s (f.ratValue x)|) : f.RelApprox s B e xs (xs.map g) := by
  unfold Fmt.RelApprox
  rw [List.forall₂_map_right_iff, List.forall₂_same]
  exact h

section
variable (hm : E.mode = .nearest)
include hm

theorem sinD_rel (xs : List D.Bits) : D.RelApprox Real.sin (785 / 1000) (1 / 2 ^ 50) xs (sinD E xs) := by
  obtain ⟨g, h1, h2⟩ := foldD_same E hm xs
  unfold sinD
  rw [h1, sinEnd_eq, zipWith_map_self]
  refine relApprox_map fun x _ hf hb => ?_
  have hp := h2 _ (abs_fin hf) (by rw [ratValue_abs]; exact abs_nonneg _) (by rw [ratValue_abs]; exact hb)
  rw [ratValue_abs] at hp
  rw [sinElem_same _ hp]
  have hs := sinD_series E hm hp.1 (by rw [hp.2.1, abs_abs]; exact hb.trans (by norm_num))
  rw [hp.2.1] at hs
  refine ⟨by rw [finite_cond_neg]; exact hs.1, sin_sign (hs.2.trans ?_)⟩
  have h3 := sin_ge ((cast785 hb).trans (by norm_num))
  rw [Rat.cast_abs, abs_abs]
  have := abs_nonneg (D.ratValue x : ℝ)
  norm_num at h3 ⊢; linarith

theorem cosD_rel (xs : List D.Bits) : D.RelApprox Real.cos (785 / 1000) (1 / 2 ^ 50) xs (cosD E xs) := by
  obtain ⟨g, h1, h2⟩ := foldD_same E hm xs
  unfold cosD
  rw [h1, cosEnd_eq, List.map_map]
  refine relApprox_map fun x _ hf hb => ?_
  have hp := h2 _ (abs_fin hf) (by rw [ratValue_abs]; exact abs_nonneg _) (by rw [ratValue_abs]; exact hb)
  rw [ratValue_abs] at hp
  rw [Function.comp_apply, cosElem_same _ hp]
  have hs := cosSeriesD_ok E hm _ hp.1 (by rw [hp.2.1, abs_abs]; exact hb.trans (by norm_num))
  rw [hp.2.1, Rat.cast_abs, Real.cos_abs] at hs
  refine ⟨hs.1, hs.2.trans ?_⟩
  have h3 := cos_ge (cast785 hb)
  norm_num at h3 ⊢; linarith

/-! ## `float` -/

/-- Numbers next to a `float` are not changed much by conversion to `float`. -/
theorem narrow_rel {y : D.Bits} (hy : D.isFinite y) (h1 : |D.ratValue y| ≤ 1) {v : ℚ} (hv : Rep F v) :
    Near F (narrow E y) (D.ratValue y) (1 / 2 ^ 24 * |D.ratValue y| + |v - D.ratValue y|) := by
  obtain ⟨a, b⟩ := finite_not goodD.ok hy
  unfold narrow Fmt.convert
  rw [if_neg a, if_neg b, hm]
  exact round_near_rel goodF _ hv h1


omit hm in
theorem sin_self (r : ℝ) : |Real.sin r - r| ≤ r ^ 2 * |r| := by
  have key : ∀ s : ℝ, 0 < s → |Real.sin s - s| ≤ s ^ 2 * s := by
    intro s h0
    have h1 := Real.sin_gt_sub_cube h0
    have h2 := Real.sin_lt h0
    have h3 : 0 < s ^ 3 := by positivity
    rw [abs_of_neg (by linarith)]
    nlinarith
  rcases lt_trichotomy r 0 with h0 | rfl | h0
  · have := key (-r) (by linarith)
    rw [Real.sin_neg, ← abs_neg] at this
    rw [abs_of_neg h0]
    rw [show -(-Real.sin r - -r) = Real.sin r - r by ring] at this
    linarith [neg_sq r]
  · simp
  · rw [abs_of_pos h0]; exact key r h0

theorem wide_sin {x : F.Bits} (hf : F.isFinite x) (hb : |F.ratValue x| ≤ 785 / 1000) {y : D.Bits} (hy : D.isFinite y)
    (h : |(D.ratValue y : ℝ) - Real.sin (F.ratValue x)| ≤ 1 / 2 ^ 50 * |Real.sin (F.ratValue x)|) :
    F.isFinite (narrow E y) ∧ |(F.ratValue (narrow E y) : ℝ) - Real.sin (F.ratValue x)| ≤ 1 / 2 ^ 22 * |Real.sin (F.ratValue x)| := by
  have hb' := cast785 hb
  have hs1 := Real.abs_sin_le_abs (x := (F.ratValue x : ℝ))
  have hs2 := sin_ge (hb'.trans (by norm_num))
  have hx0 := abs_nonneg (F.ratValue x : ℝ)
  have hyv : |(D.ratValue y : ℝ)| ≤ 101 / 100 * |Real.sin (F.ratValue x)| := by
    have := abs_sub_abs_le_abs_sub (D.ratValue y : ℝ) (Real.sin (F.ratValue x))
    norm_num at h ⊢; linarith
  have hy1 : |D.ratValue y| ≤ 1 := by
    have : |(D.ratValue y : ℝ)| ≤ 1 := by norm_num at hb' ⊢; linarith
    exact_mod_cast this
  -- either way of rounding
  have key : ∃ d : ℚ, Near F (narrow E y) (D.ratValue y) (1 / 2 ^ 24 * |D.ratValue y| + d) ∧ (d : ℝ) ≤ 1 / 2 ^ 26 * |(F.ratValue x : ℝ)| := by
    by_cases hc : |F.ratValue x| ≤ 1 / 2 ^ 14
    · refine ⟨_, narrow_rel E hm hy hy1 (rep_ratValue goodF.ok x), ?_⟩
      push_cast
      have hc' : |(F.ratValue x : ℝ)| ≤ 1 / 2 ^ 14 := by
        have : ((|F.ratValue x| : ℚ) : ℝ) ≤ ((1 / 2 ^ 14 : ℚ) : ℝ) := by exact_mod_cast hc
        push_cast at this; exact this
      have h1 := sin_self (F.ratValue x : ℝ)
      have h2 : (F.ratValue x : ℝ) ^ 2 ≤ 1 / 2 ^ 28 := by
        rw [← sq_abs]
        have := pow_le_pow_left₀ hx0 hc' 2
        norm_num at this ⊢; exact this
      have h3 := mul_le_mul_of_nonneg_right h2 hx0
      have h4 := abs_sub_le (F.ratValue x : ℝ) (Real.sin (F.ratValue x)) (D.ratValue y : ℝ)
      rw [abs_sub_comm (F.ratValue x : ℝ) (Real.sin _), abs_sub_comm (Real.sin _) (D.ratValue y : ℝ)] at h4
      norm_num at h h1 h2 h3 ⊢; linarith
    · obtain ⟨a, b⟩ := finite_not goodD.ok hy
      refine ⟨eta, ?_, ?_⟩
      · unfold narrow Fmt.convert
        rw [if_neg a, if_neg b, hm]
        exact round_near goodF _ le_rfl (hy1.trans (by norm_num))
      · have hc' : 1 / 2 ^ 14 ≤ |(F.ratValue x : ℝ)| := by
          have : ((1 / 2 ^ 14 : ℚ) : ℝ) ≤ ((|F.ratValue x| : ℚ) : ℝ) := by exact_mod_cast (not_le.1 hc).le
          push_cast at this; exact this
        unfold eta; push_cast; norm_num at hc' ⊢; linarith
  obtain ⟨d, h1, h2⟩ := key
  refine ⟨h1.fin, ?_⟩
  have h3 : |(F.ratValue (narrow E y) : ℝ) - D.ratValue y| ≤ 1 / 2 ^ 24 * |(D.ratValue y : ℝ)| + d := by
    have := h1.err
    have : ((|F.ratValue (narrow E y) - D.ratValue y| : ℚ) : ℝ) ≤ ((1 / 2 ^ 24 * |D.ratValue y| + d : ℚ) : ℝ) := by exact_mod_cast this
    push_cast at this; exact this
  have h4 := abs_sub_le (F.ratValue (narrow E y) : ℝ) (D.ratValue y : ℝ) (Real.sin (F.ratValue x))
  norm_num at h h2 h3 hs2 hyv ⊢; linarith

theorem wide_cos {x : F.Bits} (hb : |F.ratValue x| ≤ 785 / 1000) {y : D.Bits} (hy : D.isFinite y)
    (h : |(D.ratValue y : ℝ) - Real.cos (F.ratValue x)| ≤ 1 / 2 ^ 50 * |Real.cos (F.ratValue x)|) :
    F.isFinite (narrow E y) ∧ |(F.ratValue (narrow E y) : ℝ) - Real.cos (F.ratValue x)| ≤ 1 / 2 ^ 21 * |Real.cos (F.ratValue x)| := by
  have hc := cos_ge (cast785 hb)
  have hc1 := Real.abs_cos_le_one (F.ratValue x)
  have hyv : |(D.ratValue y : ℝ)| ≤ 2 := by
    have := abs_sub_abs_le_abs_sub (D.ratValue y : ℝ) (Real.cos (F.ratValue x))
    norm_num at h ⊢; linarith
  have hy1 : |D.ratValue y| ≤ 2 := by exact_mod_cast hyv
  have hn := narrow_near E hm (K := 2) (v := D.ratValue y) (e := 0) ⟨Near.self hy, hy1⟩ (D := 2 / 10 ^ 7) (by norm_num [eta]) (by norm_num)
  refine ⟨hn.fin, ?_⟩
  have h3 : |(F.ratValue (narrow E y) : ℝ) - D.ratValue y| ≤ 2 / 10 ^ 7 := by
    have : ((|F.ratValue (narrow E y) - D.ratValue y| : ℚ) : ℝ) ≤ ((2 / 10 ^ 7 : ℚ) : ℝ) := by exact_mod_cast hn.err
    push_cast at this; exact this
  have h4 := abs_sub_le (F.ratValue (narrow E y) : ℝ) (D.ratValue y : ℝ) (Real.cos (F.ratValue x))
  norm_num at h h3 hc ⊢; linarith

theorem sinF_rel (hl : ∀ x, D.RelApprox Real.sin (785 / 1000) (1 / 2 ^ 50) [x] [E.libmSin x]) (ns : List Nat) (xs : List F.Bits)
    (h : ns.sum = xs.length) : F.RelApprox Real.sin (785 / 1000) (1 / 2 ^ 22) xs (sinF E ns xs) := by
  unfold sinF
  split
  · have H := chunked_rel (fun x => by have := hl x; unfold Fmt.RelApprox at this; simpa using this) (sinD_rel E hm) ns (xs.map (widen E)) (by simpa using h)
    unfold Fmt.RelApprox
    rw [List.forall₂_map_left_iff] at H
    rw [List.forall₂_map_right_iff]
    refine H.imp fun x y H hf hb => ?_
    have hw := widen_val E hf (hb.trans (by norm_num))
    rw [hw.eq] at H
    obtain ⟨a, b⟩ := H hw.fin hb
    exact wide_sin E hm hf hb a b
  · obtain ⟨g, h1, h2⟩ := foldF_same E hm xs
    rw [h1, sinEnd_eq, zipWith_map_self]
    refine relApprox_map fun x _ hf hb => ?_
    have hp := h2 _ (abs_fin hf) (by rw [ratValue_abs]; exact abs_nonneg _) (by rw [ratValue_abs]; exact hb)
    rw [ratValue_abs] at hp
    rw [sinElem_same _ hp]
    have hs := sinF_series E hm hp.1 (by rw [hp.2.1, abs_abs]; exact hb.trans (by norm_num))
    rw [hp.2.1] at hs
    refine ⟨by rw [finite_cond_neg]; exact hs.1, sin_sign (hs.2.trans ?_)⟩
    have h3 := sin_ge ((cast785 hb).trans (by norm_num))
    rw [Rat.cast_abs, abs_abs]
    have := abs_nonneg (F.ratValue x : ℝ)
    norm_num at h3 ⊢; linarith

theorem cosF_rel (hl : ∀ x, D.RelApprox Real.cos (785 / 1000) (1 / 2 ^ 50) [x] [E.libmCos x]) (ns : List Nat) (xs : List F.Bits)
    (h : ns.sum = xs.length) : F.RelApprox Real.cos (785 / 1000) (1 / 2 ^ 21) xs (cosF E ns xs) := by
  unfold cosF
  split
  · have H := chunked_rel (fun x => by have := hl x; unfold Fmt.RelApprox at this; simpa using this) (cosD_rel E hm) ns (xs.map (widen E)) (by simpa using h)
    unfold Fmt.RelApprox
    rw [List.forall₂_map_left_iff] at H
    rw [List.forall₂_map_right_iff]
    refine H.imp fun x y H hf hb => ?_
    have hw := widen_val E hf (hb.trans (by norm_num))
    rw [hw.eq] at H
    obtain ⟨a, b⟩ := H hw.fin hb
    exact wide_cos E hm hb a b
  · obtain ⟨g, h1, h2⟩ := foldF_same E hm xs
    rw [h1, cosEnd_eq, List.map_map]
    refine relApprox_map fun x _ hf hb => ?_
    have hp := h2 _ (abs_fin hf) (by rw [ratValue_abs]; exact abs_nonneg _) (by rw [ratValue_abs]; exact hb)
    rw [ratValue_abs] at hp
    rw [Function.comp_apply, cosElem_same _ hp]
    have hs := cosSeriesF_ok E hm _ hp.1 (by rw [hp.2.1, abs_abs]; exact hb.trans (by norm_num))
    rw [hp.2.1, Rat.cast_abs, Real.cos_abs] at hs
    refine ⟨hs.1, hs.2.trans ?_⟩
    have h3 := cos_ge (cast785 hb)
    norm_num at h3 ⊢; linarith

end
end StdSimd.Trig
