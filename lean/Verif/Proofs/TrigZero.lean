import Verif.Proofs.TrigSpecial
/-! # `sin` and `cos`: signs of the operands, zeros -/
namespace StdSimd.Trig
open Spec FloatBits Math
open StdSimd.Rounding

variable {f : Fmt}

/-! ## Zeros -/

/-- Zero of either sign; positive zero. -/
def AZ (f : Fmt) (x : f.Bits) : Prop := f.isFinite x ∧ f.ratValue x = 0
def PZ (f : Fmt) (x : f.Bits) : Prop := AZ f x ∧ f.sign x = false

theorem inf_pos (hok : f.Ok) : 0 < inf f := by
  unfold inf
  have h1 : 2 ≤ 2 ^ f.ebits := by
    have := Nat.pow_le_pow_right (n := 2) (by norm_num) (show 1 ≤ f.ebits by have := hok.1; omega)
    simpa using this
  have h2 : 0 < 2 ^ f.mbits := by positivity
  exact Nat.mul_pos (by omega) h2

theorem isZero_AZ (hok : f.Ok) {x : f.Bits} (h : f.isZero x) : AZ f x := by
  rw [isZero_iff] at h
  refine ⟨by rw [isFinite_iff, h]; exact inf_pos hok, ?_⟩
  rw [ratValue_mag, h]; simp [unit]

section
variable (env : f.Env) (hok : f.Ok)
include hok

theorem round_zero (m : RMode) (zs : Bool) : AZ f (f.round m zs 0) ∧ f.sign (f.round m zs 0) = zs := by
  have h := round_exact hok m zs (q := 0) ⟨0, f.emin, by positivity, le_rfl, by simp⟩ (by simp)
  exact ⟨⟨h.1, h.2⟩, by simpa using h.3⟩

theorem mul_fin {x y : f.Bits} (hx : f.isFinite x) (hy : f.isFinite y) :
    Fmt.mul env x y = f.round env.mode (f.sign x ^^ f.sign y) (f.ratValue x * f.ratValue y) := by
  obtain ⟨c1, c2⟩ := finite_not hok hx
  obtain ⟨d1, d2⟩ := finite_not hok hy
  unfold Fmt.mul
  rw [if_neg (by tauto), if_neg (by tauto)]

theorem fma_fin {x y z : f.Bits} (hx : f.isFinite x) (hy : f.isFinite y) (hz : f.isFinite z) :
    Fmt.fma env x y z = f.round env.mode (if (f.sign x ^^ f.sign y) = f.sign z then f.sign z else decide (env.mode = .down))
      (f.ratValue x * f.ratValue y + f.ratValue z) := by
  obtain ⟨c1, c2⟩ := finite_not hok hx
  obtain ⟨d1, d2⟩ := finite_not hok hy
  obtain ⟨e1, e2⟩ := finite_not hok hz
  unfold Fmt.fma
  rw [if_neg (by tauto), if_neg (by tauto), if_neg e2]

theorem mul_az {x y : f.Bits} (hx : f.isFinite x) (hy : AZ f y) : AZ f (Fmt.mul env x y) := by
  rw [mul_fin env hok hx hy.1, hy.2, mul_zero]; exact (round_zero hok _ _).1
theorem mul_az' {x y : f.Bits} (hx : AZ f x) (hy : f.isFinite y) : AZ f (Fmt.mul env x y) := by
  rw [mul_fin env hok hx.1 hy, hx.2, zero_mul]; exact (round_zero hok _ _).1

theorem round_own {z : f.Bits} (hz : f.isFinite z) (m : RMode) (zs : Bool) : f.isFinite (f.round m zs (f.ratValue z)) ∧ f.ratValue (f.round m zs (f.ratValue z)) = f.ratValue z :=
  have h := round_exact hok m zs (rep_ratValue hok z) (ratValue_lt hok hz)
  ⟨h.1, h.2⟩

/-- Zero plus a number. -/
theorem add_az {x y : f.Bits} (hx : AZ f x) (hy : f.isFinite y) : f.isFinite (Fmt.add env x y) ∧ f.ratValue (Fmt.add env x y) = f.ratValue y := by
  rw [add_finite env hok hx.1 hy, hx.2, zero_add]; exact round_own hok hy _ _

theorem madd_az (b : Bool) {x y z : f.Bits} (hx : f.isFinite x) (hy : AZ f y) (hz : f.isFinite z) :
    f.isFinite (madd env b x y z) ∧ f.ratValue (madd env b x y z) = f.ratValue z := by
  unfold madd
  split
  · rw [fma_fin env hok hx hy.1 hz, hy.2, mul_zero, zero_add]; exact round_own hok hz _ _
  · exact add_az env hok (mul_az env hok hx hy) hz

theorem msub_az (b : Bool) {x y z : f.Bits} (hx : f.isFinite x) (hy : AZ f y) (hz : f.isFinite z) :
    f.isFinite (msub env b x y z) ∧ f.ratValue (msub env b x y z) = -f.ratValue z := by
  have hz' : f.isFinite (Fmt.neg z) := finite_neg.2 hz
  rw [← ratValue_neg]
  unfold msub
  split
  · rw [fma_fin env hok hx hy.1 hz', hy.2, mul_zero, zero_add]; exact round_own hok hz' _ _
  · have h1 := mul_az env hok hx hy
    unfold Fmt.sub
    have a := (finite_not hok h1.1).1
    have b := (finite_not hok hz).1
    rw [if_neg (by tauto)]
    exact add_az env hok h1 hz'

variable (hm : env.mode ≠ .down)
include hm

theorem add_pz {x y : f.Bits} (hx : AZ f x) (hy : AZ f y) (hs : f.sign x = false ∨ f.sign y = false) : PZ f (Fmt.add env x y) := by
  rw [add_finite env hok hx.1 hy.1, hx.2, hy.2, add_zero]
  have h := round_zero (f := f) hok env.mode (if f.sign x = f.sign y then f.sign x else decide (env.mode = .down))
  refine ⟨h.1, h.2.trans ?_⟩
  split
  · rcases hs with hs | hs
    · exact hs
    · simp_all
  · exact decide_eq_false hm

theorem sub_pz {x y : f.Bits} (hx : PZ f x) (hy : AZ f y) : PZ f (Fmt.sub env x y) := by
  have a := (finite_not hok hx.1.1).1
  have b := (finite_not hok hy.1).1
  unfold Fmt.sub
  rw [if_neg (by tauto)]
  exact add_pz env hok hm hx.1 ⟨finite_neg.2 hy.1, by rw [ratValue_neg, hy.2, neg_zero]⟩ (.inl hx.2)

theorem fma_pz {x y z : f.Bits} (hx : f.isFinite x) (hy : f.isFinite y) (h0 : f.ratValue x * f.ratValue y = 0) (hz : PZ f z) : PZ f (Fmt.fma env x y z) := by
  rw [fma_fin env hok hx hy hz.1.1, h0, hz.1.2, add_zero]
  have h := round_zero (f := f) hok env.mode (if (f.sign x ^^ f.sign y) = f.sign z then f.sign z else decide (env.mode = .down))
  refine ⟨h.1, h.2.trans ?_⟩
  split
  · exact hz.2
  · exact decide_eq_false hm

theorem nmadd_pz (b : Bool) {x y z : f.Bits} (hz : PZ f z) (hx : AZ f x) (hy : f.isFinite y) : PZ f (nmadd env b z x y) := by
  unfold nmadd
  split
  · exact fma_pz env hok hm (finite_neg.2 hx.1) hy (by rw [ratValue_neg, hx.2]; simp) hz
  · exact sub_pz env hok hm hz (mul_az' env hok hx hy)

theorem madd_pz (b : Bool) {x y z : f.Bits} (hx : f.isFinite x) (hy : AZ f y) (hz : PZ f z) : PZ f (madd env b x y z) := by
  unfold madd
  split
  · exact fma_pz env hok hm hx hy.1 (by rw [hy.2]; simp) hz
  · exact add_pz env hok hm (mul_az env hok hx hy) hz.1 (.inr hz.2)

end

theorem fmax_az {x y : f.Bits} (hx : AZ f x) (hy : AZ f y) : AZ f (fmax x y) ∧ AZ f (fmin x y) := by
  unfold fmax fmin
  constructor <;> split <;> assumption

variable (E : Env)

theorem finLitD {m e : ℤ} (h1 : |m| < 2 ^ 53) (h2 : D.emin ≤ e ∧ e ≤ 40) : D.isFinite (lit D m e) :=
  (litD m e (m * 2 ^ e) (M := |(m : ℚ) * 2 ^ e|) h1 h2 rfl le_rfl).fin
theorem finLitF {m e : ℤ} (h1 : m % 2 = 0 ∧ |m / 2| < 2 ^ 24) (h2 : F.emin ≤ e ∧ e ≤ 50) : F.isFinite (lit F m e) :=
  (litF m e (m * 2 ^ e) (M := |(m : ℚ) * 2 ^ e|) h1 h2 rfl le_rfl).fin
theorem finLitF1 {m e : ℤ} (h1 : |m| < 2 ^ 24) (h2 : F.emin ≤ e ∧ e ≤ 50) : F.isFinite (lit F m e) :=
  (litF1 m e (m * 2 ^ e) (M := |(m : ℚ) * 2 ^ e|) h1 h2 rfl le_rfl).fin

/-- The value is 1. -/
def One (f : Fmt) (x : f.Bits) : Prop := f.isFinite x ∧ f.ratValue x = 1

theorem cosSeriesD_zero {x : D.Bits} (hx : AZ D x) : One D (cosSeriesD E x) := by
  unfold cosSeriesD
  have x2 := mul_az E.D goodD.ok hx.1 hx
  have y0 : D.isFinite (lit D 0x1AC00000000000 (-45 - 52)) := finLitD (by decide) (by decide)
  have y1 := (msub_az E.D goodD.ok (E.fused 3) y0 x2 (z := lit D 0x19394000000000 (-37 - 52)) (finLitD (by decide) (by decide))).1
  have y2 := (madd_az E.D goodD.ok (E.fused 4) y1 x2 (z := lit D 0x11EED8C0000000 (-29 - 52)) (finLitD (by decide) (by decide))).1
  have y3 := (msub_az E.D goodD.ok (E.fused 5) y2 x2 (z := lit D 0x127E4FB7400000 (-22 - 52)) (finLitD (by decide) (by decide))).1
  have y4 := (madd_az E.D goodD.ok (E.fused 6) y3 x2 (z := lit D 0x1A01A01A018000 (-16 - 52)) (finLitD (by decide) (by decide))).1
  have y5 := (msub_az E.D goodD.ok (E.fused 7) y4 x2 (z := lit D 0x16C16C16C16C00 (-10 - 52)) (finLitD (by decide) (by decide))).1
  have y6 := (madd_az E.D goodD.ok (E.fused 8) y5 x2 (z := lit D 0x15555555555554 (-5 - 52)) (finLitD (by decide) (by decide))).1
  have y7 := (msub_az E.D goodD.ok (E.fused 9) y6 x2 (z := lit D 1 (-1)) (finLitD (by decide) (by decide))).1
  have hone := (litD 1 0 1 (M := 1) (by decide) (by decide) (by norm_num) (by norm_num)).toNear
  have := madd_az E.D goodD.ok (E.fused 10) y7 x2 (z := lit D 1 0) hone.fin
  exact ⟨this.1, this.2.trans hone.eq⟩

theorem cosSeriesF_zero {x : F.Bits} (hx : AZ F x) : One F (cosSeriesF E x) := by
  unfold cosSeriesF
  have x2 := mul_az E.F goodF.ok hx.1 hx
  have y0 : F.isFinite (lit F 0x1a (-16 - 4)) := finLitF1 (by decide) (by decide)
  have y1 := (msub_az E.F goodF.ok (E.fused 0) y0 x2 (z := lit F 0x16c1 (-10 - 12)) (finLitF1 (by decide) (by decide))).1
  have y2 := (madd_az E.F goodF.ok (E.fused 1) y1 x2 (z := lit F 0x1555556 (-5 - 24)) (finLitF (by decide) (by decide))).1
  have x4 := mul_az E.F goodF.ok x2.1 x2
  have h2 := mul_az E.F goodF.ok (x := lit F 1 (-1)) (finLitF1 (by decide) (by decide)) x2
  have y3 := msub_az E.F goodF.ok (E.fused 2) y2 x4 h2.1
  rw [h2.2, neg_zero] at y3
  have hone := (litF1 1 0 1 (M := 1) (by decide) (by decide) (by norm_num) (by norm_num)).toNear
  have := add_az E.F goodF.ok (y := lit F 1 0) y3 hone.fin
  exact ⟨this.1, this.2.trans hone.eq⟩

section
variable (hm : E.mode ≠ .down)
include hm

theorem sinSeriesD_zero {x : D.Bits} (hx : PZ D x) : PZ D (sinSeriesD E x) := by
  unfold sinSeriesD
  have x2 := mul_az E.D goodD.ok hx.1.1 hx.1
  have y0 : D.isFinite (lit D (-0x1ACF0000000000) (-41 - 52)) := finLitD (by decide) (by decide)
  have y1 := (madd_az E.D goodD.ok (E.fused 14) y0 x2 (z := lit D 0x16124400000000 (-33 - 52)) (finLitD (by decide) (by decide))).1
  have y2 := (msub_az E.D goodD.ok (E.fused 15) y1 x2 (z := lit D 0x1AE64567000000 (-26 - 52)) (finLitD (by decide) (by decide))).1
  have y3 := (madd_az E.D goodD.ok (E.fused 16) y2 x2 (z := lit D 0x171DE3A5540000 (-19 - 52)) (finLitD (by decide) (by decide))).1
  have y4 := (msub_az E.D goodD.ok (E.fused 17) y3 x2 (z := lit D 0x1A01A01A01A000 (-13 - 52)) (finLitD (by decide) (by decide))).1
  have y5 := (madd_az E.D goodD.ok (E.fused 18) y4 x2 (z := lit D 0x11111111111110 (-7 - 52)) (finLitD (by decide) (by decide))).1
  have y6 := (msub_az E.D goodD.ok (E.fused 19) y5 x2 (z := lit D 0x15555555555555 (-3 - 52)) (finLitD (by decide) (by decide))).1
  exact madd_pz E.D goodD.ok hm (E.fused 20) y6 (mul_az E.D goodD.ok x2.1 hx.1) hx

theorem sinSeriesF_zero {x : F.Bits} (hx : PZ F x) : PZ F (sinSeriesF E x) := by
  unfold sinSeriesF
  have x2 := mul_az E.F goodF.ok hx.1.1 hx.1
  have y0 : F.isFinite (lit F (-0x19CC000) (-13 - 24)) := finLitF (by decide) (by decide)
  have y1 := (madd_az E.F goodF.ok (E.fused 11) y0 x2 (z := lit F 0x1111100 (-7 - 24)) (finLitF (by decide) (by decide))).1
  have y2 := (msub_az E.F goodF.ok (E.fused 12) y1 x2 (z := lit F 0x1555556 (-3 - 24)) (finLitF (by decide) (by decide))).1
  exact madd_pz E.F goodF.ok hm (E.fused 13) y2 (mul_az E.F goodF.ok x2.1 hx.1) hx

end

/-- A folded zero. -/
def FZ (f : Fmt) (p : f.Bits × BitVec 32) : Prop := PZ f p.1 ∧ p.2 = 0

theorem quadrant_zero {x : f.Bits} (u : f.Bits → BitVec 32) (hx : AZ f x) : toInt32 f u x &&& 3 = 0 := by
  have := quadrant_eq u (k := 0) hx.1 (by rw [hx.2]; rfl) (by norm_num)
  simpa using this

theorem nearbyint_az (env : f.Env) (hok : f.Ok) (hw : f.mbits < f.bias) {x : f.Bits} (hx : AZ f x) : AZ f (nearbyint env x) := by
  unfold nearbyint
  have h := rint_num env hok hw env.mode hx.1
  refine ⟨h.1, ?_⟩
  rw [h.2, hx.2]
  have : env.mode.toInt 0 = 0 := by
    cases env.mode
    · exact_mod_cast roundEven_int 0
    all_goals simp [RMode.toInt]
    exact_mod_cast truncZ_int 0
  rw [this]; rfl

theorem foldY_az {a : D.Bits} (ha : AZ D a) : AZ D (foldY E a) := by
  unfold foldY
  refine nearbyint_az _ goodD.ok (by decide) ?_
  have h1 : D.round .nearest false (2 * D.ratValue piOver4D) = pi2D := by
    unfold pi2D lit
    rw [piOver4D_val.eq]
    congr 1
    norm_num
  rw [h1]
  obtain ⟨a1, a2⟩ := finite_not goodD.ok ha.1
  obtain ⟨b1, b2⟩ := finite_not goodD.ok pi2D_val.fin
  have hz : ¬ D.isZero pi2D := by
    intro h
    have := (isZero_AZ goodD.ok h).2
    rw [pi2D_val.eq] at this
    norm_num at this
  unfold Fmt.div
  rw [if_neg (by tauto), if_neg a2, if_neg b2, if_neg hz, ha.2, zero_div]
  exact (round_zero goodD.ok _ _).1

theorem zeroLow_az {y : D.Bits} (hy : AZ D y) : AZ D (zeroLowBits y) := by
  have h := zeroLow_zero (y := y) ⟨hy.1, by rw [hy.2]; simp⟩
  exact ⟨h.fin, h.eq⟩

section
variable (hm : E.mode ≠ .down)
include hm

theorem foldD_zero (xs : List D.Bits) : ∃ g : D.Bits → D.Bits × BitVec 32,
    foldD E xs = xs.map (fun x => g (FloatBits.abs D x)) ∧ ∀ a, PZ D a → FZ D (g a) := by
  unfold foldD
  simp only
  split
  · exact ⟨fun a => (a, 0), by rw [List.map_map]; rfl, fun a ha => ⟨ha, rfl⟩⟩
  · split
    · refine ⟨fun a => (foldSmallD E a (foldY E a), toInt32 D E.undefD (foldY E a) &&& 3), by rw [List.map_map]; rfl, fun a ha => ?_⟩
      have hy := foldY_az E ha.1
      refine ⟨?_, quadrant_zero _ hy⟩
      have s1 := nmadd_pz E.D goodD.ok hm (E.fused 24) ha hy (y := lit D 0x1921FB54443000 (0 - 52)) (finLitD (by decide) (by decide))
      have s2 := nmadd_pz E.D goodD.ok hm (E.fused 25) s1 hy (y := lit D (-0x173DCB3B39A000) (-43 - 52)) (finLitD (by decide) (by decide))
      exact nmadd_pz E.D goodD.ok hm (E.fused 26) s2 hy (y := lit D 0x145C06E0E68948 (-86 - 52)) (finLitD (by decide) (by decide))
    · split
      · refine ⟨fun a => (foldMediumD E a (foldY E a), toInt32 D E.undefD (foldY E a) &&& 3), by rw [List.map_map]; rfl, fun a ha => ?_⟩
        have hy := foldY_az E ha.1
        refine ⟨?_, quadrant_zero _ hy⟩
        have s1 := nmadd_pz E.D goodD.ok hm (E.fused 27) ha hy (y := lit D 0x1921FB40000000 (0 - 52)) (finLitD (by decide) (by decide))
        have s2 := nmadd_pz E.D goodD.ok hm (E.fused 28) s1 hy (y := lit D 0x14442D00000000 (-24 - 52)) (finLitD (by decide) (by decide))
        exact nmadd_pz E.D goodD.ok hm (E.fused 29) s2 hy (y := lit D 0x18469898CC5170 (-48 - 52)) (finLitD (by decide) (by decide))
      · refine ⟨fun a => (foldLargeD E a (foldY E a), toInt32 D E.undefD (foldY E a) &&& 3), by rw [List.map_map]; rfl, fun a ha => ?_⟩
        have hy := foldY_az E ha.1
        refine ⟨?_, quadrant_zero _ hy⟩
        have hhi := zeroLow_az hy
        have hlo : AZ D (Fmt.sub E.D (foldY E a) (zeroLowBits (foldY E a))) := by
          have a1 := (finite_not goodD.ok hy.1).1
          have b1 := (finite_not goodD.ok hhi.1).1
          unfold Fmt.sub
          rw [if_neg (by tauto)]
          have := add_az E.D goodD.ok hy (finite_neg.2 hhi.1)
          rw [ratValue_neg, hhi.2, neg_zero] at this
          exact this
        have p1 : D.isFinite (lit D 0x1921FB50000000 (0 - 52)) := finLitD (by decide) (by decide)
        have p2 : D.isFinite (lit D 0x1110B460000000 (-26 - 52)) := finLitD (by decide) (by decide)
        have p3 : D.isFinite (lit D 0x11A62630000000 (-54 - 52)) := finLitD (by decide) (by decide)
        have p4 : D.isFinite (lit D 0x18A2E03707344A (-81 - 52)) := finLitD (by decide) (by decide)
        have m1 := fmax_az (mul_az' E.D goodD.ok hhi p2) (mul_az' E.D goodD.ok hlo p1)
        have m2 := fmax_az (mul_az' E.D goodD.ok hhi p3) (mul_az' E.D goodD.ok hlo p2)
        have m3 := fmax_az (mul_az' E.D goodD.ok hy p4) (mul_az' E.D goodD.ok hlo p3)
        have s1 := nmadd_pz E.D goodD.ok hm (E.fused 30) ha hhi p1
        have s2 := sub_pz E.D goodD.ok hm s1 m1.1
        have s3 := sub_pz E.D goodD.ok hm s2 m1.2
        have s4 := sub_pz E.D goodD.ok hm s3 m2.1
        have s5 := sub_pz E.D goodD.ok hm s4 m2.2
        have s6 := sub_pz E.D goodD.ok hm s5 m3.1
        exact sub_pz E.D goodD.ok hm s6 m3.2

theorem widen_zero {x : F.Bits} (hx : AZ F x) : AZ D (widen E x) ∧ D.sign (widen E x) = F.sign x := by
  obtain ⟨a1, a2⟩ := finite_not goodF.ok hx.1
  unfold widen Fmt.convert
  rw [if_neg a1, if_neg a2, hx.2]
  exact round_zero goodD.ok _ _

theorem narrow_zero {x : D.Bits} (hx : AZ D x) : AZ F (narrow E x) ∧ F.sign (narrow E x) = D.sign x := by
  obtain ⟨a1, a2⟩ := finite_not goodD.ok hx.1
  unfold narrow Fmt.convert
  rw [if_neg a1, if_neg a2, hx.2]
  exact round_zero goodF.ok _ _

theorem narrow_one {x : D.Bits} (hx : One D x) : One F (narrow E x) := by
  obtain ⟨a1, a2⟩ := finite_not goodD.ok hx.1
  unfold narrow Fmt.convert
  rw [if_neg a1, if_neg a2, hx.2]
  have h := round_exact goodF.ok E.mode (D.sign x) (q := 1) ⟨1, 0, by decide, by decide, by norm_num⟩ (by norm_num [Fmt.bias])
  exact ⟨h.1, h.2⟩

theorem foldF_zero (xs : List F.Bits) : ∃ g : F.Bits → F.Bits × BitVec 32,
    foldF E xs = xs.map (fun x => g (FloatBits.abs F x)) ∧ ∀ a, PZ F a → FZ F (g a) := by
  unfold foldF
  simp only
  split
  · exact ⟨fun a => (a, 0), by rw [List.map_map]; rfl, fun a ha => ⟨ha, rfl⟩⟩
  · split
    · refine ⟨foldSmallF E, by rw [List.map_map]; rfl, fun a ha => ?_⟩
      have hy := nearbyint_az E.F goodF.ok (by decide) (mul_az' E.F goodF.ok ha.1 twoOverPiF_val.fin)
      refine ⟨?_, quadrant_zero _ hy⟩
      have s1 := nmadd_pz E.F goodF.ok hm (E.fused 21) ha hy pi2F5bits0_val.fin
      exact nmadd_pz E.F goodF.ok hm (E.fused 22) s1 hy pi2F5bits0Rem_val.fin
    · refine ⟨foldLargeF E, by rw [List.map_map]; rfl, fun a ha => ?_⟩
      have hw := widen_zero E hm ha.1
      have hw' : PZ D (widen E a) := ⟨hw.1, hw.2.trans ha.2⟩
      have hy := nearbyint_az E.D goodD.ok (by decide) (mul_az' E.D goodD.ok hw.1 twoOverPiD_val.fin)
      refine ⟨?_, quadrant_zero _ hy⟩
      have s1 := nmadd_pz E.D goodD.ok hm (E.fused 23) hw' hy pi2D_val.fin
      have s2 := narrow_zero E hm s1.1
      exact ⟨s2.1, s2.2.trans s1.2⟩

end

/-! ## Results for zeros -/

/-- Zeros give zeros of the same sign; zeros give 1. -/
def ZeroSame (f : Fmt) (xs ys : List f.Bits) : Prop := List.Forall₂ (fun x y => f.isZero x → y = x) xs ys
def ZeroOne (f : Fmt) (xs ys : List f.Bits) : Prop := List.Forall₂ (fun x y => f.isZero x → One f y) xs ys

theorem abs_pz (hok : f.Ok) {x : f.Bits} (h : f.isZero x) : PZ f (FloatBits.abs f x) :=
  ⟨isZero_AZ hok ((Hypot.isZero_abs x).2 h), sign_abs x⟩

theorem az_ext (hok : f.Ok) {x y : f.Bits} (hx : f.isZero x) (hy : AZ f y) (hs : f.sign y = f.sign x) : y = x := by
  have h : mag f y = 0 := by
    by_contra h
    have h1 := hy.2
    rw [ratValue_mag] at h1
    have h2 : 0 < unit f.mbits (mag f y) := lt_of_le_of_lt (Nat.zero_le _) (unit_mono f.mbits (Nat.pos_of_ne_zero h))
    have h3 : (0 : ℚ) < unit f.mbits (mag f y) := by exact_mod_cast h2
    have h4 := quantum_pos (f := f)
    rcases mul_eq_zero.1 h1 with h5 | h5
    · split at h5 <;> norm_num at h5
    · exact absurd h5 (mul_pos h3 h4).ne'
  exact bits_ext hs (h.trans ((isZero_iff x).1 hx).symm)

section
variable (env : f.Env) {cosS sinS : f.Bits → f.Bits}

theorem cosElem_zero (hc : ∀ x, AZ f x → One f (cosS x)) {p : f.Bits × BitVec 32} (hp : FZ f p) : One f (cosElem env cosS sinS p) := by
  unfold cosElem
  rw [hp.2]
  have h := cosFlip_eq env (j := 0) (by norm_num)
  rw [show (0 : BitVec 32) = BitVec.ofNat 32 0 from rfl, h, flip_eq]
  simpa using hc _ hp.1.1

theorem sinElem_zero (hok : f.Ok) (hs : ∀ x, PZ f x → PZ f (sinS x)) {x : f.Bits} (hx : f.isZero x) {p : f.Bits × BitVec 32} (hp : FZ f p) :
    sinElem env cosS sinS x p = x := by
  unfold sinElem
  rw [hp.2]
  have h : sinFlip env x 0 = _ := sinFlip_eq env x (j := 0) (by norm_num)
  have e : ((0 : BitVec 32) &&& 1 == 0) = true := by decide
  rw [h, flip_eq]
  simp only [e, if_true]
  have hz := hs _ hp.1
  refine az_ext hok hx ?_ ?_
  · cases f.sign x
    · simpa using hz.1
    · have : AZ f (Fmt.neg (sinS p.1)) := ⟨finite_neg.2 hz.1.1, by rw [ratValue_neg, hz.1.2, neg_zero]⟩
      simpa using this
  · cases f.sign x
    · simpa using hz.2
    · have : f.sign (Fmt.neg (sinS p.1)) = true := by rw [FloatBits.sign_neg, hz.2]; rfl
      simpa using this

end

section
variable (hm : E.mode ≠ .down)
include hm

theorem cosD_zero (xs : List D.Bits) : ZeroOne D xs (cosD E xs) := by
  obtain ⟨g, h1, h2⟩ := foldD_zero E hm xs
  unfold cosD ZeroOne
  rw [h1, cosEnd_eq, List.map_map, List.forall₂_map_right_iff, List.forall₂_same]
  exact fun x _ hx => cosElem_zero _ (fun _ => cosSeriesD_zero E) (h2 _ (abs_pz goodD.ok hx))

theorem sinD_zero (xs : List D.Bits) : ZeroSame D xs (sinD E xs) := by
  obtain ⟨g, h1, h2⟩ := foldD_zero E hm xs
  unfold sinD ZeroSame
  rw [h1, sinEnd_eq, zipWith_map_self, List.forall₂_map_right_iff, List.forall₂_same]
  exact fun x _ hx => sinElem_zero _ goodD.ok (fun _ => sinSeriesD_zero E hm) hx (h2 _ (abs_pz goodD.ok hx))

theorem az_isZero (hok : f.Ok) {x : f.Bits} (h : AZ f x) : f.isZero x := by
  have hs : f.isZero (f.ofMag (f.sign x) 0) := by rw [isZero_iff, mag_ofMag _ (by positivity)]
  have := az_ext hok hs h (by rw [sign_ofMag _ (by positivity)])
  rw [this]; exact hs

theorem cosF_zero (hl : ∀ x, D.isZero x → One D (E.libmCos x)) (ns : List Nat) (xs : List F.Bits) (h : ns.sum = xs.length) :
    ZeroOne F xs (cosF E ns xs) := by
  unfold cosF
  split
  · have H := chunked_rel hl (cosD_zero E hm) ns (xs.map (widen E)) (by simpa using h)
    unfold ZeroOne
    rw [List.forall₂_map_left_iff] at H
    rw [List.forall₂_map_right_iff]
    exact H.imp fun x y H hx => narrow_one E hm (H (az_isZero E hm goodD.ok (widen_zero E hm (isZero_AZ goodF.ok hx)).1))
  · obtain ⟨g, h1, h2⟩ := foldF_zero E hm xs
    unfold ZeroOne
    rw [h1, cosEnd_eq, List.map_map, List.forall₂_map_right_iff, List.forall₂_same]
    exact fun x _ hx => cosElem_zero _ (fun _ => cosSeriesF_zero E) (h2 _ (abs_pz goodF.ok hx))

theorem sinF_zero (hl : ∀ x, D.isZero x → E.libmSin x = x) (ns : List Nat) (xs : List F.Bits) (h : ns.sum = xs.length) :
    ZeroSame F xs (sinF E ns xs) := by
  unfold sinF
  split
  · have H := chunked_rel hl (sinD_zero E hm) ns (xs.map (widen E)) (by simpa using h)
    unfold ZeroSame
    rw [List.forall₂_map_left_iff] at H
    rw [List.forall₂_map_right_iff]
    refine H.imp fun x y H hx => ?_
    have hw := widen_zero E hm (isZero_AZ goodF.ok hx)
    rw [H (az_isZero E hm goodD.ok hw.1)]
    have hn := narrow_zero E hm hw.1
    exact az_ext goodF.ok hx hn.1 (hn.2.trans hw.2)
  · obtain ⟨g, h1, h2⟩ := foldF_zero E hm xs
    unfold ZeroSame
    rw [h1, sinEnd_eq, zipWith_map_self, List.forall₂_map_right_iff, List.forall₂_same]
    exact fun x _ hx => sinElem_zero _ goodF.ok (fun _ => sinSeriesF_zero E hm) hx (h2 _ (abs_pz goodF.ok hx))

end

/-! ## The signs of the operands -/

/-- The elements with `true` negated. -/
def negate (f : Fmt) (bs : List Bool) (xs : List f.Bits) : List f.Bits := List.zipWith (fun b x => if b then Fmt.neg x else x) bs xs

theorem abs_neg' (x : f.Bits) : FloatBits.abs f (Fmt.neg x) = FloatBits.abs f x :=
  bits_ext (by rw [sign_abs, sign_abs]) (by rw [mag_abs, mag_abs, mag_neg])

theorem negate_abs {bs : List Bool} {xs : List f.Bits} (h : bs.length = xs.length) : (negate f bs xs).map (FloatBits.abs f) = xs.map (FloatBits.abs f) := by
  unfold negate
  induction xs generalizing bs with
  | nil => simp
  | cons x xs ih =>
    cases bs with
    | nil => simp at h
    | cons b bs =>
      rw [List.zipWith_cons_cons, List.map_cons, List.map_cons, ih (by simpa using h)]
      cases b
      · rfl
      · rw [if_pos rfl, abs_neg']

theorem foldD_abs {xs ys : List D.Bits} (h : xs.map (FloatBits.abs D) = ys.map (FloatBits.abs D)) : foldD E xs = foldD E ys := by
  unfold foldD; rw [h]
theorem foldF_abs {xs ys : List F.Bits} (h : xs.map (FloatBits.abs F) = ys.map (FloatBits.abs F)) : foldF E xs = foldF E ys := by
  unfold foldF; rw [h]

theorem sinElem_neg (env : f.Env) (cosS sinS : f.Bits → f.Bits) (x : f.Bits) (p : f.Bits × BitVec 32) :
    sinElem env cosS sinS (Fmt.neg x) p = Fmt.neg (sinElem env cosS sinS x p) := by
  unfold sinElem sinFlip
  generalize Fmt.ofInt env (1 - p.2).toInt = t
  generalize (if p.2 &&& 1 == 0 then sinS p.1 else cosS p.1) = z
  unfold Fmt.neg
  rw [ofMag_true_zero]
  apply BitVec.eq_of_getLsbD_eq
  intro i hi
  simp only [BitVec.getLsbD_xor, BitVec.getLsbD_and]
  cases (signMask f).getLsbD i <;> cases x.getLsbD i <;> cases t.getLsbD i <;> cases z.getLsbD i <;> rfl

theorem zipWith_negate (env : f.Env) (cosS sinS : f.Bits → f.Bits) (bs : List Bool) (xs : List f.Bits) (ps : List (f.Bits × BitVec 32)) :
    List.zipWith (sinElem env cosS sinS) (negate f bs xs) ps = negate f bs (List.zipWith (sinElem env cosS sinS) xs ps) := by
  unfold negate
  induction xs generalizing bs ps with
  | nil => simp
  | cons x xs ih =>
    cases bs with
    | nil => simp
    | cons b bs =>
      cases ps with
      | nil => simp
      | cons p ps =>
        simp only [List.zipWith_cons_cons, ih]
        cases b
        · rfl
        · simp [sinElem_neg]

end StdSimd.Trig
