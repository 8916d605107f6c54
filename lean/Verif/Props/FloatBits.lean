import Verif.Proofs.FloatBits
/-!
# Property theorems about floating-point comparisons (C33) and classification (C34)

For every binary interchange format (`Spec.Fmt`) and every bit pattern of one element.
-/
namespace StdSimd.Props
open Spec FloatBits

variable {f : Fmt}

/-! ## C34: NaN, and C33: unordered -/

/-- C34. `isnan` in all its forms: `~(x == x)`, the integer comparison used with `-fsignaling-nans`, and `cmpunord` on x86. -/
theorem C34_isnan (hf : f.Ok) (x : f.Bits) :
    isnanEq f x = decide (f.isNaN x) ∧ isnanInt f x = decide (f.isNaN x) ∧ x86Isnan f x = decide (f.isNaN x) := by
  refine ⟨?_, ?_, ?_⟩
  · unfold isnanEq
    rw [eq_eq hf, unordered_eq hf]
    by_cases h : f.isNaN x <;> simp [h]
  · unfold isnanInt BitVec.slt
    rw [abs_toInt, (inf_toInt hf).2]
    by_cases h : f.isNaN x <;> simp [h] <;> rw [isNaN_iff] at h <;> omega
  · unfold x86Isnan x86Isunordered
    rw [unordered_eq hf]; simp

/-- C33. `isunordered`: true exactly when an operand is a NaN (generic code with either form of `isnan`, and x86). -/
theorem C33_isunordered (hf : f.Ok) (x y : f.Bits) :
    isunordered f (isnanEq f) x y = f.unordered x y ∧ isunordered f (isnanInt f) x y = f.unordered x y ∧
      x86Isunordered f x y = f.unordered x y := by
  unfold isunordered
  rw [(C34_isnan hf x).1, (C34_isnan hf y).1, (C34_isnan hf x).2.1, (C34_isnan hf y).2.1, unordered_eq hf]
  refine ⟨?_, ?_, ?_⟩
  · simp
  · simp
  · unfold x86Isunordered; exact unordered_eq hf x y

/-! ## C33: quiet comparisons -/

/-- C33. The generic `isless`, `islessequal`, `isgreater`, `isgreaterequal`, `islessgreater` equal the quiet comparisons of IEEE 754
on the values: false on NaN, `-0 == +0`, infinities ordered.  `un` is any correct `isunordered` (`C33_isunordered`). -/
theorem C33_generic (hf : f.Ok) (un : f.Bits → f.Bits → Bool) (hun : ∀ x y, un x y = f.unordered x y) (x y : f.Bits) :
    isless f un x y = f.lt x y ∧ islessequal f un x y = f.le x y ∧ isgreater f un x y = f.lt y x ∧
      isgreaterequal f un x y = f.le y x ∧ islessgreater f un x y = f.lessGreater x y := by
  unfold isless islessequal isgreater isgreaterequal islessgreater
  rw [hun, slt_key, sle_key, slt_key, sle_key, lt_eq hf x y, le_eq hf x y, lt_eq hf y x, le_eq hf y x, lessGreater_eq hf, unordered_comm y x]
  exact ⟨rfl, rfl, rfl, rfl, rfl⟩

/-- C33. The x86 code of the five functions on every path. -/
theorem C33_x86 (hf : f.Ok) (p : Path) (x y : f.Bits) :
    x86Isless f p x y = f.lt x y ∧ x86Islessequal f p x y = f.le x y ∧ x86Isgreater f p x y = f.lt y x ∧
      x86Isgreaterequal f p x y = f.le y x ∧ x86Islessgreater f p x y = f.lessGreater x y := by
  have hg := C33_generic hf (x86Isunordered f) (fun a b => (C33_isunordered hf a b).2.2) x y
  have hl := lessGreater_eq hf x y
  cases p
  · exact ⟨rfl, rfl, rfl, rfl, rfl⟩
  · refine ⟨?_, ?_, ?_, ?_, hl.symm⟩
    · exact hg.1
    · exact hg.2.1
    · exact hg.2.2.1
    · exact hg.2.2.2.1
  · exact ⟨rfl, rfl, rfl, rfl, hl.symm⟩
  · exact ⟨hg.1, hg.2.1, hg.2.2.1, hg.2.2.2.1, hl.symm⟩

/-! ## C34 -/

/-- C34. `isfinite`: the generic code, AVX512DQ and AVX512F. -/
theorem C34_isfinite (hf : f.Ok) (x : f.Bits) :
    isfinite f x = decide (f.isFinite x) ∧ x86IsfiniteDq f x = decide (f.isFinite x) ∧ x86IsfiniteF f x = decide (f.isFinite x) := by
  have hff := isFinite_iff (f := f) x
  have hn := isNaN_iff (f := f) x
  have hi := isInf_iff (f := f) x
  refine ⟨?_, ?_, ?_⟩
  · unfold isfinite BitVec.sle
    rw [abs_toInt, max_toInt hf]
    congr 1; rw [hff]; apply propext; omega
  · have e : x86IsfiniteDq f x = !(decide (f.isNaN x ∨ f.isInf x)) := by
      unfold x86IsfiniteDq fpclass
      simp only [show Nat.testBit 0x99 0 = true from rfl, show Nat.testBit 0x99 1 = false from rfl, show Nat.testBit 0x99 2 = false from rfl,
        show Nat.testBit 0x99 3 = true from rfl, show Nat.testBit 0x99 4 = true from rfl, show Nat.testBit 0x99 5 = false from rfl,
        show Nat.testBit 0x99 6 = false from rfl, show Nat.testBit 0x99 7 = true from rfl]
      by_cases h1 : f.isNaN x <;> by_cases h2 : f.isInf x <;> by_cases h3 : f.isSignalling x <;> cases h4 : f.sign x <;>
        simp_all [Fmt.isSignalling]
    rw [e, ← decide_not]
    apply decide_eq_decide.2
    rw [hff, hn, hi]; omega
  · unfold x86IsfiniteF BitVec.slt
    have hz : (x &&& infBits f).toNat = f.expo x * 2 ^ f.mbits := by
      rw [BitVec.toNat_and, (inf_toInt hf).1]
      apply Nat.eq_of_testBit_eq
      intro i
      rw [Nat.testBit_and]
      unfold inf
      rw [Nat.mul_comm (2 ^ f.ebits - 1), Nat.mul_comm (f.expo x), Nat.testBit_two_pow_mul, Nat.testBit_two_pow_mul, Nat.testBit_two_pow_sub_one]
      unfold Fmt.expo
      rw [Nat.testBit_mod_two_pow, Nat.testBit_div_two_pow]
      by_cases h1 : f.mbits ≤ i
      · rw [show i - f.mbits + f.mbits = i by omega]
        by_cases h2 : i - f.mbits < f.ebits <;> simp [h1, h2]
      · simp [h1]
    have hlt : f.expo x * 2 ^ f.mbits < 2 ^ (f.ebits + f.mbits) := by
      have := mag_lt x; rw [mag_eq] at this; omega
    rw [toInt_of_lt hz hlt, (inf_toInt hf).2]
    apply decide_eq_decide.2
    unfold Fmt.isFinite inf
    have he := expo_lt x
    have hm := Nat.two_pow_pos f.mbits
    constructor
    · intro h h2; rw [h2] at h; omega
    · intro h
      have : f.expo x < 2 ^ f.ebits - 1 := by omega
      have := Nat.mul_lt_mul_of_pos_right this hm
      exact_mod_cast this

/-- C34. `isinf`: comparison of the absolute value with infinity, and `fpclass`. -/
theorem C34_isinf (hf : f.Ok) (x : f.Bits) : isinf f x = decide (f.isInf x) ∧ x86IsinfDq f x = decide (f.isInf x) := by
  have hi := isInf_iff (f := f) x
  have hn := isNaN_iff (f := f) x
  constructor
  · unfold isinf
    have hmi : mag f (infBits f) = inf f := by
      show (infBits f).toNat % _ = _
      rw [(inf_toInt hf).1, Nat.mod_eq_of_lt (inf_lt hf).1]
    have hsi : f.sign (infBits f) = false := by
      rw [sign_msb, BitVec.msb_eq_decide, (inf_toInt hf).1]
      have := (inf_lt hf).1
      simpa using this
    rw [eq_eq hf, unordered_eq hf]
    have k1 : ikey f (abs f x) = mag f x := by unfold ikey; rw [sign_abs, mag_abs]; rfl
    have k2 : ikey f (infBits f) = inf f := by unfold ikey; rw [hsi, hmi]; rfl
    rw [k1, k2]
    have n1 : ¬ f.isNaN (infBits f) := by rw [isNaN_iff, hmi]; omega
    have n2 : f.isNaN (FloatBits.abs f x) ↔ inf f < mag f x := by rw [isNaN_iff, mag_abs]
    by_cases h : mag f x = inf f
    · have h1 : ¬ f.isNaN (FloatBits.abs f x) := by rw [n2]; omega
      simp [h, h1, n1, hi]
    · have : ¬ ((mag f x : Int) = inf f) := by omega
      simp [h, hi]
  · unfold x86IsinfDq fpclass
    simp only [show Nat.testBit 0x18 0 = false from rfl, show Nat.testBit 0x18 1 = false from rfl, show Nat.testBit 0x18 2 = false from rfl,
      show Nat.testBit 0x18 3 = true from rfl, show Nat.testBit 0x18 4 = true from rfl, show Nat.testBit 0x18 5 = false from rfl,
      show Nat.testBit 0x18 6 = false from rfl, show Nat.testBit 0x18 7 = false from rfl]
    by_cases h : f.isInf x <;> cases f.sign x <;> simp [h]

/-- C34. `isnormal`: the generic code, AVX512DQ and AVX512F. -/
theorem C34_isnormal (hf : f.Ok) (x : f.Bits) :
    isnormal f x = decide (f.isNormal x) ∧ x86IsnormalDq f x = decide (f.isNormal x) ∧ x86IsnormalF f x = decide (f.isNormal x) := by
  have hno := isNormal_iff (f := f) x
  have e1 : ((2 ^ f.mbits : Nat) : Int) = (2 : Int) ^ f.mbits := by push_cast; rfl
  refine ⟨?_, ?_, ?_⟩
  · unfold isnormal BitVec.sle
    rw [abs_toInt, max_toInt hf, min_toInt hf, ← e1, ← Bool.decide_and]
    apply decide_eq_decide.2; rw [hno]; omega
  · have e : x86IsnormalDq f x = !(decide (f.isNaN x ∨ f.isInf x ∨ f.isZero x ∨ f.isSubnormal x)) := by
      unfold x86IsnormalDq fpclass
      simp only [show Nat.testBit 0xbf 0 = true from rfl, show Nat.testBit 0xbf 1 = true from rfl, show Nat.testBit 0xbf 2 = true from rfl,
        show Nat.testBit 0xbf 3 = true from rfl, show Nat.testBit 0xbf 4 = true from rfl, show Nat.testBit 0xbf 5 = true from rfl,
        show Nat.testBit 0xbf 6 = false from rfl, show Nat.testBit 0xbf 7 = true from rfl]
      by_cases h1 : f.isNaN x <;> by_cases h2 : f.isInf x <;> by_cases h3 : f.isSignalling x <;> by_cases h5 : f.isZero x <;>
        by_cases h6 : f.isSubnormal x <;> cases h4 : f.sign x <;> simp_all [Fmt.isSignalling]
    rw [e, ← decide_not]
    apply decide_eq_decide.2
    rw [hno, isNaN_iff, isInf_iff, isZero_iff, isSubnormal_iff]
    have := Nat.two_pow_pos f.mbits
    have := inf_lt hf
    omega
  · unfold x86IsnormalF BitVec.sle BitVec.slt
    rw [abs_toInt, (inf_toInt hf).2, min_toInt hf, ← e1, ← Bool.decide_and]
    apply decide_eq_decide.2; rw [hno]; omega

/-- C34. `isnormal` with `-ffinite-math-only`, for finite operands. -/
theorem C34_isnormal_finite_math (hf : f.Ok) (x : f.Bits) (hx : f.isFinite x) :
    isnormalFinite f x = decide (f.isNormal x) ∧ x86IsnormalDqFinite f x = decide (f.isNormal x) := by
  have hno := isNormal_iff (f := f) x
  have hfi := (isFinite_iff x).1 hx
  have e1 : ((2 ^ f.mbits : Nat) : Int) = (2 : Int) ^ f.mbits := by push_cast; rfl
  refine ⟨?_, ?_⟩
  · unfold isnormalFinite BitVec.sle
    rw [abs_toInt, min_toInt hf, ← e1]
    apply decide_eq_decide.2; rw [hno]; omega
  · have e : x86IsnormalDqFinite f x = !(decide (f.isZero x ∨ f.isSubnormal x)) := by
      unfold x86IsnormalDqFinite fpclass
      simp only [show Nat.testBit 0x26 0 = false from rfl, show Nat.testBit 0x26 1 = true from rfl, show Nat.testBit 0x26 2 = true from rfl,
        show Nat.testBit 0x26 3 = false from rfl, show Nat.testBit 0x26 4 = false from rfl, show Nat.testBit 0x26 5 = true from rfl,
        show Nat.testBit 0x26 6 = false from rfl, show Nat.testBit 0x26 7 = false from rfl]
      by_cases h5 : f.isZero x <;> by_cases h6 : f.isSubnormal x <;> cases h4 : f.sign x <;> simp_all
    rw [e, ← decide_not]
    apply decide_eq_decide.2
    rw [hno, isZero_iff, isSubnormal_iff]
    have := Nat.two_pow_pos f.mbits
    omega

/-- C34. `signbit`, also of NaNs and zeros. -/
theorem C34_signbit (x : f.Bits) : signbit f x = f.sign x ∧ x86Signbit f x = f.sign x := by
  unfold signbit x86Signbit
  rw [sign_msb]
  exact ⟨BitVec.slt_zero_eq_msb, rfl⟩

/-- C34. `fpclassify`, with the class numbers of the C library. -/
theorem C34_fpclassify (hf : f.Ok) (x : f.Bits) : fpclassify f x = f.fpclassify x := by
  have e1 : ((2 ^ f.mbits : Nat) : Int) = (2 : Int) ^ f.mbits := by push_cast; rfl
  have h1 : (abs f x).slt (minBits f) = decide (mag f x < 2 ^ f.mbits) := by
    unfold BitVec.slt; rw [abs_toInt, min_toInt hf, ← e1]; apply decide_eq_decide.2; omega
  have h2 : (abs f x).slt (infBits f) = decide (mag f x < inf f) := by
    unfold BitVec.slt; rw [abs_toInt, (inf_toInt hf).2]; apply decide_eq_decide.2; omega
  have h3 : (abs f x == 0) = decide (mag f x = 0) := by
    rw [Bool.eq_iff_iff, beq_iff_eq, decide_eq_true_eq, ← abs_toNat, BitVec.toNat_eq]; simp
  have h4 : (abs f x == infBits f) = decide (mag f x = inf f) := by
    rw [Bool.eq_iff_iff, beq_iff_eq, decide_eq_true_eq, ← abs_toNat, BitVec.toNat_eq, (inf_toInt hf).1]
  unfold fpclassify Fmt.fpclassify
  dsimp only
  rw [h1, h2, h3, h4]
  have hn := isNaN_iff (f := f) x
  have hi := isInf_iff (f := f) x
  have hz := isZero_iff (f := f) x
  have hs := isSubnormal_iff (f := f) x
  have hl := inf_lt hf
  simp only [decide_eq_true_eq]
  have hp := Nat.two_pow_pos f.mbits
  split_ifs <;> first | rfl | (exfalso; simp only [hn, hi, hz, hs] at *; omega)

/-- C34. `fpclassify` of doubles: packing the 64-bit results with signed saturation (`_mm_packs_epi32`) yields the class number as
`int`. -/
theorem C34_fpclassify_packs (hf : f.Ok) (x : f.Bits) :
    (packs64 (BitVec.ofNat 64 (fpclassify f x))).toNat = f.fpclassify x := by
  have hb : f.fpclassify x ≤ 4 := by unfold Fmt.fpclassify; repeat' split <;> try omega
  rw [C34_fpclassify hf, packs64_small (by omega), BitVec.toNat_ofNat]
  omega

/-- C34. The helper that recognises finite numbers other than zero (`frexp`, `logb`): with `fpclass`, and with the products by
infinity and by zero. -/
theorem C34_nonzero_value (hf : f.Ok) (x : f.Bits) :
    x86IsnonzerovalueDq f x = decide (f.isFinite x ∧ ¬ f.isZero x) ∧ x86Isnonzerovalue f x = decide (f.isFinite x ∧ ¬ f.isZero x) := by
  have hff := isFinite_iff (f := f) x
  have hn := isNaN_iff (f := f) x
  have hi := isInf_iff (f := f) x
  have hz := isZero_iff (f := f) x
  have hl := inf_lt hf
  have e : x86IsnonzerovalueDq f x = !(decide (f.isNaN x ∨ f.isInf x ∨ f.isZero x)) := by
    unfold x86IsnonzerovalueDq fpclass
    simp only [show Nat.testBit 0x9f 0 = true from rfl, show Nat.testBit 0x9f 1 = true from rfl, show Nat.testBit 0x9f 2 = true from rfl,
      show Nat.testBit 0x9f 3 = true from rfl, show Nat.testBit 0x9f 4 = true from rfl, show Nat.testBit 0x9f 5 = false from rfl,
      show Nat.testBit 0x9f 6 = false from rfl, show Nat.testBit 0x9f 7 = true from rfl]
    by_cases h1 : f.isNaN x <;> by_cases h2 : f.isInf x <;> by_cases h3 : f.isSignalling x <;> by_cases h5 : f.isZero x <;>
      cases h4 : f.sign x <;> simp_all [Fmt.isSignalling]
  constructor
  · rw [e, ← decide_not]
    apply decide_eq_decide.2
    rw [hff, hn, hi, hz]; omega
  · unfold x86Isnonzerovalue
    dsimp only
    rw [← Bool.decide_or, ← decide_not]
    apply decide_eq_decide.2
    rw [hff, hn, hi, hz]; omega

/-! ## examples -/

private abbrev b32 : Fmt := ⟨8, 23⟩
private abbrev b64 : Fmt := ⟨11, 52⟩
example : b32.Ok ∧ b64.Ok ∧ (⟨5, 10⟩ : Fmt).Ok := by decide
-- 1.5, -0, the smallest subnormal, +inf, a NaN
example : b32.ratValue 0x3fc00000#32 = 3 / 2 := by decide +kernel
example : b32.ratValue 0x80000000#32 = 0 ∧ b32.sign 0x80000000#32 = true := by decide +kernel
example : b32.ratValue 1#32 = 1 / 2 ^ 149 := by decide +kernel
example : b32.isInf 0x7f800000#32 ∧ b32.isNaN 0x7fc00000#32 ∧ b32.isSignalling 0x7f800001#32 := by decide +kernel
-- -0 and +0 are equal, -inf < -1 < 0 < subnormal, NaN is unordered
example : b32.eq 0x80000000#32 0#32 = true ∧ b32.lt 0xff800000#32 0xbf800000#32 = true ∧ b32.lt 0x80000000#32 1#32 = true ∧
    b32.le 0x7fc00000#32 0x7fc00000#32 = false := by decide +kernel
example : isless b32 (isunordered b32 (isnanEq b32)) 0xbf800000#32 0x3f800000#32 = true ∧
    isless b32 (isunordered b32 (isnanEq b32)) 0x80000000#32 0#32 = false := by decide +kernel
-- the constants of the model denote what the code calls them
example : b64.isInf (infBits b64) ∧ b64.isFinite (maxBits b64) ∧ b64.isNaN (infBits b64 + 1) ∧ maxBits b64 + 1 = infBits b64 ∧
    b64.isNormal (minBits b64) ∧ b64.isSubnormal (minBits b64 - 1) := by decide +kernel

end StdSimd.Props
