import Verif.Proofs.X86FloatConvertTab
import Verif.Proofs.Math
import Verif.Proofs.Rounding
/-! # Register conversions from and to floating point: the values of the terms -/
namespace StdSimd.X86FloatConvert
open Spec FloatBits Math

variable {f : Fmt}

theorem round_zs (m : RMode) {q : ℚ} (h : q ≠ 0) (s t : Bool) : f.round m s q = f.round m t q := by
  unfold Fmt.round; dsimp only; rw [if_neg h, if_neg h]

theorem add_round (env : f.Env) (hf : f.Ok) {x y : f.Bits} {s t : Bool} {a b : ℚ} (hx : IsNum f x s a) (hy : IsNum f y t b)
    (h : a + b = 0 → s = false ∧ t = false) : Fmt.add env x y = f.round env.mode false (a + b) := by
  rw [add_finite env hf hx.1 hy.1, hx.2, hy.2, hx.3, hy.3]
  by_cases h0 : a + b = 0
  · obtain ⟨rfl, rfl⟩ := h h0
    rfl
  · exact round_zs _ h0 _ _

theorem madd_round (env : f.Env) (hf : f.Ok) (fused : Bool) {x y z : f.Bits} {s t u : Bool} {a b c : ℚ} (hx : IsNum f x s a) (hy : IsNum f y t b)
    (hz : IsNum f z u c) (hr : Rep f (a * b)) (hl : |a * b| < 2 ^ (f.bias + 1))
    (h : a * b + c = 0 → a * b = 0 ∧ s = t ∧ u = false) :
    (if fused then Fmt.fma env x y z else Fmt.add env (Fmt.mul env x y) z) = f.round env.mode false (a * b + c) := by
  cases fused
  · rw [if_neg (by simp)]
    refine add_round env hf (mul_exact env hf hx hy hr hl) hz (fun h0 => ?_)
    obtain ⟨h1, rfl, h2⟩ := h h0
    rw [if_pos h1]
    exact ⟨by simp, h2⟩
  · rw [if_pos rfl]
    obtain ⟨a1, a2⟩ := finite_not hf hx.1
    obtain ⟨b1, b2⟩ := finite_not hf hy.1
    obtain ⟨c1, c2⟩ := finite_not hf hz.1
    unfold Fmt.fma
    rw [if_neg (by tauto), if_neg (by tauto), if_neg c2, hx.2, hx.3, hy.2, hy.3, hz.2, hz.3]
    by_cases h0 : a * b + c = 0
    · obtain ⟨-, rfl, rfl⟩ := h h0
      rw [if_pos (by simp)]
    · exact round_zs _ h0 _ _

theorem ok32 : (⟨8, 23⟩ : Fmt).Ok := by decide
theorem ok64 : (⟨11, 52⟩ : Fmt).Ok := by decide

/-- Integers of 24 resp. 53 bits are converted exactly. -/
theorem ofInt32 (env : (⟨8, 23⟩ : Fmt).Env) {n : ℤ} (h : |n| ≤ 2 ^ 24) : IsNum _ (Fmt.ofInt env n) (decide (n < 0)) n :=
  Rounding.ofInt_num env ok32 (by decide) h
theorem ofInt64 (env : (⟨11, 52⟩ : Fmt).Env) {n : ℤ} (h : |n| ≤ 2 ^ 53) : IsNum _ (Fmt.ofInt env n) (decide (n < 0)) n :=
  Rounding.ofInt_num env ok64 (by decide) h

/-- Also powers of two above. -/
theorem ofPow32 (env : (⟨8, 23⟩ : Fmt).Env) : IsNum _ (Fmt.ofInt env 0x100000000) false (2 ^ 32) := by
  have h1 : Rep (⟨8, 23⟩ : Fmt) ((2 : ℚ) ^ 32) := by
    have := rep_scale (rep_int ok32 (n := 1) (by decide)) 32
    simpa using this
  have := round_exact ok32 env.mode false h1 (by norm_num [Fmt.bias, abs_of_pos])
  rw [if_neg (by norm_num)] at this
  unfold Fmt.ofInt
  have e : (((0x100000000 : ℤ)) : ℚ) = 2 ^ 32 := by norm_num
  rw [e]
  have h2 : decide ((2 : ℚ) ^ 32 < 0) = false := by norm_num
  rwa [h2] at this

theorem ofNat_toNat (x : f.Bits) : (BitVec.ofNat f.width x.toNat) = x := by simp

/-! ## integers -/

theorem and_ffff (x : Nat) : x &&& 0xffff = x % 2 ^ 16 := Nat.and_two_pow_sub_one_eq_mod x 16

theorem xor_top {y : Nat} (h : y < 2 ^ 31) : y ^^^ 2 ^ 31 = y + 2 ^ 31 ∧ (y + 2 ^ 31) ^^^ 2 ^ 31 = y := by
  have h1 : y + 2 ^ 31 = y ^^^ 2 ^ 31 := by
    have e2 := Nat.two_pow_add_eq_or_of_lt h 1
    rw [Nat.mul_one] at e2
    rw [Nat.add_comm, e2, Nat.or_comm]
    apply Nat.eq_of_testBit_eq
    intro i
    rw [Nat.testBit_or, Nat.testBit_xor, Nat.testBit_two_pow]
    by_cases hi : 31 = i
    · subst hi
      rw [Nat.testBit_lt_two_pow h]; rfl
    · simp [hi]
  exact ⟨h1.symm, by rw [h1, Nat.xor_assoc, Nat.xor_self, Nat.xor_zero]⟩

theorem xor_top' {x : Nat} (h : x < 2 ^ 32) : x ^^^ 0x80000000 = if x < 2 ^ 31 then x + 2 ^ 31 else x - 2 ^ 31 := by
  split
  · rename_i h1; exact (xor_top h1).1
  · have := (xor_top (y := x - 2 ^ 31) (by omega)).2
    rwa [Nat.sub_add_cancel (by omega)] at this

theorem shr16 {x : Nat} (h : x < 2 ^ 32) : castBits 4 (intValue false 4 x / 2 ^ 16) = x / 2 ^ 16 := by
  unfold castBits intValue
  simp only [Bool.false_eq_true, false_and, if_false]
  omega

theorem high64 {sgn : Bool} {x : Nat} (h : x < 2 ^ 64) :
    intValue sgn 4 (castBits 4 (intValue sgn 8 (castBits 8 (intValue sgn 8 x / 2 ^ 32)))) = intValue sgn 8 x / 2 ^ 32 := by
  unfold castBits intValue
  cases sgn <;> simp only [Bool.false_eq_true, false_and, if_false, true_and] <;> (repeat' split) <;> omega

theorem low64 {sgn : Bool} {x : Nat} (h : x < 2 ^ 64) : (castBits 4 (intValue sgn 8 x) : ℤ) = intValue sgn 8 x % 2 ^ 32 := by
  unfold castBits intValue
  cases sgn <;> simp only [Bool.false_eq_true, false_and, if_false, true_and] <;> (repeat' split) <;> omega

theorem widen {sgn : Bool} {s x : Nat} (hs : s = 1 ∨ s = 2) (h : x < 2 ^ (8 * s)) :
    intValue true 4 (castBits 4 (intValue sgn s x)) = intValue sgn s x := by
  unfold castBits intValue
  rcases hs with rfl | rfl <;> cases sgn <;> simp only [Bool.false_eq_true, false_and, if_false, true_and] <;> (repeat' split) <;> omega

theorem narrow {n : ℤ} {d : Nat} (hd : d = 1 ∨ d = 2) (h : -2 ^ 31 ≤ n ∧ n < 2 ^ 31) : castBits d (intValue true 4 (castBits 4 n)) = castBits d n := by
  unfold castBits intValue
  rcases hd with rfl | rfl <;> simp only [true_and] <;> (repeat' split) <;> omega

/-! ## sums of halves -/

theorem u32Split_num (env : (⟨8, 23⟩ : Fmt).Env) (fused : Bool) {x : Nat} (h : x < 2 ^ 32) :
    (if fused then Fmt.fma env (Fmt.ofInt env 0x10000) (Fmt.ofInt env (x / 2 ^ 16 : ℕ)) (Fmt.ofInt env (x % 2 ^ 16 : ℕ))
      else Fmt.add env (Fmt.mul env (Fmt.ofInt env 0x10000) (Fmt.ofInt env (x / 2 ^ 16 : ℕ))) (Fmt.ofInt env (x % 2 ^ 16 : ℕ)))
      = Fmt.round ⟨8, 23⟩ env.mode false (x : ℤ) := by
  have hb : x / 2 ^ 16 < 2 ^ 16 := by omega
  have hc : x % 2 ^ 16 < 2 ^ 16 := by omega
  have e : (x : ℤ) = 0x10000 * ((x / 2 ^ 16 : ℕ) : ℤ) + ((x % 2 ^ 16 : ℕ) : ℤ) := by omega
  generalize x / 2 ^ 16 = b at *
  generalize x % 2 ^ 16 = c at *
  have na := ofInt32 env (n := 0x10000) (by decide)
  have nb := ofInt32 env (n := (b : ℤ)) (by rw [abs_of_nonneg (by omega)]; omega)
  have nc := ofInt32 env (n := (c : ℤ)) (by rw [abs_of_nonneg (by omega)]; omega)
  rw [show decide ((0x10000 : ℤ) < 0) = false by decide] at na
  rw [show decide ((b : ℤ) < 0) = false by simp] at nb
  rw [show decide ((c : ℤ) < 0) = false by simp] at nc
  have hr : Rep ⟨8, 23⟩ ((((0x10000 : ℤ)) : ℚ) * ((b : ℤ) : ℚ)) := by
    have := rep_scale (rep_int ok32 (n := (b : ℤ)) (by rw [abs_of_nonneg (by omega)]; show _ ≤ (2 : ℤ) ^ 24; omega)) 16
    rw [mul_comm]
    convert this using 2
    norm_num
  have hl : |(((0x10000 : ℤ)) : ℚ) * ((b : ℤ) : ℚ)| < 2 ^ ((⟨8, 23⟩ : Fmt).bias + 1) := by
    have h2 : (b : ℚ) < 2 ^ 16 := by exact_mod_cast hb
    have h3 : (0 : ℚ) ≤ b := by positivity
    rw [show ((⟨8, 23⟩ : Fmt).bias + 1) = 128 from rfl]
    push_cast
    rw [abs_of_nonneg (by positivity)]
    calc (65536 : ℚ) * b ≤ 65536 * 2 ^ 16 := by gcongr
      _ < 2 ^ 128 := by norm_num
  rw [madd_round env ok32 fused na nb nc hr hl, e]
  · push_cast; rfl
  · intro h0
    have h3 : (0 : ℚ) ≤ b := by positivity
    have h4 : (0 : ℚ) ≤ c := by positivity
    push_cast at h0 ⊢
    exact ⟨by linarith, rfl, rfl⟩

theorem i64Split_num (env : (⟨11, 52⟩ : Fmt).Env) (fused : Bool) {n : ℤ} (h : -2 ^ 63 ≤ n ∧ n < 2 ^ 64) :
    (if fused then Fmt.fma env (Fmt.ofInt env (n / 2 ^ 32)) (Fmt.ofInt env 0x100000000) (Fmt.ofInt env (n % 2 ^ 32))
      else Fmt.add env (Fmt.mul env (Fmt.ofInt env (n / 2 ^ 32)) (Fmt.ofInt env 0x100000000)) (Fmt.ofInt env (n % 2 ^ 32)))
      = Fmt.round ⟨11, 52⟩ env.mode false n := by
  have hb : -2 ^ 31 ≤ n / 2 ^ 32 ∧ n / 2 ^ 32 < 2 ^ 32 := by omega
  have hc : 0 ≤ n % 2 ^ 32 ∧ n % 2 ^ 32 < 2 ^ 32 := by omega
  have e : n = (n / 2 ^ 32) * 0x100000000 + n % 2 ^ 32 := by omega
  rw [show (Fmt.round ⟨11, 52⟩ env.mode false (n : ℚ)) = Fmt.round ⟨11, 52⟩ env.mode false (((n / 2 ^ 32) * 0x100000000 + n % 2 ^ 32 : ℤ) : ℚ) by rw [← e]]
  generalize n / 2 ^ 32 = b at *
  generalize n % 2 ^ 32 = c at *
  have na := ofInt64 env (n := 0x100000000) (by decide)
  have nb := ofInt64 env (n := b) (by rw [abs_le]; omega)
  have nc := ofInt64 env (n := c) (by rw [abs_le]; omega)
  rw [show decide ((0x100000000 : ℤ) < 0) = false by decide] at na
  rw [show decide (c < 0) = false by simpa using hc.1] at nc
  have hr : Rep ⟨11, 52⟩ ((b : ℚ) * (((0x100000000 : ℤ)) : ℚ)) := by
    have := rep_scale (rep_int ok64 (n := b) (by rw [abs_le]; show -(2 : ℤ) ^ 53 ≤ _ ∧ _ ≤ (2 : ℤ) ^ 53; omega)) 32
    convert this using 2
    norm_num
  have hl : |(b : ℚ) * (((0x100000000 : ℤ)) : ℚ)| < 2 ^ ((⟨11, 52⟩ : Fmt).bias + 1) := by
    have h2 : |(b : ℚ)| ≤ 2 ^ 32 := by
      rw [abs_le]
      constructor
      · have : (-2 ^ 32 : ℤ) ≤ b := by omega
        exact_mod_cast this
      · have : b ≤ 2 ^ 32 := by omega
        exact_mod_cast this
    rw [show ((⟨11, 52⟩ : Fmt).bias + 1) = 1024 from rfl, abs_mul]
    calc |(b : ℚ)| * |(((0x100000000 : ℤ)) : ℚ)| ≤ 2 ^ 32 * |(((0x100000000 : ℤ)) : ℚ)| := by gcongr
      _ = 2 ^ 64 := by norm_num
      _ < 2 ^ 1024 := pow_lt_pow_right₀ (by norm_num) (by norm_num)
  rw [madd_round env ok64 fused nb na nc hr hl]
  · push_cast; rfl
  · intro h0
    have h1 : b * 0x100000000 + c = 0 := by exact_mod_cast h0
    have h2 : b = 0 := by omega
    subst h2
    exact ⟨by simp, by simp, rfl⟩

theorem viaSigned_num (env : (⟨11, 52⟩ : Fmt).Env) {x : Nat} (h : x < 2 ^ 32) (hm : env.mode = .down → x ≠ 0) :
    Fmt.add env (Fmt.ofInt env ((x : ℤ) - 0x80000000)) (Fmt.ofInt env 0x80000000) = Fmt.round ⟨11, 52⟩ env.mode false (x : ℤ) := by
  have na := ofInt64 env (n := (x : ℤ) - 0x80000000) (by rw [abs_le]; omega)
  have nb := ofInt64 env (n := 0x80000000) (by decide)
  rw [add_finite env ok64 na.1 nb.1, na.2, nb.2, na.3, nb.3]
  have e : ((((x : ℤ) - 0x80000000 : ℤ)) : ℚ) + (((0x80000000 : ℤ)) : ℚ) = ((x : ℤ) : ℚ) := by push_cast; ring
  rw [e]
  by_cases h0 : x = 0
  · subst h0
    have : decide (env.mode = .down) = false := by
      rw [decide_eq_false_iff_not]; exact fun h1 => hm h1 rfl
    simp [this]
  · exact round_zs _ (by exact_mod_cast h0) _ _

theorem truncZ_int (n : ℤ) : truncZ (n : ℚ) = n := toInt_int .zero n

theorem shifted_num (env : (⟨11, 52⟩ : Fmt).Env) {b : (⟨11, 52⟩ : Fmt).Bits} (hb : Fmt.isFinite _ b) (h0 : 0 ≤ truncZ (Fmt.ratValue _ b))
    (h1 : truncZ (Fmt.ratValue _ b) < 2 ^ 32) :
    truncTo ⟨11, 52⟩ true 4 (Fmt.sub env (Fmt.rint env .down b) (Fmt.ofInt env 0x80000000)) ^^^ 0x80000000
      = castBits 4 (truncZ (Fmt.ratValue _ b)) := by
  have nb := ofInt64 env (n := 0x80000000) (by decide)
  have na := Rounding.rint_num env ok64 (by decide) .down hb
  have na' : IsNum _ (Fmt.rint env .down b) (Fmt.sign _ b) ⌊Fmt.ratValue _ b⌋ := na
  clear na
  have hfl : truncZ (Fmt.ratValue _ b) = ⌊Fmt.ratValue _ b⌋ ∨ (⌊Fmt.ratValue _ b⌋ = -1 ∧ truncZ (Fmt.ratValue _ b) = 0) := by
    unfold truncZ at h0 ⊢
    by_cases hv : 0 ≤ Fmt.ratValue _ b
    · left; rw [if_pos hv]
    · right
      rw [if_neg hv] at h0 ⊢
      have h2 : ⌈Fmt.ratValue _ b⌉ ≤ 0 := Int.ceil_le.mpr (by push_cast; linarith)
      have h3 : ⌈Fmt.ratValue _ b⌉ = 0 := by omega
      refine ⟨?_, h3⟩
      rw [Int.floor_eq_iff]
      rw [Int.ceil_eq_iff] at h3
      push_cast at h3 ⊢
      constructor <;> linarith
  generalize ⌊Fmt.ratValue _ b⌋ = z at *
  generalize truncZ (Fmt.ratValue _ b) = n at *
  have hz : -1 ≤ z ∧ z < 2 ^ 32 := by omega
  have hs : IsNum _ (Fmt.sub env (Fmt.rint env .down b) (Fmt.ofInt env 0x80000000))
      (if ((z : ℚ) - (0x80000000 : ℤ)) = 0 then (if Fmt.sign _ b = !decide ((0x80000000 : ℤ) < 0) then Fmt.sign _ b else decide (env.mode = .down))
        else decide (((z : ℚ) - (0x80000000 : ℤ)) < 0)) ((z : ℚ) - (0x80000000 : ℤ)) := by
    rw [sub_finite env ok64 na'.1 nb.1, na'.2, nb.2, na'.3, nb.3]
    have e : ((z : ℚ) - (0x80000000 : ℤ)) = ((z - 0x80000000 : ℤ) : ℚ) := by push_cast; ring
    apply round_exact ok64
    · rw [e]; exact rep_int ok64 (by show |_| ≤ (2 : ℤ) ^ 53; rw [abs_le]; omega)
    · rw [e]; exact Rounding.int_lt (by decide) (by show |_| ≤ (2 : ℤ) ^ 53; rw [abs_le]; omega)
  unfold truncTo
  rw [show (Fmt.ratValue _ (Fmt.sub env (Fmt.rint env .down b) (Fmt.ofInt env 0x80000000))) = ((z - 0x80000000 : ℤ) : ℚ) by
    rw [hs.2]; push_cast; ring, truncZ_int]
  rcases hfl with rfl | ⟨rfl, rfl⟩
  · rw [if_pos ⟨hs.1, by unfold NumType.InRange; simp; omega⟩]
    have hc : castBits 4 (n - 0x80000000) < 2 ^ 32 := by unfold castBits; omega
    rw [xor_top' hc]
    unfold castBits
    split <;> omega
  · rw [if_neg (by rintro ⟨-, h⟩; unfold NumType.InRange at h; simp at h), if_pos rfl]
    decide

/-! ## all terms -/

variable {env : Env} {args : Nat → Nat → Nat} {t u : Tm}

theorem eval_u32Split (h : t.eval env args < 2 ^ 32) :
    (u32Split t).eval env args = (Fmt.round ⟨8, 23⟩ env.mode false (t.eval env args : ℤ)).toNat := by
  have e := u32Split_num (env.at 4) env.fused h
  have i1 : intValue true 4 (t.eval env args / 2 ^ 16) = (t.eval env args / 2 ^ 16 : ℕ) := by
    unfold intValue; rw [if_neg]; omega
  have i2 : intValue true 4 (t.eval env args % 2 ^ 16) = (t.eval env args % 2 ^ 16 : ℕ) := by
    unfold intValue; rw [if_neg]; omega
  unfold u32Split
  simp only [Tm.eval]
  rw [shr16 h, and_ffff, i1, i2]
  simp only [ofNat_toNat]
  exact congrArg BitVec.toNat e

theorem intValue_bounds (sgn : Bool) {x : Nat} (h : x < 2 ^ 64) : -2 ^ 63 ≤ intValue sgn 8 x ∧ intValue sgn 8 x < 2 ^ 64 := by
  unfold intValue; cases sgn <;> simp only [Bool.false_eq_true, false_and, if_false, true_and] <;> (repeat' split) <;> omega

theorem eval_i64Split (sgn : Bool) (h : t.eval env args < 2 ^ 64) :
    (i64Split sgn t).eval env args = (Fmt.round ⟨11, 52⟩ env.mode false (intValue sgn 8 (t.eval env args))).toNat := by
  have e := i64Split_num (env.at 8) env.fused (intValue_bounds sgn h)
  have i2 : intValue false 4 (castBits 4 (intValue sgn 8 (t.eval env args))) = intValue sgn 8 (t.eval env args) % 2 ^ 32 := by
    rw [← low64 h]; unfold intValue; simp
  unfold i64Split
  simp only [Tm.eval]
  rw [high64 h, i2]
  simp only [ofNat_toNat]
  exact congrArg BitVec.toNat e

theorem eval_viaSigned (h : t.eval env args < 2 ^ 32) (hm : env.mode = .down → t.eval env args ≠ 0) :
    (viaSigned t).eval env args = (Fmt.round ⟨11, 52⟩ env.mode false (t.eval env args : ℤ)).toNat := by
  have e := viaSigned_num (env.at 8) h hm
  have i1 : intValue true 4 (t.eval env args ^^^ 0x80000000) = (t.eval env args : ℤ) - 0x80000000 := by
    rw [xor_top' h]; unfold intValue; simp only [true_and]; (repeat' split) <;> omega
  unfold viaSigned
  simp only [Tm.eval]
  rw [i1]
  simp only [ofNat_toNat]
  exact congrArg BitVec.toNat e

theorem intFloat {ft : Ft} {sgn : Bool} {s d : Nat} (hs : s = 1 ∨ s = 2 ∨ s = 4 ∨ s = 8) (hd : d = 4 ∨ d = 8)
    (h : t.eval env args < 2 ^ (8 * s)) (hu : u ∈ good ft ⟨false, sgn, s⟩ ⟨true, true, d⟩ t)
    (hz : ¬ (sgn = false ∧ s = 4 ∧ d = 8 ∧ ft.i.f = false ∧ env.mode = .down ∧ t.eval env args = 0)) :
    IsCast env.mode ⟨false, sgn, s⟩ ⟨true, true, d⟩ (t.eval env args) (u.eval env args) := by
  show u.eval env args = (Fmt.round (fmt d) env.mode false (intValue sgn s (t.eval env args))).toNat
  have direct : (Tm.ofInt sgn s d t).eval env args = (Fmt.round (fmt d) env.mode false (intValue sgn s (t.eval env args))).toNat := rfl
  have wide (hs : s = 1 ∨ s = 2) : (Tm.ofInt true 4 d (.icast sgn s 4 t)).eval env args
      = (Fmt.round (fmt d) env.mode false (intValue sgn s (t.eval env args))).toNat := by
    simp only [Tm.eval]; rw [widen hs h]; rfl
  unfold good at hu
  rcases hs with rfl | rfl | rfl | rfl
  · simp at hu; subst hu; exact wide (.inl rfl)
  · simp at hu; subst hu; exact wide (.inr rfl)
  · cases sgn
    · have i1 : intValue false 4 (t.eval env args) = (t.eval env args : ℤ) := rfl
      rcases hd with rfl | rfl
      · simp at hu
        rcases hu with rfl | rfl
        · exact direct
        · rw [i1]; exact eval_u32Split h
      · by_cases hf : ft.i.f
        · simp [hf] at hu; subst hu; exact direct
        · simp [hf] at hu
          rcases hu with rfl | rfl
          · exact direct
          · rw [i1]
            refine eval_viaSigned h (fun h1 h2 => hz ⟨rfl, rfl, rfl, by simpa using hf, h1, h2⟩)
    · simp at hu; subst hu; exact direct
  · rcases hd with rfl | rfl
    · simp at hu; subst hu; exact direct
    · simp at hu
      rcases hu with rfl | rfl
      · exact direct
      · exact eval_i64Split sgn h

theorem floatInt {ft : Ft} {sgn : Bool} {s d : Nat} (hs : s = 4 ∨ s = 8) (hd : d = 1 ∨ d = 2 ∨ d = 4 ∨ d = 8)
    (hu : u ∈ good ft ⟨true, true, s⟩ ⟨false, sgn, d⟩ t) :
    IsCast env.mode ⟨true, true, s⟩ ⟨false, sgn, d⟩ (t.eval env args) (u.eval env args) := by
  show Fmt.isFinite (fmt s) (BitVec.ofNat _ (t.eval env args)) → NumType.InRange ⟨false, sgn, d⟩ (truncZ (Fmt.ratValue (fmt s) (BitVec.ofNat _ (t.eval env args))))
    → u.eval env args = castBits d (truncZ (Fmt.ratValue (fmt s) (BitVec.ofNat _ (t.eval env args))))
  intro hf hr
  have hr' (h : d = 1 ∨ d = 2) : NumType.InRange ⟨false, true, 4⟩ (truncZ (Fmt.ratValue (fmt s) (BitVec.ofNat _ (t.eval env args)))) := by
    unfold NumType.InRange at hr ⊢
    rcases h with rfl | rfl <;> cases sgn <;> simp at hr ⊢ <;> omega
  have nar (h : d = 1 ∨ d = 2) : castBits d (intValue true 4 (castBits 4 (truncZ (Fmt.ratValue (fmt s) (BitVec.ofNat _ (t.eval env args))))))
      = castBits d (truncZ (Fmt.ratValue (fmt s) (BitVec.ofNat _ (t.eval env args)))) := by
    have := hr' h
    unfold NumType.InRange at this
    simp at this
    exact narrow h (by omega)
  have d1 : (Tm.scast s sgn d t).eval env args = castBits d (truncZ (Fmt.ratValue (fmt s) (BitVec.ofNat _ (t.eval env args)))) := by
    simp only [Tm.eval]; unfold castTo; rw [if_pos ⟨hf, hr⟩]
  have d2 : (Tm.trunc s sgn d t).eval env args = castBits d (truncZ (Fmt.ratValue (fmt s) (BitVec.ofNat _ (t.eval env args)))) := by
    simp only [Tm.eval]; unfold truncTo; rw [if_pos ⟨hf, hr⟩]
  have n1 (h : d = 1 ∨ d = 2) : (Tm.icast true 4 d (.scast s true 4 t)).eval env args
      = castBits d (truncZ (Fmt.ratValue (fmt s) (BitVec.ofNat _ (t.eval env args)))) := by
    simp only [Tm.eval]; unfold castTo; rw [if_pos ⟨hf, hr' h⟩, nar h]
  have n2 (h : d = 1 ∨ d = 2) : (Tm.icast true 4 d (.trunc s true 4 t)).eval env args
      = castBits d (truncZ (Fmt.ratValue (fmt s) (BitVec.ofNat _ (t.eval env args)))) := by
    simp only [Tm.eval]; unfold truncTo; rw [if_pos ⟨hf, hr' h⟩, nar h]
  have sml (h : d = 1 ∨ d = 2) (hu : u = .icast true 4 d (.scast s true 4 t) ∨ u = .icast true 4 d (.trunc s true 4 t)) :
      u.eval env args = castBits d (truncZ (Fmt.ratValue (fmt s) (BitVec.ofNat _ (t.eval env args)))) := by
    rcases hu with rfl | rfl
    · exact n1 h
    · exact n2 h
  unfold good at hu
  rcases hd with rfl | rfl | rfl | rfl
  · simp at hu; exact sml (.inl rfl) hu
  · simp at hu; exact sml (.inr rfl) hu
  · simp at hu
    rcases hu with rfl | rfl | h
    · exact d1
    · exact d2
    · obtain ⟨⟨rfl, rfl⟩, rfl⟩ := h
      unfold NumType.InRange at hr
      simp at hr
      have e := shifted_num (env.at 8) (b := BitVec.ofNat _ (t.eval env args)) hf hr.1 (lt_of_lt_of_le hr.2 (by norm_num))
      unfold shifted
      simp only [Tm.eval]
      simp only [ofNat_toNat]
      exact e
  · simp at hu
    rcases hu with rfl | rfl
    · exact d1
    · exact d2

theorem floatFloat {ft : Ft} {s d : Nat} (hs : s = 4 ∨ s = 8) (hd : d = 4 ∨ d = 8)
    (h : t.eval env args < 2 ^ (8 * s)) (hu : u ∈ good ft ⟨true, true, s⟩ ⟨true, true, d⟩ t) :
    IsCast env.mode ⟨true, true, s⟩ ⟨true, true, d⟩ (t.eval env args) (u.eval env args) := by
  have hok : (fmt s).Ok ∧ (fmt s).width = 8 * s := by rcases hs with rfl | rfl <;> decide
  unfold good at hu
  dsimp only at hu
  by_cases hsd : s = d
  · subst hsd
    rw [if_pos rfl, List.mem_singleton] at hu
    subst hu
    have ex : ∃ b : (fmt s).Bits, b.toNat = u.eval env args := ⟨BitVec.ofNat _ (u.eval env args), by
      rw [BitVec.toNat_ofNat, hok.2, Nat.mod_eq_of_lt h]⟩
    obtain ⟨b, hb⟩ := ex
    rw [← hb]
    show (Fmt.isFinite (fmt s) (BitVec.ofNat _ b.toNat) → b.toNat = (Fmt.round (fmt s) env.mode (Fmt.sign (fmt s) (BitVec.ofNat _ b.toNat)) (Fmt.ratValue (fmt s) (BitVec.ofNat _ b.toNat))).toNat)
      ∧ (Fmt.isInf (fmt s) (BitVec.ofNat _ b.toNat) → b.toNat = (Fmt.ofMag (fmt s) (Fmt.sign (fmt s) (BitVec.ofNat _ b.toNat)) (Fmt.infMag (fmt s))).toNat)
      ∧ (Fmt.isNaN (fmt s) (BitVec.ofNat _ b.toNat) → Fmt.isNaN (fmt s) (BitVec.ofNat _ b.toNat) ∧ b.toNat < 2 ^ (fmt s).width)
    rw [ofNat_toNat]
    refine ⟨fun hf => ?_, fun hi => ?_, fun hn => ⟨hn, b.isLt⟩⟩
    · have := round_exact hok.1 env.mode (Fmt.sign (fmt s) b) (rep_ratValue hok.1 b) (ratValue_lt hok.1 hf)
      refine congrArg BitVec.toNat (finite_ext ?_ this.2.symm)
      rw [this.3]
      split
      · rfl
      · rename_i h0
        have hs := ratValue_sign (x := b)
        cases hb : Fmt.sign _ b
        · symm; rw [decide_eq_false_iff_not, not_lt]; exact hs.1 hb
        · symm; rw [decide_eq_true_iff]; exact lt_of_le_of_ne (hs.2 hb) h0
    · rw [isInf_iff] at hi
      rw [infMag_eq, ← hi, ofMag_sign_mag]
  · rw [if_neg hsd, List.mem_singleton] at hu
    subst hu
    have hev : (Tm.fcvt s d t).eval env args = (fcvtTo env s d (BitVec.ofNat _ (t.eval env args))).toNat := rfl
    rw [hev]
    generalize hb : (BitVec.ofNat (fmt s).width (t.eval env args)) = b
    show (Fmt.isFinite (fmt s) (BitVec.ofNat (fmt s).width (t.eval env args)) → _ = (Fmt.round (fmt d) env.mode (Fmt.sign (fmt s) (BitVec.ofNat (fmt s).width (t.eval env args))) (Fmt.ratValue (fmt s) (BitVec.ofNat (fmt s).width (t.eval env args)))).toNat)
      ∧ (Fmt.isInf (fmt s) (BitVec.ofNat (fmt s).width (t.eval env args)) → _ = (Fmt.ofMag (fmt d) (Fmt.sign (fmt s) (BitVec.ofNat (fmt s).width (t.eval env args))) (Fmt.infMag (fmt d))).toNat)
      ∧ (Fmt.isNaN (fmt s) (BitVec.ofNat (fmt s).width (t.eval env args)) → Fmt.isNaN (fmt d) (BitVec.ofNat _ (fcvtTo env s d b).toNat) ∧ _ < 2 ^ (fmt d).width)
    rw [hb, ofNat_toNat]
    unfold fcvtTo
    refine ⟨fun hf => ?_, fun hi => ?_, fun hn => ?_⟩
    · have := finite_not hok.1 hf
      rw [if_neg this.1, if_neg this.2]
    · rw [if_neg (by rw [isNaN_iff]; rw [isInf_iff] at hi; omega), if_pos hi]
    · rw [if_pos hn]
      exact ⟨env.cvtIsNaN _ _ _, (env.cvtNan _ _ _).isLt⟩

end StdSimd.X86FloatConvert
