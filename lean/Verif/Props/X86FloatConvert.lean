import Verif.Proofs.X86FloatConvertAll
import Verif.Proofs.X86FloatConvertErr
/-!
# C53: register conversions from and to floating-point types on x86

`simd_cast` and `static_simd_cast` between native types, one of which has floating-point elements, give in element `i` what `static_cast` gives
for element `i` of the arguments (`Spec.IsCast`), with every instruction set, register size and number of arguments.
-/
namespace StdSimd.Props
open Spec X86FloatConvert

/-- Every conversion of `k` registers compiles, and unless 64-bit integers are converted to `float` with AVX2 and without AVX512DQ, eight or more
at a time, element `i` of the result is element `i` of the arguments, converted as by `static_cast`: in every rounding direction, whatever
NaNs the instructions yield, whether or not `a * b + c` is contracted, whatever unspecified elements of registers contain.
Missing: zero as `unsigned int` to `double` without AVX512F in the downward direction (`C53_uint_zero_down_false`), and the case above
(`C53_int64_to_float_close_partial`, `C53_int64_to_float_false`). -/
theorem C53_convert_partial {ft : Ft} {T U : NumType} {bt bs k : Nat} (hf : ft.Consistent) (hT : T.Supported) (hU : U.Supported)
    (h : T.fp = true ∨ U.fp = true) (hbs : bs ∈ [2, 4, 8, 16, 32, 64]) (hbt : bt ∈ [2, 4, 8, 16, 32, 64]) (hk : k ∈ [1, 2, 4, 8, 16])
    (hl : Legal ft T U bt bs k)
    (hi : ¬ (T.fp = false ∧ T.size = 8 ∧ U = f32 ∧ ft.i.avx2 = true ∧ ft.dq = false ∧ 8 ≤ min (bt / U.size) (k * (bs / T.size)))) :
    ∃ r : Reg, convert ft T U bt bs k = some r ∧ r.length = bt / U.size ∧
      ∀ (env : Env) (args : Nat → Nat → Nat), (∀ a i, args a i < 2 ^ (8 * T.size)) → ∀ i < min (bt / U.size) (k * (bs / T.size)),
        ¬ (T = u32 ∧ U = f64 ∧ ft.i.f = false ∧ env.mode = .down ∧ args (i / (bs / T.size)) (i % (bs / T.size)) = 0) →
        IsCast env.mode T U (args (i / (bs / T.size)) (i % (bs / T.size))) ((r.getD i .junk).eval env args) := by
  obtain ⟨r, hr, hlen, hg⟩ := lanes hf hT hU h hbs hbt hk hl
  refine ⟨r, hr, hlen, fun env args ha i hlt hz => ?_⟩
  have hg := hg i hlt
  rw [if_neg (show ¬ Inexact ft T U bt bs k from hi)] at hg
  have hx : (Tm.arg (i / (bs / T.size)) (i % (bs / T.size))).eval env args < 2 ^ (8 * T.size) := ha _ _
  have e : args (i / (bs / T.size)) (i % (bs / T.size)) = (Tm.arg (i / (bs / T.size)) (i % (bs / T.size))).eval env args := rfl
  rw [e] at hz ⊢
  generalize Tm.arg (i / (bs / T.size)) (i % (bs / T.size)) = t at *
  generalize r.getD i .junk = u at *
  clear hr hl hi hlt hlen
  obtain ⟨a, b, c⟩ := T
  obtain ⟨a', b', c'⟩ := U
  unfold NumType.Supported at hT hU
  dsimp only at hT hU h hx
  rcases hT with ⟨rfl, rfl, hc⟩ | ⟨rfl, hc⟩
  · rcases hU with ⟨rfl, rfl, hc'⟩ | ⟨rfl, hc'⟩
    · exact floatFloat hc hc' hx hg
    · exact floatInt hc hc' hg
  · rcases hU with ⟨rfl, rfl, hc'⟩ | ⟨rfl, hc'⟩
    · refine intFloat hc hc' hx hg ?_
      rintro ⟨rfl, rfl, rfl, h1, h2, h3⟩
      exact hz ⟨rfl, rfl, h1, h2, h3⟩
    · simp at h

/-- Eight or more 64-bit integers to `float` with AVX2 and without AVX512DQ: the conversion compiles, the results are finite, off by at most
`2 ^ -21` of the value (the correctly rounded result is off by at most `2 ^ -23` of it), and integers with at most 24 significant bits, those
that `float` represents, are converted exactly. -/
theorem C53_int64_to_float_close_partial {ft : Ft} {sgn : Bool} {bt bs k : Nat} (hf : ft.Consistent)
    (hbs : bs ∈ [2, 4, 8, 16, 32, 64]) (hbt : bt ∈ [2, 4, 8, 16, 32, 64]) (hk : k ∈ [1, 2, 4, 8, 16])
    (hl : Legal ft ⟨false, sgn, 8⟩ f32 bt bs k) (h2 : ft.i.avx2 = true) (hdq : ft.dq = false) (h8 : 8 ≤ min (bt / 4) (k * (bs / 8))) :
    ∃ r : Reg, convert ft ⟨false, sgn, 8⟩ f32 bt bs k = some r ∧ r.length = bt / 4 ∧
      ∀ (env : Env) (args : Nat → Nat → Nat), (∀ a i, args a i < 2 ^ 64) → ∀ i < min (bt / 4) (k * (bs / 8)),
        ∃ b : (⟨8, 23⟩ : Fmt).Bits, (r.getD i .junk).eval env args = b.toNat ∧ Fmt.isFinite _ b
          ∧ |Fmt.ratValue _ b - intValue sgn 8 (args (i / (bs / 8)) (i % (bs / 8)))| ≤ |(intValue sgn 8 (args (i / (bs / 8)) (i % (bs / 8))) : ℚ)| / 2 ^ 21
          ∧ ((∃ (c : ℤ) (e : ℕ), |c| ≤ 2 ^ 24 ∧ intValue sgn 8 (args (i / (bs / 8)) (i % (bs / 8))) = c * 2 ^ e) →
              Fmt.ratValue _ b = intValue sgn 8 (args (i / (bs / 8)) (i % (bs / 8)))) := by
  obtain ⟨r, hr, hlen, hg⟩ := lanes hf (T := ⟨false, sgn, 8⟩) (U := f32) (.inr ⟨rfl, .inr (.inr (.inr rfl))⟩) (.inl ⟨rfl, rfl, by decide⟩) (.inr rfl) hbs hbt hk hl
  refine ⟨r, hr, hlen, fun env args ha i hlt => ?_⟩
  have hg := hg i hlt
  rw [if_pos (show Inexact _ _ _ _ _ _ from ⟨rfl, rfl, rfl, h2, hdq, h8⟩)] at hg
  obtain ⟨b, v, h1, h3, h4, h5⟩ := rounded_close (env := env) (args := args) (t := .arg (i / (bs / 8)) (i % (bs / 8))) (ha _ _) hg
  refine ⟨b, h1, h3.1, ?_, ?_⟩
  · rw [h3.2]
    change (2 ^ 21 * (v - intValue sgn 8 (args (i / (bs / 8)) (i % (bs / 8))))).natAbs ≤ (intValue sgn 8 (args (i / (bs / 8)) (i % (bs / 8)))).natAbs at h4
    generalize intValue sgn 8 (args (i / (bs / 8)) (i % (bs / 8))) = n at *
    have h4 : (((2 ^ 21 * (v - n)).natAbs : ℕ) : ℤ) ≤ ((n.natAbs : ℕ) : ℤ) := by exact_mod_cast h4
    rw [Int.natCast_natAbs, Int.natCast_natAbs] at h4
    have h6 : |((2 ^ 21 * (v - n) : ℤ) : ℚ)| ≤ |(n : ℚ)| := by exact_mod_cast h4
    have h7 : ((2 ^ 21 * (v - n) : ℤ) : ℚ) = 2097152 * ((v : ℚ) - n) := by push_cast; ring
    rw [h7, abs_mul, abs_of_pos (show (0 : ℚ) < 2097152 by norm_num)] at h6
    rw [le_div_iff₀ (by norm_num)]
    linarith
  · intro h6
    rw [h3.2, h5 h6]
    rfl

/-! ## The remaining cases are wrong -/

private def qnan (f : Fmt) : f.Bits := f.ofMag false (f.infMag + 1)
private theorem qnan_isNaN (d : Nat) : (fmt d).isNaN (qnan (fmt d)) := by
  by_cases h : d = 4
  · subst h; decide
  · have : fmt d = ⟨11, 52⟩ := if_neg h
    rw [this]; decide

/-- An environment with the given rounding direction. -/
private def env0 (m : RMode) (fused : Bool) : Env :=
  ⟨m, fun d _ _ => qnan (fmt d), fun d _ _ => qnan_isNaN d, fun _ d _ => qnan (fmt d), fun _ d _ => qnan_isNaN d, fused, fun _ => 0, 0⟩

private def avx2 : Ft := ⟨⟨true, true, true, false, false, false⟩, true, false, true⟩
private def avx512 : Ft := ⟨⟨true, true, true, true, false, false⟩, true, false, true⟩

/-- Element 0 of the result if element 0 of argument 0 is `x`. -/
private def first (ft : Ft) (T U : NumType) (bt bs k : Nat) (env : Env) (x : Nat) : Option Nat :=
  (convert ft T U bt bs k).map fun r => (r.getD 0 .junk).eval env (fun _ _ => x)

private theorem avx2_consistent : avx2.Consistent := by
  refine ⟨⟨?_, ?_, ?_, ?_, ?_⟩, ?_, ?_, ?_, ?_⟩ <;> decide
private theorem avx512_consistent : avx512.Consistent := by
  refine ⟨⟨?_, ?_, ?_, ?_, ?_⟩, ?_, ?_, ?_, ?_⟩ <;> decide

private theorem cast_iff {m : RMode} {sgn : Bool} {s : Nat} {x r : Nat} :
    IsCast m ⟨false, sgn, s⟩ f32 x r ↔ r = (Fmt.round ⟨8, 23⟩ m false (intValue sgn s x)).toNat := Iff.rfl

/-- Eight 64-bit integers are converted to `float` with more than one rounding, and the result is not always the correctly rounded one: with
AVX2 (from two registers of 32 bytes, signed and unsigned) and with AVX512F without AVX512DQ (from one register, signed and unsigned, and
signed from two registers), for integers `x` between two adjacent `float`s and just above their mean, in the default rounding direction. -/
theorem C53_int64_to_float_false :
    ∀ c ∈ [(avx2, true, 32, 32, 2), (avx2, false, 32, 32, 2), (avx512, true, 32, 64, 1), (avx512, false, 32, 64, 1), (avx512, true, 64, 64, 2)],
      c.1.Consistent ∧ Legal c.1 ⟨false, c.2.1, 8⟩ f32 c.2.2.1 c.2.2.2.1 c.2.2.2.2 ∧
      ∃ (env : Env) (x r : Nat), env.mode = .nearest ∧ x < 2 ^ 63
        ∧ ((convert c.1 ⟨false, c.2.1, 8⟩ f32 c.2.2.1 c.2.2.2.1 c.2.2.2.2).map fun l => (l.getD 0 .junk).eval env (fun _ _ => x)) = some r
        ∧ ¬ IsCast env.mode ⟨false, c.2.1, 8⟩ f32 x r := by
  intro c hc
  simp only [List.mem_cons, List.not_mem_nil, or_false] at hc
  rcases hc with rfl | rfl | rfl | rfl | rfl
  · refine ⟨avx2_consistent, by decide, env0 .nearest false, (2 ^ 24 + 1) * 2 ^ 32 + 1, 0x5b800000, rfl, by norm_num, by decide +kernel, ?_⟩
    rw [cast_iff]; decide +kernel
  · refine ⟨avx2_consistent, by decide, env0 .nearest false, (2 ^ 24 + 1) * 2 ^ 32 + 1, 0x5b800000, rfl, by norm_num, by decide +kernel, ?_⟩
    rw [cast_iff]; decide +kernel
  · refine ⟨avx512_consistent, by decide, env0 .nearest true, 2 ^ 60 + 2 ^ 36 + 1, 0x5d800000, rfl, by norm_num, by decide +kernel, ?_⟩
    rw [cast_iff]; decide +kernel
  · refine ⟨avx512_consistent, by decide, env0 .nearest true, (2 ^ 24 + 1) * 2 ^ 32 + 1, 0x5b800000, rfl, by norm_num, by decide +kernel, ?_⟩
    rw [cast_iff]; decide +kernel
  · refine ⟨avx512_consistent, by decide, env0 .nearest true, (2 ^ 24 + 1) * 2 ^ 32 + 1, 0x5b800000, rfl, by norm_num, by decide +kernel, ?_⟩
    rw [cast_iff]; decide +kernel

/-- Without AVX512F the `unsigned int` zero becomes `-0.` if the rounding direction is downward. -/
theorem C53_uint_zero_down_false :
    Legal avx2 u32 f64 32 16 1 ∧ ∃ (env : Env) (r : Nat), env.mode = .down
      ∧ ((convert avx2 u32 f64 32 16 1).map fun l => (l.getD 0 .junk).eval env (fun _ _ => 0)) = some r
      ∧ ¬ IsCast env.mode u32 f64 0 r := by
  refine ⟨by decide, env0 .down false, 0x8000000000000000, rfl, by decide +kernel, ?_⟩
  have : IsCast RMode.down u32 f64 0 0x8000000000000000 ↔ 0x8000000000000000 = (Fmt.round ⟨11, 52⟩ .down false (intValue false 4 0)).toNat := Iff.rfl
  show ¬ IsCast RMode.down u32 f64 0 0x8000000000000000
  rw [this]; decide +kernel

/-! ## Non-trivial cases meet the hypotheses -/

/-- Four `double` to four `unsigned` with AVX2, by way of signed integers. -/
example : ∃ r : Reg, convert avx2 f64 u32 16 32 1 = some r ∧ r.length = 4 ∧
    ∀ (env : Env) (args : Nat → Nat → Nat), (∀ a i, args a i < 2 ^ 64) → ∀ i < 4,
      IsCast env.mode f64 u32 (args (i / 4) (i % 4)) ((r.getD i .junk).eval env args) := by
  obtain ⟨r, h1, h2, h3⟩ := C53_convert_partial (T := f64) (U := u32) (bt := 16) (bs := 32) (k := 1) avx2_consistent (.inl ⟨rfl, rfl, .inr rfl⟩)
    (.inr ⟨rfl, by decide⟩) (.inl rfl) (by decide) (by decide) (by decide) (by decide) (by decide)
  exact ⟨r, h1, h2, fun env args ha i hi => h3 env args ha i hi (by simp [f64, u32])⟩
/-- `4294967295.75` and `-0.75`. -/
example : first avx2 f64 u32 16 32 1 (env0 .nearest false) 0x41effffffff80000 = some 0xffffffff
    ∧ first avx2 f64 u32 16 32 1 (env0 .up true) 0xbfe8000000000000 = some 0 := by constructor <;> decide +kernel
/-- `unsigned` to `float` with AVX2: `2 ^ 32 - 1` and the mean of two `float`s, in two directions. -/
example : first avx2 u32 f32 32 32 1 (env0 .nearest false) 0xffffffff = some 0x4f800000
    ∧ first avx2 u32 f32 32 32 1 (env0 .down true) 0xffffffff = some 0x4f7fffff
    ∧ first avx2 u32 f32 32 32 1 (env0 .nearest true) 0x80000080 = some 0x4f000000 := by refine ⟨?_, ?_, ?_⟩ <;> decide +kernel
/-- Two registers of `double` to one of `short`, and `float` to `unsigned char` from four registers. -/
example : Legal avx2 f64 ⟨false, true, 2⟩ 16 32 2 ∧ Legal avx2 f32 ⟨false, false, 1⟩ 32 32 4 := by decide
/-- `double` to `float`: rounding, overflow and NaN. -/
example : first avx512 f64 f32 32 64 1 (env0 .nearest false) 0x3ff0000010000000 = some 0x3f800000
    ∧ first avx512 f64 f32 32 64 1 (env0 .up false) 0x7fe0000000000000 = some 0x7f800000
    ∧ first avx512 f64 f32 32 64 1 (env0 .zero false) 0x7fe0000000000000 = some 0x7f7fffff
    ∧ first avx512 f64 f32 32 64 1 (env0 .zero false) 0x7ff8000000000000 = some 0x7f800001 := by refine ⟨?_, ?_, ?_, ?_⟩ <;> decide +kernel
/-- `-1` from the halves. -/
example : first avx2 ⟨false, true, 8⟩ f32 32 32 2 (env0 .nearest false) 0xffffffffffffffff = some 0xbf800000 := by decide +kernel
/-- The hypotheses of `C53_int64_to_float_close_partial`. -/
example : Legal avx2 ⟨false, true, 8⟩ f32 32 32 2 ∧ avx2.i.avx2 = true ∧ avx2.dq = false ∧ 8 ≤ min (32 / 4) (2 * (32 / 8)) := by decide
/-- An instruction set and types with `u32 → f64` where the exception does not apply. -/
example : Legal avx512 u32 f64 64 32 1 := by decide

end StdSimd.Props
