import Verif.Proofs.TrigZero
import Verif.Proofs.TrigParity
import Verif.Proofs.TrigRelEnd
/-!
# C55: `sin` and `cos`

The lists are the elements of a `simd` object, the results the elements of `sin(x)` or `cos(x)`; `Real.sin` and `Real.cos` are Mathlib's
functions of real numbers.  `E` is everything the program leaves open: the NaN patterns, the contraction of multiplications and additions
(any choice, place by place), the conversion of numbers that do not fit an `int`, the functions of the C library.

The full property asks for an error of a few units in the last place for every finite element.  What is missing: elements greater than
`2 ^ 31`, for which it is false (`C55_large_false`), relative errors near the zeros of the functions other than 0, rounding modes other than to nearest.
-/
namespace StdSimd.Props
open Spec Trig

/-- An environment like that of x86; the functions of the C library are those of the model. -/
def trigEnv0 : Trig.Env where
  mode := .nearest
  nanF _ _ := 0x7fc00000
  isNaNF _ _ := by decide
  nanD _ _ := 0x7ff8000000000000
  isNaND _ _ := by decide
  widenNaN _ := 0x7ff8000000000000
  isNaNW _ _ := by decide
  narrowNaN _ := 0x7fc00000
  isNaNN _ _ := by decide
  fused _ := false
  undefF _ := 0x80000000
  undefD _ := 0x80000000
  libmSin x := x
  libmCos x := x
def trigEnv : Trig.Env := { trigEnv0 with
  libmSin := fun x => (sinD trigEnv0 [x]).headD 0
  libmCos := fun x => (cosD trigEnv0 [x]).headD 0 }

theorem trig_head {f : Fmt} {R : f.Bits → f.Bits → Prop} {x : f.Bits} {ys : List f.Bits} (h : List.Forall₂ R [x] ys) : R x (ys.headD 0) := by
  cases h with
  | cons h _ => exact h

/-! ## `double` -/

/-- C55: `sin` of `simd<double>`: every element of at most `2 ^ 31`, whatever the other elements are. -/
theorem C55_sin_double_partial (E : Trig.Env) (hm : E.mode = .nearest) (xs : List D.Bits) :
    D.Approx Real.sin (2 ^ 31) (1 / 2 ^ 46) xs (sinD E xs) := sinD_approx E hm xs
/-- C55: `cos` of `simd<double>`. -/
theorem C55_cos_double_partial (E : Trig.Env) (hm : E.mode = .nearest) (xs : List D.Bits) :
    D.Approx Real.cos (2 ^ 31) (1 / 2 ^ 46) xs (cosD E xs) := cosD_approx E hm xs

/-- C55: if no element is greater than 805 the error is at most `2 ^ -50`. -/
theorem C55_sin_double_small (E : Trig.Env) (hm : E.mode = .nearest) (xs : List D.Bits) (h : ∀ x ∈ xs, D.isFinite x ∧ |D.ratValue x| ≤ 805) :
    D.Approx Real.sin 805 (1 / 2 ^ 50) xs (sinD E xs) := by
  obtain ⟨g, h1, h2, h3⟩ := sinD_acc E hm xs
  rw [h1]
  exact approx_map fun x hx hf hb => ⟨(h2 x hx hf (hb.trans (by norm_num))).1, h3 h x hx⟩
theorem C55_cos_double_small (E : Trig.Env) (hm : E.mode = .nearest) (xs : List D.Bits) (h : ∀ x ∈ xs, D.isFinite x ∧ |D.ratValue x| ≤ 805) :
    D.Approx Real.cos 805 (1 / 2 ^ 50) xs (cosD E xs) := by
  obtain ⟨g, h1, h2, h3⟩ := cosD_acc E hm xs
  rw [h1]
  exact approx_map fun x hx hf hb => ⟨(h2 x hx hf (hb.trans (by norm_num))).1, h3 h x hx⟩

/-- 500, -1.5, and 0.7 in one vector; 2e9 and a NaN together with 1. -/
example : D.Approx Real.sin 805 (1 / 2 ^ 50) [lit D 500 0, lit D (-3) (-1), lit D 7 (-3)] (sinD trigEnv [lit D 500 0, lit D (-3) (-1), lit D 7 (-3)]) := by
  refine C55_sin_double_small _ rfl _ ?_
  intro x hx
  simp only [List.mem_cons, List.not_mem_nil, or_false] at hx
  have a := (litD 500 0 500 (M := 500) (by decide) (by decide) (by norm_num) (by norm_num)).toNear
  have b := (litD (-3) (-1) (-3 / 2) (M := 500) (by decide) (by decide) (by norm_num) (by norm_num [abs_of_neg])).toNear
  have c := (litD 7 (-3) (7 / 8) (M := 500) (by decide) (by decide) (by norm_num) (by norm_num)).toNear
  rcases hx with rfl | rfl | rfl
  · exact ⟨a.fin, by rw [a.eq]; norm_num⟩
  · exact ⟨b.fin, by rw [b.eq]; norm_num [abs_of_neg]⟩
  · exact ⟨c.fin, by rw [c.eq]; norm_num⟩
example : |(D.ratValue ((cosD trigEnv [lit D 2000000000 0, 0x7ff8000000000001, lit D 1 0]).headD 0) : ℝ) - Real.cos 2000000000| ≤ 1 / 2 ^ 46 := by
  have h := C55_cos_double_partial trigEnv rfl [lit D 2000000000 0, 0x7ff8000000000001, lit D 1 0]
  have a := (litD 2000000000 0 2000000000 (M := 2000000000) (by decide) (by decide) (by norm_num) (by norm_num)).toNear
  unfold Fmt.Approx at h
  generalize cosD trigEnv [lit D 2000000000 0, 0x7ff8000000000001, lit D 1 0] = ys at h
  cases h with
  | cons h _ =>
    have := (h a.fin (by rw [a.eq]; norm_num)).2
    rw [a.eq] at this
    simpa using this

/-- C55: `simd<double, fixed_size>`: the chunks, and the C library for a chunk of one element. -/
theorem C55_double_fixed_partial (E : Trig.Env) (hm : E.mode = .nearest) (chunks : List Nat) (xs : List D.Bits) (h : chunks.sum = xs.length) :
    ((∀ x, D.Approx Real.sin (2 ^ 31) (1 / 2 ^ 46) [x] [E.libmSin x]) → D.Approx Real.sin (2 ^ 31) (1 / 2 ^ 46) xs (chunked E.libmSin (sinD E) chunks xs)) ∧
    ((∀ x, D.Approx Real.cos (2 ^ 31) (1 / 2 ^ 46) [x] [E.libmCos x]) → D.Approx Real.cos (2 ^ 31) (1 / 2 ^ 46) xs (chunked E.libmCos (cosD E) chunks xs)) :=
  ⟨fun hl => chunked_approx hl (sinD_approx E hm) _ _ h, fun hl => chunked_approx hl (cosD_approx E hm) _ _ h⟩

/-! ## `float` -/

/-- C55: `sin` of `simd<float>`; large elements are computed with `double`, in chunks. -/
theorem C55_sin_float_partial (E : Trig.Env) (hm : E.mode = .nearest) (hl : ∀ x, D.Approx Real.sin (2 ^ 31) (1 / 2 ^ 46) [x] [E.libmSin x])
    (chunks : List Nat) (xs : List F.Bits) (h : chunks.sum = xs.length) : F.Approx Real.sin (2 ^ 31) (1 / 2 ^ 21) xs (sinF E chunks xs) :=
  sinF_approx E hm hl chunks xs h
/-- C55: `cos` of `simd<float>`. -/
theorem C55_cos_float_partial (E : Trig.Env) (hm : E.mode = .nearest) (hl : ∀ x, D.Approx Real.cos (2 ^ 31) (1 / 2 ^ 46) [x] [E.libmCos x])
    (chunks : List Nat) (xs : List F.Bits) (h : chunks.sum = xs.length) : F.Approx Real.cos (2 ^ 31) (1 / 2 ^ 21) xs (cosF E chunks xs) :=
  cosF_approx E hm hl chunks xs h

/-- The assumption on the C library can be met. -/
example (x : D.Bits) : D.Approx Real.sin (2 ^ 31) (1 / 2 ^ 46) [x] [trigEnv.libmSin x] ∧ D.Approx Real.cos (2 ^ 31) (1 / 2 ^ 46) [x] [trigEnv.libmCos x] :=
  ⟨List.forall₂_cons.2 ⟨trig_head (C55_sin_double_partial trigEnv0 rfl [x]), List.Forall₂.nil⟩,
    List.forall₂_cons.2 ⟨trig_head (C55_cos_double_partial trigEnv0 rfl [x]), List.Forall₂.nil⟩⟩

/-! ## Relative errors -/

/-- C55: `sin` and `cos` of `simd<double>`: the relative error of every element of at most `0.785` (just below `π / 4`), however small and
whatever the other elements are. -/
theorem C55_relative_double_partial (E : Trig.Env) (hm : E.mode = .nearest) (xs : List D.Bits) :
    D.RelApprox Real.sin (785 / 1000) (1 / 2 ^ 50) xs (sinD E xs) ∧ D.RelApprox Real.cos (785 / 1000) (1 / 2 ^ 50) xs (cosD E xs) :=
  ⟨sinD_rel E hm xs, cosD_rel E hm xs⟩
/-- C55: `sin` and `cos` of `simd<float>`. -/
theorem C55_relative_float_partial (E : Trig.Env) (hm : E.mode = .nearest)
    (hs : ∀ x, D.RelApprox Real.sin (785 / 1000) (1 / 2 ^ 50) [x] [E.libmSin x]) (hc : ∀ x, D.RelApprox Real.cos (785 / 1000) (1 / 2 ^ 50) [x] [E.libmCos x])
    (chunks : List Nat) (xs : List F.Bits) (h : chunks.sum = xs.length) :
    F.RelApprox Real.sin (785 / 1000) (1 / 2 ^ 22) xs (sinF E chunks xs) ∧ F.RelApprox Real.cos (785 / 1000) (1 / 2 ^ 21) xs (cosF E chunks xs) :=
  ⟨sinF_rel E hm hs chunks xs h, cosF_rel E hm hc chunks xs h⟩

/-- The assumption on the C library can be met. -/
example (x : D.Bits) : D.RelApprox Real.sin (785 / 1000) (1 / 2 ^ 50) [x] [trigEnv.libmSin x] ∧ D.RelApprox Real.cos (785 / 1000) (1 / 2 ^ 50) [x] [trigEnv.libmCos x] :=
  ⟨List.forall₂_cons.2 ⟨trig_head (C55_relative_double_partial trigEnv0 rfl [x]).1, List.Forall₂.nil⟩,
    List.forall₂_cons.2 ⟨trig_head (C55_relative_double_partial trigEnv0 rfl [x]).2, List.Forall₂.nil⟩⟩
/-- `2 ^ -1040`, a subnormal number, beside `2 ^ 40` and a NaN. -/
example : |(D.ratValue ((sinD trigEnv [lit D 1 (-1040), lit D 1 40, 0x7ff8000000000001]).headD 0) : ℝ) - Real.sin (1 / 2 ^ 1040)|
    ≤ 1 / 2 ^ 50 * |Real.sin (1 / 2 ^ 1040)| := by
  have h := (C55_relative_double_partial trigEnv rfl [lit D 1 (-1040), lit D 1 40, 0x7ff8000000000001]).1
  have a := (litD 1 (-1040) (2 ^ (-1040 : ℤ)) (M := 1 / 2) (by decide) (by decide) (by ring)
    (by rw [abs_of_pos (by positivity)]; exact (zpow_le_zpow_right₀ (by norm_num) (show (-1040 : ℤ) ≤ -1 by norm_num)).trans (by norm_num)))
  have b := a.mag
  have e : (2 : ℚ) ^ (-1040 : ℤ) = 1 / 2 ^ 1040 := by rw [zpow_neg, one_div]; rfl
  unfold Fmt.RelApprox at h
  generalize sinD trigEnv [lit D 1 (-1040), lit D 1 40, 0x7ff8000000000001] = ys at h
  cases h with
  | cons h _ =>
    have := (h a.fin (by rw [a.toNear.eq]; exact b.trans (by norm_num))).2
    rw [a.toNear.eq, e] at this
    push_cast at this
    exact this

/-! ## Special operands -/

/-- C55: infinities and NaN give NaN, in any rounding mode and whatever the other elements are. -/
theorem C55_notFinite (E : Trig.Env) (hs : ∀ x, ¬ D.isFinite x → D.isNaN (E.libmSin x)) (hc : ∀ x, ¬ D.isFinite x → D.isNaN (E.libmCos x))
    (chunks : List Nat) (xs : List F.Bits) (h : chunks.sum = xs.length) (ds : List D.Bits) :
    List.Forall₂ (fun x y => ¬ D.isFinite x → D.isNaN y) ds (sinD E ds) ∧ List.Forall₂ (fun x y => ¬ D.isFinite x → D.isNaN y) ds (cosD E ds) ∧
    List.Forall₂ (fun x y => ¬ F.isFinite x → F.isNaN y) xs (sinF E chunks xs) ∧ List.Forall₂ (fun x y => ¬ F.isFinite x → F.isNaN y) xs (cosF E chunks xs) :=
  ⟨sinD_bad E ds, cosD_bad E ds, sinF_bad E hs chunks xs h, cosF_bad E hc chunks xs h⟩

/-- C55: `sin(±0)` is `±0` and `cos(±0)` is 1, unless results are rounded down. -/
theorem C55_zero (E : Trig.Env) (hm : E.mode ≠ .down) (hs : ∀ x, D.isZero x → E.libmSin x = x)
    (hc : ∀ x, D.isZero x → D.isFinite (E.libmCos x) ∧ D.ratValue (E.libmCos x) = 1)
    (chunks : List Nat) (xs : List F.Bits) (h : chunks.sum = xs.length) (ds : List D.Bits) :
    List.Forall₂ (fun x y => D.isZero x → y = x) ds (sinD E ds) ∧
    List.Forall₂ (fun x y => D.isZero x → D.isFinite y ∧ D.ratValue y = 1) ds (cosD E ds) ∧
    List.Forall₂ (fun x y => F.isZero x → y = x) xs (sinF E chunks xs) ∧
    List.Forall₂ (fun x y => F.isZero x → F.isFinite y ∧ F.ratValue y = 1) xs (cosF E chunks xs) :=
  ⟨sinD_zero E hm ds, cosD_zero E hm ds, sinF_zero E hm hs chunks xs h, cosF_zero E hm hc chunks xs h⟩

/-- The assumptions on the C library can be met. -/
example : (∀ x, ¬ D.isFinite x → D.isNaN (trigEnv.libmSin x)) ∧ (∀ x, ¬ D.isFinite x → D.isNaN (trigEnv.libmCos x)) ∧
    (∀ x, D.isZero x → trigEnv.libmSin x = x) ∧ (∀ x, D.isZero x → D.isFinite (trigEnv.libmCos x) ∧ D.ratValue (trigEnv.libmCos x) = 1) :=
  ⟨fun x => trig_head (sinD_bad trigEnv0 [x]), fun x => trig_head (cosD_bad trigEnv0 [x]), fun x => trig_head (sinD_zero trigEnv0 (by decide) [x]),
    fun x => trig_head (cosD_zero trigEnv0 (by decide) [x])⟩
example : ¬ D.isFinite 0xfff0000000000000 ∧ D.isZero 0x8000000000000000 ∧ ¬ F.isFinite 0x7f800001 ∧ F.isZero 0 := by decide
/-- Rounding down makes `-0` of `sin(0)`. -/
theorem C55_zero_down_false : ∃ E : Trig.Env, E.mode = .down ∧ sinD E [0, 0] = [0x8000000000000000, 0x8000000000000000] :=
  ⟨{ trigEnv0 with mode := .down }, rfl, by decide +kernel⟩

/-- The elements with `true` negated. -/
def negated (f : Fmt) (bs : List Bool) (xs : List f.Bits) : List f.Bits := List.zipWith (fun b x => if b then Fmt.neg x else x) bs xs

/-- C55: `sin` is odd and `cos` even, element by element and bit by bit, for every element, in any rounding mode. -/
theorem C55_parity_double (E : Trig.Env) (bs : List Bool) (xs : List D.Bits) (h : bs.length = xs.length) :
    sinD E (negated D bs xs) = negated D bs (sinD E xs) ∧ cosD E (negated D bs xs) = cosD E xs := by
  have e := foldD_abs E (negate_abs h)
  constructor
  · show sinD E (negate D bs xs) = negate D bs (sinD E xs)
    unfold sinD
    rw [sinEnd_eq, sinEnd_eq, e, zipWith_negate]
  · show cosD E (negate D bs xs) = cosD E xs
    unfold cosD
    rw [e]

theorem any_negate {bs : List Bool} {xs : List F.Bits} (h : bs.length = xs.length) (P : F.Bits → Bool) :
    ((negate F bs xs).any fun x => P (FloatBits.abs F x)) = xs.any fun x => P (FloatBits.abs F x) := by
  have := congrArg (fun l => l.any P) (negate_abs h)
  simpa [List.any_map, Function.comp_def] using this

/-- C55: the same of `float` bit by bit and in any rounding mode, if no element is computed with `double`. -/
theorem C55_parity_float_partial (E : Trig.Env) (chunks : List Nat) (bs : List Bool) (xs : List F.Bits) (h : bs.length = xs.length)
    (hb : ∀ x ∈ xs, F.isFinite x ∧ |F.ratValue x| < 393382) :
    sinF E chunks (negated F bs xs) = negated F bs (sinF E chunks xs) ∧ cosF E chunks (negated F bs xs) = cosF E chunks xs := by
  have e := foldF_abs E (negate_abs h)
  have no : ∀ n : ℤ, 393382 ≤ n → |n| < 2 ^ 24 → ¬ (xs.any fun x => F.le (lit F n 0) (FloatBits.abs F x)) = true := by
    intro n hn hn2 hany
    obtain ⟨x, hx, h1⟩ := List.any_eq_true.1 hany
    have hl := (litF1 n 0 n (M := |(n : ℚ)|) hn2 (by decide) (by norm_num) le_rfl).toNear
    rw [FloatBits.le_finite goodF.ok hl.fin (abs_fin (hb x hx).1), hl.eq, FloatBits.ratValue_abs] at h1
    have h2 := of_decide_eq_true h1
    have h3 := (hb x hx).2
    have h4 : (393382 : ℚ) ≤ n := by exact_mod_cast hn
    linarith
  constructor
  · show sinF E chunks (negate F bs xs) = negate F bs (sinF E chunks xs)
    unfold sinF
    rw [any_negate h (fun a => F.le (lit F 527449 0) a), if_neg (no _ (by norm_num) (by decide)), if_neg (no _ (by norm_num) (by decide)),
      sinEnd_eq, sinEnd_eq, e, zipWith_negate]
  · show cosF E chunks (negate F bs xs) = cosF E chunks xs
    unfold cosF
    rw [any_negate h (fun a => F.le (lit F 393382 0) a), if_neg (no _ (by norm_num) (by decide)), if_neg (no _ (by norm_num) (by decide)), e]

/-- C55: the same of `float` whatever the elements are, up to the bits of NaN, if rounding does not depend on the sign and the functions of the C
library, which compute elements left over, are odd and even. -/
theorem C55_parity_float (E : Trig.Env) (hm : E.mode = .nearest ∨ E.mode = .zero) (hs : ∀ x, E.libmSin (Fmt.neg x) = Fmt.neg (E.libmSin x))
    (hc : ∀ x, E.libmCos (Fmt.neg x) = E.libmCos x) (chunks : List Nat) (bs : List Bool) (xs : List F.Bits) (h : bs.length = xs.length)
    (hch : chunks.sum = xs.length) (hn : ∀ x ∈ xs, ¬ F.isNaN x) :
    List.Forall₂ (fun y z => y = z ∨ F.isNaN y ∧ F.isNaN z) (sinF E chunks (negated F bs xs)) (negated F bs (sinF E chunks xs)) ∧
    cosF E chunks (negated F bs xs) = cosF E chunks xs := by
  have e := foldF_abs E (negate_abs h)
  constructor
  · show List.Forall₂ SameF (sinF E chunks (negate F bs xs)) (negate F bs (sinF E chunks xs))
    unfold sinF
    rw [any_negate h (fun a => F.le (lit F 527449 0) a)]
    split
    · rw [widen_negate E hm hn]
      rw [chunked_parity true hs (fun xs => (sinD_bad E xs).length_eq.symm) (fun bs xs hl => (C55_parity_double E bs xs hl).1) chunks bs _
        (by rw [List.length_map]; exact hch) (by rw [List.length_map]; exact h)]
      exact narrow_negate E hm bs _
    · rw [sinEnd_eq, sinEnd_eq, e, zipWith_negate]
      exact List.forall₂_same.2 fun _ _ => Or.inl rfl
  · show cosF E chunks (negate F bs xs) = cosF E chunks xs
    unfold cosF
    rw [any_negate h (fun a => F.le (lit F 393382 0) a)]
    split
    · rw [widen_negate E hm hn]
      rw [chunked_parity false hc (fun xs => (cosD_bad E xs).length_eq.symm) (fun bs xs hl => (C55_parity_double E bs xs hl).2) chunks bs _
        (by rw [List.length_map]; exact hch) (by rw [List.length_map]; exact h)]
      rfl
    · rw [e]

/-- The C library of the examples is odd and even; elements computed with `double`, among them an infinity. -/
example : (∀ x, trigEnv.libmSin (Fmt.neg x) = Fmt.neg (trigEnv.libmSin x)) ∧ (∀ x, trigEnv.libmCos (Fmt.neg x) = trigEnv.libmCos x) := by
  refine ⟨fun x => ?_, fun x => congrArg (·.headD 0) (C55_parity_double trigEnv0 [true] [x] rfl).2⟩
  have h := congrArg (·.headD 0) (C55_parity_double trigEnv0 [true] [x] rfl).1
  obtain ⟨y, hy⟩ : ∃ y, sinD trigEnv0 [x] = [y] := List.length_eq_one_iff.1 (sinD_bad trigEnv0 [x]).length_eq.symm
  rw [hy] at h
  show (sinD trigEnv0 [Fmt.neg x]).headD 0 = Fmt.neg ((sinD trigEnv0 [x]).headD 0)
  rw [hy]; exact h
example : ¬ F.isNaN 0x4f000000 ∧ F.le (lit F 527449 0) (FloatBits.abs F 0x4f000000) ∧ ¬ F.isNaN 0xff800000 := by decide +kernel

example : sinD trigEnv (negated D [true, false] [lit D 3 0, lit D 5 60]) = negated D [true, false] (sinD trigEnv [lit D 3 0, lit D 5 60]) :=
  (C55_parity_double trigEnv [true, false] [lit D 3 0, lit D 5 60] rfl).1
example : F.isFinite 0x42280000 ∧ |F.ratValue 0x42280000| < 393382 := by decide +kernel

/-! ## Large elements -/

/-- C55 is false of large elements: `sin(1e20)` is greater than 1. -/
theorem C55_large_false : ∃ (E : Trig.Env) (xs : List D.Bits), E.mode = .nearest ∧ (∀ x ∈ xs, D.isFinite x ∧ D.ratValue x = 10 ^ 20) ∧
    ∀ y, (y ∈ sinD E xs ∨ y ∈ cosD E xs) → D.isFinite y ∧ 10 ^ 30 < |D.ratValue y| := by
  refine ⟨trigEnv0, [0x4415AF1D78B58C40, 0x4415AF1D78B58C40], rfl, ?_, ?_⟩
  · intro x hx
    have hx : x = 0x4415AF1D78B58C40 := by simpa using hx
    subst hx
    decide +kernel
  have h1 : ((sinD trigEnv0 [0x4415AF1D78B58C40, 0x4415AF1D78B58C40]).all fun y => decide (D.isFinite y ∧ 10 ^ 30 < |D.ratValue y|)) = true := by decide +kernel
  have h2 : ((cosD trigEnv0 [0x4415AF1D78B58C40, 0x4415AF1D78B58C40]).all fun y => decide (D.isFinite y ∧ 10 ^ 30 < |D.ratValue y|)) = true := by decide +kernel
  intro y hy
  rcases hy with hy | hy
  · exact of_decide_eq_true (List.all_eq_true.1 h1 y hy)
  · exact of_decide_eq_true (List.all_eq_true.1 h2 y hy)

end StdSimd.Props
