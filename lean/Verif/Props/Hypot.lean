import Verif.Proofs.Hypot
import Verif.Props.Math
/-!
# C51 `hypot`

For `float` and `double`, in every rounding direction, for every vector of every length, and whichever of the multiplications and additions
the compiler fuses (`sumForms`, `addForms`).  `Fmt.IsHypot f m c xs r` (Spec/FloatMath) says that `r` is a right result for operands `xs`
with an error of at most `c` units of roundoff in the sum of squares (so `c / 2` in the result), before the final rounding.
-/
namespace StdSimd.Props
open Spec FloatBits Rounding Math Hypot

variable {f : Fmt} (env : f.Env)

private theorem hok (hf : f = ⟨8, 23⟩ ∨ f = ⟨11, 52⟩) : HOk f := by rcases hf with rfl | rfl; exacts [hok32, hok64]

/-- C51. Two operands: every element of the result is right: infinities, NaNs, zeros, error bound, and no overflow or underflow of
intermediate results. -/
theorem C51_hypot (hf : f = ⟨8, 23⟩ ∨ f = ⟨11, 52⟩) {ss : f.Bits → f.Bits → f.Bits} (hss : ss ∈ sumForms env) {qnan : f.Bits}
    (hq : f.isNaN qnan) {nrm : f.Bits → Bool} (hn : ∀ x, nrm x = decide (f.isNormal x)) (xs ys : List f.Bits) (hl : xs.length = ys.length) :
    List.Forall₂ (fun p r => f.IsHypot env.mode 5 [p.1, p.2] r) (xs.zip ys) (hypot env ss qnan nrm xs ys) := by
  rw [hypot_eq env (hok hf) qnan hn]
  induction xs generalizing ys with
  | nil => simp
  | cons x xs ih =>
    cases ys with
    | nil => simp at hl
    | cons y ys =>
      simp only [List.zip_cons_cons, List.zipWith_cons_cons]
      exact List.Forall₂.cons (slow_spec env (hok hf) hss hq x y) (ih ys (by simpa using hl))

/-- C51. Two operands: an element of the result depends only on the corresponding elements of the operands (not on the path that the vector
as a whole takes), is symmetric in them and does not depend on their signs. -/
theorem C51_hypot_elementwise (hf : f = ⟨8, 23⟩ ∨ f = ⟨11, 52⟩) (ss : f.Bits → f.Bits → f.Bits) (qnan : f.Bits) {nrm : f.Bits → Bool}
    (hn : ∀ x, nrm x = decide (f.isNormal x)) : ∃ h : f.Bits → f.Bits → f.Bits,
      (∀ xs ys, hypot env ss qnan nrm xs ys = List.zipWith h xs ys) ∧ (∀ x y, h x y = h y x) ∧ (∀ x y, h (Fmt.neg x) y = h x y) := by
  refine ⟨slow env ss qnan, hypot_eq env (hok hf) qnan hn, slow_comm env (hok hf).ok ss qnan, fun x y => ?_⟩
  refine slow_abs env (hok hf).ok ss qnan ?_ rfl
  apply bits_ext
  · rw [sign_abs, sign_abs]
  · rw [mag_abs, mag_abs]; exact mag_neg x

/-- C51. Three operands: every element of the result is right. -/
theorem C51_hypot3 (hf : f = ⟨8, 23⟩ ∨ f = ⟨11, 52⟩) {ss as : f.Bits → f.Bits → f.Bits} (hss : ss ∈ sumForms env) (has : as ∈ addForms env)
    {qnan : f.Bits} (hq : f.isNaN qnan) {nrm : f.Bits → Bool} (hn : ∀ x, nrm x = decide (f.isNormal x)) (xs : List (f.Bits × f.Bits × f.Bits)) :
    List.Forall₂ (fun p r => f.IsHypot env.mode 6 [p.1, p.2.1, p.2.2] r) xs (hypot3 env ss as qnan nrm xs) :=
  hypot3_spec env (hok hf) hss has hq hn xs

/-- C51. Three operands, rounding to nearest: an element of the result depends only on the corresponding elements of the operands. -/
theorem C51_hypot3_elementwise_partial (hf : f = ⟨8, 23⟩ ∨ f = ⟨11, 52⟩) (hm : env.mode = .nearest) {ss as : f.Bits → f.Bits → f.Bits}
    (hss : ss ∈ sumForms env) (has : as ∈ addForms env) (qnan : f.Bits) {nrm : f.Bits → Bool} (hn : ∀ x, nrm x = decide (f.isNormal x)) :
    ∃ h : f.Bits → f.Bits → f.Bits → f.Bits, ∀ xs, hypot3 env ss as qnan nrm xs = xs.map fun p => h p.1 p.2.1 p.2.2 :=
  ⟨slow3 env ss as qnan, hypot3_eq env (hok hf) hm hss has qnan hn⟩

/-! ## Where C51 is wrong -/

private abbrev ed := env32 .down
private abbrev ss0 : b32.Bits → b32.Bits → b32.Bits := fun h l => Fmt.add ed (Fmt.mul ed h h) (Fmt.mul ed l l)
private abbrev as0 : b32.Bits → b32.Bits → b32.Bits := fun lo h => Fmt.add ed lo (Fmt.mul ed h h)

-- the square root of 1 + 2 ^ -22, rounded down
private theorem sqrt_val : Fmt.sqrt ed 0x3f800002#32 = 0x3f800000#32 := by
  have h : Nat.sqrt 70368760954880 = 8388608 := (Nat.eq_sqrt.2 ⟨by norm_num, by norm_num⟩).symm
  have h1 : b32.ratValue 0x3f800002#32 / 2 ^ (2 * b32.sqrtExp (b32.ratValue 0x3f800002#32)) = 70368760954880 := by decide +kernel
  have h2 : b32.sqrtTo .down (b32.ratValue 0x3f800002#32) = 8388608 * 2 ^ b32.sqrtExp (b32.ratValue 0x3f800002#32) := by
    unfold Fmt.sqrtTo
    rw [h1]
    show ((Nat.sqrt ⌊(70368760954880 : ℚ)⌋.toNat : ℕ) : ℚ) * _ = _
    rw [show ⌊(70368760954880 : ℚ)⌋.toNat = 70368760954880 by decide +kernel, h]; norm_num
  unfold Fmt.sqrt
  rw [if_neg (by decide +kernel), if_neg (by decide +kernel), if_neg (by decide +kernel), if_neg (by decide +kernel)]
  rw [show ed.mode = .down from rfl, h2]
  decide +kernel

-- the parts of `fast3` that the kernel evaluates, without the square root
private def exp3 (x y z : b32.Bits) : b32.Bits := hi3 x y z &&& infBits b32
private def arg3 (x y z : b32.Bits) : b32.Bits :=
  as0 (ss0 (Fmt.mul ed (lo0 x y z) (invert ed (exp3 x y z))) (Fmt.mul ed (lo1 x y) (invert ed (exp3 x y z)))) (setExponent (hi3 x y z))
private theorem fast3_split (x y z : b32.Bits) : fast3 ed ss0 as0 x y z = Fmt.mul ed (exp3 x y z) (Fmt.sqrt ed (arg3 x y z)) := rfl
private theorem fast3_parts : exp3 0x3f800001#32 0x0d800000#32 0x0d800000#32 = 0x3f800000#32 ∧
    arg3 0x3f800001#32 0x0d800000#32 0x0d800000#32 = 0x3f800002#32 := by decide +kernel

/-- C51 is wrong for three operands in the other rounding directions: with `FE_DOWNWARD`, `hypot(1 + 2 ^ -23, 2 ^ -100, 2 ^ -100)` is 1 if
all elements are normal numbers and `1 + 2 ^ -23` if another element of the vector is zero. -/
theorem C51_hypot3_elementwise_wrong : ¬ ∃ h : b32.Bits → b32.Bits → b32.Bits → b32.Bits, ∀ xs,
    hypot3 ed ss0 as0 0x7fc00000#32 (FloatBits.isnormal b32) xs = xs.map fun p => h p.1 p.2.1 p.2.2 := by
  rintro ⟨h, hh⟩
  have h1 := hh [(0x3f800001#32, 0x0d800000#32, 0x0d800000#32)]
  have h2 := hh [(0x3f800001#32, 0x0d800000#32, 0x0d800000#32), (0, 0, 0)]
  have e1 : hypot3 ed ss0 as0 0x7fc00000#32 (FloatBits.isnormal b32) [(0x3f800001#32, 0x0d800000#32, 0x0d800000#32)] = [0x3f800000#32] := by
    have a : fast3 ed ss0 as0 0x3f800001#32 0x0d800000#32 0x0d800000#32 = Fmt.mul ed 0x3f800000#32 (Fmt.sqrt ed 0x3f800002#32) := by
      rw [fast3_split, fast3_parts.1, fast3_parts.2]
    unfold hypot3
    rw [if_pos (by decide +kernel)]
    simp only [List.map_cons, List.map_nil]
    rw [a, sqrt_val]
    decide +kernel
  have e2 : (hypot3 ed ss0 as0 0x7fc00000#32 (FloatBits.isnormal b32) [(0x3f800001#32, 0x0d800000#32, 0x0d800000#32), (0, 0, 0)])[0]? =
      some 0x3f800001#32 := by decide +kernel
  rw [h2] at e2
  rw [h1] at e1
  simp only [List.map_cons, List.map_nil, List.getElem?_cons_zero, Option.some.injEq, List.cons.injEq, and_true] at e1 e2
  rw [e1] at e2
  exact absurd e2 (by decide)

/-- C51 is wrong with ARMv7 NEON: `hypot` of an infinity and any finite number is a NaN. -/
theorem C51_armv7_wrong (env : b32.Env) {ss : b32.Bits → b32.Bits → b32.Bits} (hss : ss ∈ sumForms env) {x y : b32.Bits} (hx : b32.isInf x)
    (hy : b32.isFinite y) : b32.isNaN (neon env ss x y) :=
  neon_inf env b32_ok.1 b32_ok.2 (by decide) hss hx hy

/-! ## Instances -/

private abbrev e32 := env32 .nearest
-- the conditions
example : ∀ x : b32.Bits, FloatBits.isnormal b32 x = decide (b32.isNormal x) := fun x => (C34_isnormal b32_ok.1 x).1
example : b32.isNaN 0x7fc00000#32 := by decide +kernel
example : (fun h l => Fmt.fma e32 h h (Fmt.mul e32 l l)) ∈ sumForms e32 := by simp [sumForms]
-- hypot(inf, nan) = inf, hypot(nan, 1) = nan, hypot(-3, 0) = 3
example : hypot e32 (fun h l => Fmt.add e32 (Fmt.mul e32 h h) (Fmt.mul e32 l l)) 0x7fc00000#32 (FloatBits.isnormal b32)
    [0xff800000#32, 0x7fc00001#32, 0xc0400000#32] [0x7fc00000#32, 0x3f800000#32, 0#32] = [0x7f800000#32, 0x7fc00000#32, 0x40400000#32] := by
  decide +kernel
-- the error bound is meaningful: a wrong result for (3, 4) does not satisfy it
example : ¬ b32.IsHypot .nearest 5 [0x40400000#32, 0x40800000#32] 0x40a00004#32 := by
  intro h
  obtain ⟨v, v1, v2, v3⟩ := h.accurate
    (by intro x hx; simp only [List.mem_cons, List.mem_nil_iff, or_false] at hx; rcases hx with rfl | rfl <;> decide +kernel)
  have hs : b32.sumSq [0x40400000#32, 0x40800000#32] = 25 := by decide +kernel
  have hu : b32.unitRoundoff .nearest = 1 / 2 ^ 24 := by decide +kernel
  have he : b32.emin = -149 := by decide
  rw [hs, hu, abs_le] at v2
  have hv : v < 5 + 1 / 2 ^ 20 := by nlinarith [v2.2]
  have hm := (abs_le.1 (round_err (f := b32) .nearest v)).2
  rw [hu, he, abs_of_nonneg v1] at hm
  have h0 : 0 ≤ b32.roundTo .nearest v := (roundTo_sign (f := b32) .nearest).1 v1
  have ht : (2 : ℚ) ^ (-149 : ℤ) ≤ 1 / 2 ^ 24 := by norm_num
  have hval := (round_spec b32_ok.1 .nearest false (q := v) (by
    rw [abs_of_nonneg h0, show b32.bias = 127 by decide]; norm_num at hm hv ht ⊢; linarith)).2
  rw [← v3, show b32.ratValue 0x40a00004#32 = 5 + 1 / 2 ^ 19 by decide +kernel] at hval
  norm_num at hval hm hv ht
  linarith

end StdSimd.Props
