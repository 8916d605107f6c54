import Verif.Spec.FloatMath
import Verif.Spec.NumCast
import Mathlib.Analysis.SpecialFunctions.Trigonometric.Basic
/-!
# Specification: division, conversions of one operand

IEEE 754 division; conversion between floating-point formats.  The functions `sin` and `cos` are those of Mathlib.  Nothing here refers to
the model.
-/
namespace StdSimd.Spec
namespace Fmt
variable {f : Fmt} (env : f.Env)

/-- `x / y` of IEEE 754. -/
def div (x y : f.Bits) : f.Bits :=
  if f.isNaN x ∨ f.isNaN y then env.nan x y
  else if f.isInf x then (if f.isInf y then env.nan x y else f.ofMag (f.sign x ^^ f.sign y) f.infMag)
  else if f.isInf y then f.ofMag (f.sign x ^^ f.sign y) 0
  else if f.isZero y then (if f.isZero x then env.nan x y else f.ofMag (f.sign x ^^ f.sign y) f.infMag)
  else f.round env.mode (f.sign x ^^ f.sign y) (f.ratValue x / f.ratValue y)

/-- Conversion to another format; `nan` says which NaN a NaN is converted to. -/
def convert (s d : Fmt) (m : RMode) (nan : s.Bits → d.Bits) (x : s.Bits) : d.Bits :=
  if s.isNaN x then nan x else if s.isInf x then d.ofMag (s.sign x) d.infMag else d.round m (s.sign x) (s.ratValue x)

/-- Element by element, `ys` is within `e` of the real function `g` of `xs`, wherever the element of `xs` is finite and at most `B` in
magnitude; nothing is said of the other elements. -/
def Approx (f : Fmt) (g : ℝ → ℝ) (B : ℚ) (e : ℝ) (xs ys : List f.Bits) : Prop :=
  List.Forall₂ (fun x y => f.isFinite x → |f.ratValue x| ≤ B → f.isFinite y ∧ |(f.ratValue y : ℝ) - g (f.ratValue x)| ≤ e) xs ys

/-- The same of relative errors: `ys` is within `e` times the magnitude of the real function `g` of `xs`. -/
def RelApprox (f : Fmt) (g : ℝ → ℝ) (B : ℚ) (e : ℝ) (xs ys : List f.Bits) : Prop :=
  List.Forall₂ (fun x y => f.isFinite x → |f.ratValue x| ≤ B → f.isFinite y ∧ |(f.ratValue y : ℝ) - g (f.ratValue x)| ≤ e * |g (f.ratValue x)|) xs ys

end Fmt
end StdSimd.Spec
