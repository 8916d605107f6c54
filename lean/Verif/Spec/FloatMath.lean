import Verif.Spec.FloatArith
/-!
# Specification: multiplication, square root, and the results of `frexp`, `logb`, `modf`, `copysign`, `hypot`

The descriptions of the functions are those of the C standard (7.12 and Annex F).  Nothing here refers to the model.
-/
namespace StdSimd.Spec
namespace Fmt
variable {f : Fmt} (env : f.Env)

/-- `x * y` of IEEE 754. -/
def mul (x y : f.Bits) : f.Bits :=
  if f.isNaN x ∨ f.isNaN y then env.nan x y
  else if f.isInf x ∨ f.isInf y then (if f.isZero x ∨ f.isZero y then env.nan x y else f.ofMag (f.sign x ^^ f.sign y) f.infMag)
  else f.round env.mode (f.sign x ^^ f.sign y) (f.ratValue x * f.ratValue y)

/-- `m` and `e` are a result of `frexp(x, &e)`: for a number other than zero `x = m * 2 ^ e` with `1 / 2 ≤ |m| < 1`; zero, infinities and
NaNs are returned unchanged, and the exponent of zero is zero. -/
structure IsFrexp (f : Fmt) (x m : f.Bits) (e : ℤ) : Prop where
  number : f.isFinite x → ¬ f.isZero x → f.isFinite m ∧ 1 / 2 ≤ |f.ratValue m| ∧ |f.ratValue m| < 1 ∧ f.ratValue m * 2 ^ e = f.ratValue x
  zero : f.isZero x → m = x ∧ e = 0
  other : ¬ f.isFinite x → m = x

/-- `r` is the result of `logb(x)`: the exponent of the greatest power of two not above `|x|`; `-∞` for zero, `+∞` for infinities. -/
structure IsLogb (f : Fmt) (x r : f.Bits) : Prop where
  number : f.isFinite x → ¬ f.isZero x → f.isFinite r ∧ ∃ e : ℤ, f.ratValue r = e ∧ (2 : ℚ) ^ e ≤ |f.ratValue x| ∧ |f.ratValue x| < 2 ^ (e + 1)
  zero : f.isZero x → f.isInf r ∧ f.sign r = true
  inf : f.isInf x → f.isInf r ∧ f.sign r = false
  nan : f.isNaN x → f.isNaN r

/-- `ip` and `fr` are the results of `modf(x, &ip)`: the integral part (rounded towards zero) and the fractional part, which has the sign of
`x`; of an infinity the fractional part is zero. -/
structure IsModf (f : Fmt) (x ip fr : f.Bits) : Prop where
  number : f.isFinite x → f.isFinite ip ∧ f.isFinite fr ∧ f.ratValue ip = truncZ (f.ratValue x) ∧ f.ratValue ip + f.ratValue fr = f.ratValue x ∧
    |f.ratValue fr| < 1
  inf : f.isInf x → ip = x ∧ f.isZero fr
  nan : f.isNaN x → f.isNaN ip ∧ f.isNaN fr
  sign : f.sign fr = f.sign x

/-- `r` has the magnitude of `x` and the sign of `y`, for every `x` and `y` (also NaNs). -/
structure IsCopysign (f : Fmt) (x y r : f.Bits) : Prop where
  expo : f.expo r = f.expo x
  mant : f.mant r = f.mant x
  sign : f.sign r = f.sign y

/-- Round the square root of a nonnegative number to an integer. -/
def _root_.StdSimd.Spec.RMode.sqrt (m : RMode) (q : ℚ) : ℕ :=
  let s := Nat.sqrt ⌊q⌋.toNat                                      -- the greatest `s` with `s ^ 2 ≤ q`
  match m with
  | .down | .zero => s
  | .up => if (s : ℚ) ^ 2 = q then s else s + 1
  | .nearest =>
    if q < (s + 1 / 2 : ℚ) ^ 2 then s else if (s + 1 / 2 : ℚ) ^ 2 < q then s + 1 else if Even s then s else s + 1

/-- Exponent of the last significand bit of the square root of `q`. -/
def sqrtExp (f : Fmt) (q : ℚ) : ℤ := max (Int.log 2 q / 2 - f.mbits) f.emin

/-- The square root of `q`, correctly rounded. -/
def sqrtTo (f : Fmt) (m : RMode) (q : ℚ) : ℚ := m.sqrt (q / 2 ^ (2 * f.sqrtExp q)) * 2 ^ f.sqrtExp q

/-- `sqrt(x)` of IEEE 754. -/
def sqrt (x : f.Bits) : f.Bits :=
  if f.isNaN x then env.nan x x
  else if f.isZero x then x
  else if f.sign x then env.nan x x
  else if f.isInf x then x
  else f.ofMag false (f.encode (f.sqrtTo env.mode (f.ratValue x)))

/-- `x * y + z` with one rounding (fused multiply-add of IEEE 754). -/
def fma (x y z : f.Bits) : f.Bits :=
  if f.isNaN x ∨ f.isNaN y ∨ f.isNaN z then env.nan x z
  else if f.isInf x ∨ f.isInf y then
    (if f.isZero x ∨ f.isZero y ∨ (f.isInf z ∧ f.sign z ≠ (f.sign x ^^ f.sign y)) then env.nan x z else f.ofMag (f.sign x ^^ f.sign y) f.infMag)
  else if f.isInf z then z
  else f.round env.mode (if (f.sign x ^^ f.sign y) = f.sign z then f.sign z else decide (env.mode = .down))
    (f.ratValue x * f.ratValue y + f.ratValue z)

/-- The relative error of one rounded operation: half a unit in the last place if rounding to nearest, one unit otherwise. -/
def unitRoundoff (f : Fmt) (m : RMode) : ℚ := (if m = .nearest then 1 / 2 else 1) / 2 ^ f.mbits

/-- The exact sum of the squares of finite numbers. -/
def sumSq (f : Fmt) (xs : List f.Bits) : ℚ := (xs.map fun x => f.ratValue x ^ 2).sum

/-- `r` is an acceptable result of `hypot` for operands `xs`:
* infinity if one of the operands is infinite, even if others are NaNs (C Annex F.10.4.3),
* otherwise NaN if one of them is a NaN,
* the exact result if all but one of them are zero,
* otherwise `r` is the rounding of a number `v` whose square differs from the sum of squares by at most `c` units of roundoff,
* and is finite unless the exact result is (within that error) out of range. -/
structure IsHypot (f : Fmt) (m : RMode) (c : ℚ) (xs : List f.Bits) (r : f.Bits) : Prop where
  inf : (∃ x ∈ xs, f.isInf x) → f.isInf r ∧ f.sign r = false
  nan : (¬ ∃ x ∈ xs, f.isInf x) → (∃ x ∈ xs, f.isNaN x) → f.isNaN r
  zero : ∀ as x bs, xs = as ++ x :: bs → f.isFinite x → (∀ y ∈ as ++ bs, f.isZero y) →
    f.isFinite r ∧ f.sign r = false ∧ f.ratValue r = |f.ratValue x|
  accurate : (∀ x ∈ xs, f.isFinite x) →
    ∃ v : ℚ, 0 ≤ v ∧ |v ^ 2 - f.sumSq xs| ≤ c * f.unitRoundoff m * f.sumSq xs ∧ r = f.round m false v
  finite : (∀ x ∈ xs, f.isFinite x) → (1 + c * f.unitRoundoff m) * f.sumSq xs < (2 ^ (f.bias + 1)) ^ 2 → f.isFinite r

end Fmt
end StdSimd.Spec
