import Verif.Spec.CTypes
import Verif.Spec.Arith
/-!
# Specification: comparing values

What `==`, `!=`, `<`, `<=`, `>`, `>=` mean for two objects of an arithmetic type, in terms of the values of the objects, and what it means for an
object to be the smaller or greater of two or a value limited to a range.  Nothing here refers to the model.
-/
namespace StdSimd.Spec
namespace Kind

/-- Number of bits of an object. -/
def width : Kind → Nat
  | int _ w => w
  | float f => f.width
/-- The bit pattern of an object. -/
abbrev Bits (k : Kind) := BitVec k.width

/-- The value of an object: a number or an infinity; `none` is NaN. -/
def value : (k : Kind) → k.Bits → Option (WithBot (WithTop ℚ))
  | int s _, x => some (((Spec.value s x : ℚ) : WithTop ℚ) : WithBot (WithTop ℚ))
  | float f, x => f.value x

inductive Rel where
  | eq | ne | lt | le | gt | ge
  deriving DecidableEq

/-- The relation between two numbers. -/
def Rel.ofNumbers : Rel → WithBot (WithTop ℚ) → WithBot (WithTop ℚ) → Bool
  | eq, a, b => decide (a = b)
  | ne, a, b => decide (a ≠ b)
  | lt, a, b => decide (a < b)
  | le, a, b => decide (a ≤ b)
  | gt, a, b => decide (a > b)
  | ge, a, b => decide (a ≥ b)

/-- The C++ comparison of two objects: the relation of their values; if one of them is a NaN only `!=` holds. -/
def holds (k : Kind) (r : Rel) (x y : k.Bits) : Bool :=
  match k.value x, k.value y with
  | some a, some b => r.ofNumbers a b
  | _, _ => decide (r = .ne)

/-- `r` is one of `x`, `y` and, unless one of them is a NaN, not greater than either. -/
def Least (k : Kind) (x y r : k.Bits) : Prop :=
  (r = x ∨ r = y) ∧ (k.value x ≠ none → k.value y ≠ none → k.holds .le r x ∧ k.holds .le r y)
/-- `r` is one of `x`, `y` and, unless one of them is a NaN, not less than either. -/
def Greatest (k : Kind) (x y r : k.Bits) : Prop :=
  (r = x ∨ r = y) ∧ (k.value x ≠ none → k.value y ≠ none → k.holds .ge r x ∧ k.holds .ge r y)

/-- `r` is `v` limited to the range from `lo` to `hi`: within the range, equal to `v` if `v` is in the range, else equal to the end of the range
`v` is beyond. -/
def Clamped (k : Kind) (v lo hi r : k.Bits) : Prop :=
  (r = v ∨ r = lo ∨ r = hi) ∧ k.holds .le lo r ∧ k.holds .le r hi ∧
    (k.holds .le lo v → k.holds .le v hi → k.holds .eq r v) ∧
    (k.holds .lt v lo → k.holds .eq r lo) ∧ (k.holds .gt v hi → k.holds .eq r hi)

/-- `std::min(x, y)` ([alg.min.max]): "the smaller value ... the first argument when the arguments are equivalent". -/
def stdMin (k : Kind) (x y : k.Bits) : k.Bits := if k.holds .lt y x then y else x
/-- `std::max(x, y)`: "the larger value ... the first argument when the arguments are equivalent". -/
def stdMax (k : Kind) (x y : k.Bits) : k.Bits := if k.holds .lt x y then y else x
/-- `std::clamp(v, lo, hi)` ([alg.clamp]): "`lo` if `v` is less than `lo`, `hi` if `hi` is less than `v`, otherwise `v`". -/
def stdClamp (k : Kind) (v lo hi : k.Bits) : k.Bits := if k.holds .lt v lo then lo else if k.holds .lt hi v then hi else v

end Kind
end StdSimd.Spec
