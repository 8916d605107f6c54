import Verif.Spec.CTypes
import Verif.Spec.Arith
/-!
# Specification: integer expressions of C++

What the built-in operators do with operands of integer types that already have the common type of the expression ([expr.add],
[expr.mul], [expr.shift], [expr.bit.and] ..., C++17), and integral conversions.  Undefined behaviour is `none`.  Nothing here refers
to the model.
-/
namespace StdSimd.Spec

/-- Signedness and width of an integer type of a platform (0 bits for floating-point types, which do not occur here). -/
def Platform.width (p : Platform) (t : CType) : Nat :=
  match p.kind t with
  | .int _ w => w
  | .float _ => 0

/-- An element of type `t`: its bits. -/
abbrev Platform.Elem (p : Platform) (t : CType) : Type := BitVec (p.width t)

/-- The value of an element of type `t`. -/
def Platform.val (p : Platform) (t : CType) (a : p.Elem t) : Int := value (p.isSigned t) a

/-- Integral conversion ([conv.integral]): the value of type `u` that is congruent to the value of `a` modulo 2^n. -/
def Platform.convert (p : Platform) (t u : CType) (a : p.Elem t) : p.Elem u := BitVec.ofInt _ (p.val t a)

/-- The binary operators with operands of one common type. -/
inductive IOp where
  | add | sub | mul | div | mod | and | or | xor
  deriving DecidableEq

/-- The result `r` of an operation as a value of an integer type: signed overflow is undefined ([expr.pre]), unsigned arithmetic is
modulo 2^w ([basic.fundamental]). -/
def fit (s : Bool) (w : Nat) (r : Int) : Option (BitVec w) :=
  if s = true ∧ ¬ InRange s w r then none else some (BitVec.ofInt w r)

/-- A binary expression whose operands have been converted to the common type. -/
def IOp.eval (s : Bool) {w : Nat} : IOp → BitVec w → BitVec w → Option (BitVec w)
  | .add, a, b => fit s w (value s a + value s b)
  | .sub, a, b => fit s w (value s a - value s b)
  | .mul, a, b => fit s w (value s a * value s b)
  | .div, a, b => if b = 0#w then none else fit s w ((value s a).tdiv (value s b))
  | .mod, a, b =>
    if b = 0#w ∨ fit s w ((value s a).tdiv (value s b)) = none then none else fit s w ((value s a).tmod (value s b))
  | .and, a, b => some (a &&& b)
  | .or, a, b => some (a ||| b)
  | .xor, a, b => some (a ^^^ b)

/-- `-a` and `~a` for an operand of promoted type ([expr.unary.op]). -/
def negE (s : Bool) {w : Nat} (a : BitVec w) : Option (BitVec w) := fit s w (-(value s a))
def complE {w : Nat} (a : BitVec w) : Option (BitVec w) := some (~~~a)

/-- `a << n` ([expr.shift], C++17): the shift count is at least 0 and smaller than the width; a signed left operand is not negative
and the result representable in the corresponding unsigned type. -/
def shlE (s : Bool) {w : Nat} (a : BitVec w) (n : Int) : Option (BitVec w) :=
  if n < 0 ∨ (w : Int) ≤ n then none
  else if s = true ∧ (value s a < 0 ∨ 2 ^ w ≤ value s a * 2 ^ n.toNat) then none
  else some (BitVec.ofInt w (value s a * 2 ^ n.toNat))

/-- `a >> n` ([expr.shift]): the quotient by 2^n; for negative values implementation-defined, with GCC rounded down. -/
def shrE (s : Bool) {w : Nat} (a : BitVec w) (n : Int) : Option (BitVec w) :=
  if n < 0 ∨ (w : Int) ≤ n then none else some (BitVec.ofInt w (value s a / 2 ^ n.toNat))

example : IOp.eval true .add 100#8 27#8 = some 127#8 ∧ IOp.eval true .add 100#8 28#8 = none ∧
    IOp.eval false .add 200#8 100#8 = some 44#8 := by decide
example : IOp.eval true .div 0x80#8 0xff#8 = none ∧ IOp.eval true .mod 0x80#8 0xff#8 = none ∧
    IOp.eval true .mod 0xf9#8 2#8 = some 0xff#8 := by decide
example : shlE true 1#8 7 = some 0x80#8 ∧ shlE true 1#8 8 = none ∧ shlE true 0xff#8 1 = none ∧ shlE false 0xff#8 1 = some 0xfe#8 := by
  decide

end StdSimd.Spec
