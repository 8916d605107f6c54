import Verif.Spec.MixedOps
import Verif.Model.MixedCall
/-!
# Model: overload resolution of the operators

The operators are friends of `simd<T, Abi>` (experimental/bits/simd.h:5051-5117) and, for integral `T`, of its base class
`_SimdIntOperators` (4767-4885); they are found for an expression if one of its operands has this type.
-/
namespace StdSimd.MixedOps
open Spec Spec.MixedCall MixedCall

variable (p : Platform)

/-- The operators `% & | ^ << >>` exist for integral types only (`_SimdIntOperators<…, conjunction<is_integral<_Tp>, …>>`,
simd.h:4769-4772, 4890-4893); the others for all types. -/
inductive Family where
  | any
  | integral
  deriving DecidableEq

/-- The class has operators of this family. -/
def has (o : Family) (t : CType) : Bool := o == .any || !p.isFloat t

/-- The friend `operator@(const simd&, const simd&)` of the class of one operand is viable (simd.h:5070-5117, 4806-4841). -/
def friendOf (o : Family) (z x y : Arg) : Option (CType × AbiTag) :=
  match z with
  | .simd t a => if has p o t && convertible p t a x && convertible p t a y then some (t, a) else none
  | .scalar _ => none

/-- Overload resolution for `x @ y`: argument-dependent lookup finds the friends of both operands' classes.  Two different viable friends are
ambiguous: each converts the operand that the other one takes as it is. -/
def binary (o : Family) (x y : Arg) : Option (CType × AbiTag) :=
  match friendOf p o x x y, friendOf p o y x y with
  | some v, some w => if v = w then some v else none
  | some v, none => some v
  | none, w => w

/-- `x @= y` (simd.h:5052-5068, 4782-4804): the left operand is taken by reference to a non-const object and not converted. -/
def compound (o : Family) (x y : Arg) : Option (CType × AbiTag) :=
  match x with
  | .simd t a => if has p o t && convertible p t a y then some (t, a) else none
  | .scalar _ => none

/-- What a shift expression does: shift the elements of a `simd<t, a>` object by the elements of another one, or by one `int`. -/
inductive Shift where
  | elementwise (t : CType) (a : AbiTag)
  | byInt (t : CType) (a : AbiTag)
  deriving DecidableEq

/-- `x << y` and `x >> y` (simd.h:4830-4880).  The overload with a second parameter `int` is viable for every arithmetic type of `y`, by a
standard conversion; it is better than the one that converts `y` to a `simd` object (a user-defined conversion). -/
def shift (x y : Arg) : Option Shift :=
  match x, y with
  | .simd t a, .scalar _ => if has p .integral t then some (.byInt t a) else none
  | _, _ => (binary p .integral x y).map fun v => .elementwise v.1 v.2

/-- The `int` that an operand of integer type with value `n` becomes ([conv.integral]). -/
def count (n : ℤ) : ℤ := Platform.wrap true p.intW n

/-- `simd_mask<u, b>` is implicitly convertible to `simd_mask<t, a>` (simd.h:4346-4353; `_GLIBCXX_SIMD_ENABLE_IMPLICIT_MASK_CAST` is not
defined). -/
def maskConvertible (t : CType) (a : AbiTag) (u : CType) (b : AbiTag) : Bool :=
  (u == t && b == a) ||
    match a, b with
    | .fixed n, .fixed m => n == m
    | _, _ => false

/-- `k @ l` for masks and `@` one of `&& || & | ^ == !=` (simd.h:4440-4498); overload resolution as for `binary`. -/
def maskBinary (k l : CType × AbiTag) : Option (CType × AbiTag) :=
  if k = l then some k
  else
    match maskConvertible k.1 k.2 l.1 l.2, maskConvertible l.1 l.2 k.1 k.2 with
    | true, false => some k
    | false, true => some l
    | _, _ => none

/-- `k @= l` for masks and `@` one of `& | ^` (simd.h:4466-4485). -/
def maskCompound (k l : CType × AbiTag) : Option (CType × AbiTag) := if maskConvertible k.1 k.2 l.1 l.2 then some k else none

end StdSimd.MixedOps
