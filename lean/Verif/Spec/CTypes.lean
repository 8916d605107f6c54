import Verif.Spec.FloatArith
/-!
# Specification: the arithmetic types of C++

The arithmetic types, the values each has on a platform, and the language rules that decide the type of a mixed expression (integral
promotions and usual arithmetic conversions).  Nothing here refers to the model.
-/
namespace StdSimd.Spec

/-- The arithmetic types ([basic.fundamental]). -/
inductive CType where
  | bool | char | schar | uchar | char8 | short | ushort | int | uint | long | ulong | llong | ullong
  | wchar | char16 | char32 | float | double | ldouble
  deriving DecidableEq

/-- What a platform chooses: signedness of `char` and `wchar_t`, widths in bits, floating-point formats. -/
structure Platform where
  charSigned : Bool
  wcharSigned : Bool
  shortW : Nat
  intW : Nat
  longW : Nat
  llongW : Nat
  wcharW : Nat
  flt : Fmt
  dbl : Fmt
  ldbl : Fmt
  /-- Size of an object of type `long double`, in bits. -/
  ldblBits : Nat

/-- An integer type of a signedness and width, or a floating-point type. -/
inductive Kind where
  | int (signed : Bool) (width : Nat)
  | float (f : Fmt)

/-- One format has at least the exponent range and precision of another. -/
def Fmt.Within (f g : Fmt) : Prop := f.ebits ≤ g.ebits ∧ f.mbits ≤ g.mbits
instance (f g : Fmt) : Decidable (f.Within g) := inferInstanceAs (Decidable (_ ∧ _))

namespace Platform

/-- The guarantees of the standard, and: the integers are smaller than the largest floating-point number. -/
structure Ok (p : Platform) : Prop where
  short : 16 ≤ p.shortW
  int : p.shortW ≤ p.intW
  long : p.intW ≤ p.longW
  llong : p.longW ≤ p.llongW
  llong64 : 64 ≤ p.llongW
  wchar : 8 ≤ p.wcharW
  wchar' : p.wcharW ≤ p.llongW
  flt : p.flt.Ok
  dbl : p.flt.Within p.dbl
  ldbl : p.dbl.Within p.ldbl
  ldblBits : p.dbl.width ≤ p.ldblBits
  fltExp : p.flt.mbits < p.flt.bias
  dblExp : p.dbl.mbits < p.dbl.bias
  ldblExp : p.ldbl.mbits < p.ldbl.bias
  range : p.llongW ≤ p.flt.bias

def kind (p : Platform) : CType → Kind
  | .bool => .int false 8
  | .char => .int p.charSigned 8
  | .schar => .int true 8
  | .uchar => .int false 8
  | .char8 => .int false 8
  | .short => .int true p.shortW
  | .ushort => .int false p.shortW
  | .int => .int true p.intW
  | .uint => .int false p.intW
  | .long => .int true p.longW
  | .ulong => .int false p.longW
  | .llong => .int true p.llongW
  | .ullong => .int false p.llongW
  | .wchar => .int p.wcharSigned p.wcharW
  | .char16 => .int false 16
  | .char32 => .int false 32
  | .float => .float p.flt
  | .double => .float p.dbl
  | .ldouble => .float p.ldbl

/-- The least and the greatest value of an integer type. -/
def minOf : Kind → ℤ
  | .int true w => -2 ^ (w - 1)
  | _ => 0
def maxOf : Kind → ℤ
  | .int true w => 2 ^ (w - 1) - 1
  | .int false w => 2 ^ w - 1
  | .float _ => 0

/-- `v` (a number, an infinity, or `none` for NaN) is a value of type `t`. -/
def HasValue (p : Platform) (t : CType) (v : Option (WithBot (WithTop ℚ))) : Prop :=
  match t, p.kind t with
  | .bool, _ => ∃ b : Bool, v = some (((b.toNat : ℚ) : WithTop ℚ) : WithBot (WithTop ℚ))
  | _, .int s w => ∃ n : ℤ, minOf (.int s w) ≤ n ∧ n ≤ maxOf (.int s w) ∧ v = some (((n : ℚ) : WithTop ℚ) : WithBot (WithTop ℚ))
  | _, .float f => ∃ x : f.Bits, f.value x = v

/-- `sizeof`, in bits. -/
def sizeOf (p : Platform) (t : CType) : Nat :=
  match t, p.kind t with
  | .ldouble, _ => p.ldblBits
  | _, .int _ w => w
  | _, .float f => f.width

def isSigned (p : Platform) (t : CType) : Bool :=
  match p.kind t with
  | .int s _ => s
  | .float _ => true

/-- `is_unsigned`: an unsigned integer type or `bool`. -/
def isUnsigned (p : Platform) (t : CType) : Bool := !p.isSigned t

def isFloat (p : Platform) (t : CType) : Bool :=
  match p.kind t with
  | .int _ _ => false
  | .float _ => true

/-- Every value of the integer type `t` is a value of the integer type `u`. -/
def canRepresent (p : Platform) (u t : CType) : Bool := minOf (p.kind u) ≤ minOf (p.kind t) ∧ maxOf (p.kind t) ≤ maxOf (p.kind u)

/-- The first type of a list that can represent all values of `t`. -/
def firstFit (p : Platform) (t : CType) : List CType → CType
  | [] => t
  | u :: us => if p.canRepresent u t then u else p.firstFit t us

/-- Integral promotion ([conv.prom]). -/
def promote (p : Platform) : CType → CType
  | .bool => .int
  | .char => p.firstFit .char [.int, .uint]
  | .schar => p.firstFit .schar [.int, .uint]
  | .uchar => p.firstFit .uchar [.int, .uint]
  | .short => p.firstFit .short [.int, .uint]
  | .ushort => p.firstFit .ushort [.int, .uint]
  | .char8 => p.firstFit .char8 [.int, .uint, .long, .ulong, .llong, .ullong]
  | .wchar => p.firstFit .wchar [.int, .uint, .long, .ulong, .llong, .ullong]
  | .char16 => p.firstFit .char16 [.int, .uint, .long, .ulong, .llong, .ullong]
  | .char32 => p.firstFit .char32 [.int, .uint, .long, .ulong, .llong, .ullong]
  | t => t

/-- Integer conversion rank of the promoted types ([conv.rank]). -/
def rank : CType → Nat
  | .int => 3 | .uint => 3 | .long => 4 | .ulong => 4 | .llong => 5 | .ullong => 5
  | _ => 0

/-- Integer conversion rank of the integer types that are not `wchar_t` or `charN_t` ([conv.rank]); `none` otherwise. -/
def stdRank : CType → Option Nat
  | .char => some 1 | .schar => some 1 | .uchar => some 1
  | .short => some 2 | .ushort => some 2
  | .int => some 3 | .uint => some 3
  | .long => some 4 | .ulong => some 4
  | .llong => some 5 | .ullong => some 5
  | _ => none

def toUnsigned : CType → CType
  | .int => .uint | .long => .ulong | .llong => .ullong | t => t

/-- The common type of two promoted integer types ([expr.arith.conv]). -/
def commonInt (p : Platform) (a b : CType) : CType :=
  if a = b then a
  else if p.isSigned a = p.isSigned b then (if rank a < rank b then b else a)
  else
    let u := if p.isSigned a then b else a
    let s := if p.isSigned a then a else b
    if rank s ≤ rank u then u else if p.canRepresent s u then s else toUnsigned s

/-- The usual arithmetic conversions: the type of `declval<a>() + declval<b>()`. -/
def common (p : Platform) (a b : CType) : CType :=
  if a = .ldouble ∨ b = .ldouble then .ldouble
  else if a = .double ∨ b = .double then .double
  else if a = .float ∨ b = .float then .float
  else p.commonInt (p.promote a) (p.promote b)

/-- The value of an integer converted to a signedness and width. -/
def wrap (s : Bool) (w : Nat) (n : ℤ) : ℤ := if s then n.bmod (2 ^ w) else n % 2 ^ w

/-- `x < y` for a constant `x` of type `a` and a constant `y` of type `b`: both are converted to the common type `c`. -/
def lessIn (p : Platform) (c : CType) (x y : ℚ) : Bool :=
  match p.kind c with
  | .int s w => wrap s w ⌊x⌋ < wrap s w ⌊y⌋
  | .float f => f.lt (f.round .nearest false x) (f.round .nearest false y)

/-- x86-64 Linux. -/
def lp64 : Platform := ⟨true, true, 16, 32, 64, 64, 32, ⟨8, 23⟩, ⟨11, 52⟩, ⟨15, 63⟩, 128⟩
/-- AArch64 Linux. -/
def aarch64 : Platform := ⟨false, false, 16, 32, 64, 64, 32, ⟨8, 23⟩, ⟨11, 52⟩, ⟨15, 112⟩, 128⟩
/-- 32-bit x86 Linux. -/
def ilp32 : Platform := ⟨true, true, 16, 32, 32, 64, 32, ⟨8, 23⟩, ⟨11, 52⟩, ⟨15, 63⟩, 96⟩

end Platform
end StdSimd.Spec
