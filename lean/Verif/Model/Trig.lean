import Verif.Spec.Trig
import Verif.Model.FloatBits
/-!
# Model of `sin` and `cos` (experimental/bits/simd_math.h:191-400, 451-548)

The functions of `simd<float, Abi>` and `simd<double, Abi>` for ABIs that are neither scalar nor `fixed_size`.  A `simd` object is the list
of its elements: which way of reducing the argument is taken depends on all of them.  A `fixed_size` object is computed chunk by chunk
(simd_fixed_size.h:1572-1612), a chunk of one element with the scalar ABI by `std::sin` and `std::cos` (`Env.libmSin`, `Env.libmCos`).

`a * b + c`, `a * b - c` and `c - a * b` may be contracted to one operation by the compiler (`-ffp-contract=fast` is the default of GCC), at
each place separately (`Env.fused`; the numbers are those of the places).  In `__y * (__x2 * __x2) - .5f * __x2` only the contraction with
the first product is modelled.  The literals of the source are representable in the type they are used in, so that no rounding takes place
when they are converted; products of literals are rounded by the compiler, to nearest.
-/
namespace StdSimd.Trig
open Spec FloatBits

/-- `float` and `double`. -/
abbrev F : Fmt := ⟨8, 23⟩
abbrev D : Fmt := ⟨11, 52⟩

/-- What the program leaves open. -/
structure Env where
  mode : RMode
  nanF : F.Bits → F.Bits → F.Bits
  isNaNF : ∀ x y : F.Bits, F.isNaN (nanF x y)
  nanD : D.Bits → D.Bits → D.Bits
  isNaND : ∀ x y : D.Bits, D.isNaN (nanD x y)
  /-- the NaN a NaN is converted to -/
  widenNaN : F.Bits → D.Bits
  isNaNW : ∀ x : F.Bits, F.isNaN x → D.isNaN (widenNaN x)
  narrowNaN : D.Bits → F.Bits
  isNaNN : ∀ x : D.Bits, D.isNaN x → F.isNaN (narrowNaN x)
  /-- whether a multiplication and an addition are contracted -/
  fused : Nat → Bool
  /-- the result of converting to `int` what does not fit (undefined behavior; `INT_MIN` on x86) -/
  undefF : F.Bits → BitVec 32
  undefD : D.Bits → BitVec 32
  /-- `std::sin(double)`, `std::cos(double)` -/
  libmSin : D.Bits → D.Bits
  libmCos : D.Bits → D.Bits

namespace Env
/-- The environments of the operations of `float` and `double`. -/
def F (E : Env) : Trig.F.Env := ⟨E.mode, E.nanF, E.isNaNF⟩
def D (E : Env) : Trig.D.Env := ⟨E.mode, E.nanD, E.isNaND⟩
end Env

section ops
variable {f : Fmt} (env : f.Env)

/-- The literal `m * 2 ^ e`. -/
def lit (f : Fmt) (m e : ℤ) : f.Bits := f.round .nearest false (m * 2 ^ e)

/-- `x * y + z`. -/
def madd (fused : Bool) (x y z : f.Bits) : f.Bits := if fused then Fmt.fma env x y z else Fmt.add env (Fmt.mul env x y) z
/-- `x * y - z`. -/
def msub (fused : Bool) (x y z : f.Bits) : f.Bits :=
  if fused then Fmt.fma env x y (Fmt.neg z) else Fmt.sub env (Fmt.mul env x y) z
/-- `z - x * y`. -/
def nmadd (fused : Bool) (z x y : f.Bits) : f.Bits :=
  if fused then Fmt.fma env (Fmt.neg x) y z else Fmt.sub env z (Fmt.mul env x y)

/-- `nearbyint(x)` (C35). -/
def nearbyint (x : f.Bits) : f.Bits := Fmt.rint env env.mode x

/-- `max(x, y)` and `min(x, y)`. -/
def fmax (x y : f.Bits) : f.Bits := if f.lt x y then y else x
def fmin (x y : f.Bits) : f.Bits := if f.lt y x then y else x

/-- An element of `static_simd_cast<rebind_simd_t<int, _V>>(x)`; `u` if the conversion is undefined. -/
def toInt32 (f : Fmt) (u : f.Bits → BitVec 32) (x : f.Bits) : BitVec 32 :=
  if f.isFinite x ∧ -2 ^ 31 ≤ truncZ (f.ratValue x) ∧ truncZ (f.ratValue x) < 2 ^ 31 then BitVec.ofInt 32 (truncZ (f.ratValue x)) else u x

end ops

/-- Elements of `static_simd_cast` from `float` to `double` and back. -/
def widen (E : Env) (x : F.Bits) : D.Bits := Fmt.convert F D E.mode E.widenNaN x
def narrow (E : Env) (x : D.Bits) : F.Bits := Fmt.convert D F E.mode E.narrowNaN x

/-! ## `__cosSeries`, `__sinSeries` (simd_math.h:191-250) -/

/-- `__cosSeries` of `float` (simd_math.h:193-203). -/
def cosSeriesF (E : Env) (x : F.Bits) : F.Bits :=
  let x2 := Fmt.mul E.F x x
  let y := lit F 0x1a (-16 - 4)
  let y := msub E.F (E.fused 0) y x2 (lit F 0x16c1 (-10 - 12))
  let y := madd E.F (E.fused 1) y x2 (lit F 0x1555556 (-5 - 24))
  Fmt.add E.F (msub E.F (E.fused 2) y (Fmt.mul E.F x2 x2) (Fmt.mul E.F (lit F 1 (-1)) x2)) (lit F 1 0)

/-- `__cosSeries` of `double` (simd_math.h:205-219). -/
def cosSeriesD (E : Env) (x : D.Bits) : D.Bits :=
  let x2 := Fmt.mul E.D x x
  let y := lit D 0x1AC00000000000 (-45 - 52)
  let y := msub E.D (E.fused 3) y x2 (lit D 0x19394000000000 (-37 - 52))
  let y := madd E.D (E.fused 4) y x2 (lit D 0x11EED8C0000000 (-29 - 52))
  let y := msub E.D (E.fused 5) y x2 (lit D 0x127E4FB7400000 (-22 - 52))
  let y := madd E.D (E.fused 6) y x2 (lit D 0x1A01A01A018000 (-16 - 52))
  let y := msub E.D (E.fused 7) y x2 (lit D 0x16C16C16C16C00 (-10 - 52))
  let y := madd E.D (E.fused 8) y x2 (lit D 0x15555555555554 (-5 - 52))
  madd E.D (E.fused 10) (msub E.D (E.fused 9) y x2 (lit D 1 (-1))) x2 (lit D 1 0)

/-- `__sinSeries` of `float` (simd_math.h:223-233). -/
def sinSeriesF (E : Env) (x : F.Bits) : F.Bits :=
  let x2 := Fmt.mul E.F x x
  let y := lit F (-0x19CC000) (-13 - 24)
  let y := madd E.F (E.fused 11) y x2 (lit F 0x1111100 (-7 - 24))
  let y := msub E.F (E.fused 12) y x2 (lit F 0x1555556 (-3 - 24))
  madd E.F (E.fused 13) y (Fmt.mul E.F x2 x) x

/-- `__sinSeries` of `double` (simd_math.h:235-250). -/
def sinSeriesD (E : Env) (x : D.Bits) : D.Bits :=
  let x2 := Fmt.mul E.D x x
  let y := lit D (-0x1ACF0000000000) (-41 - 52)
  let y := madd E.D (E.fused 14) y x2 (lit D 0x16124400000000 (-33 - 52))
  let y := msub E.D (E.fused 15) y x2 (lit D 0x1AE64567000000 (-26 - 52))
  let y := madd E.D (E.fused 16) y x2 (lit D 0x171DE3A5540000 (-19 - 52))
  let y := msub E.D (E.fused 17) y x2 (lit D 0x1A01A01A01A000 (-13 - 52))
  let y := madd E.D (E.fused 18) y x2 (lit D 0x11111111111110 (-7 - 52))
  let y := msub E.D (E.fused 19) y x2 (lit D 0x15555555555555 (-3 - 52))
  madd E.D (E.fused 20) y (Fmt.mul E.D x2 x) x

/-! ## `__fold_input` (simd_math.h:253-398) -/

/-- `__math_float::__pi_over_4` and the other constants (simd_math.h:293-306). -/
def piOver4F : F.Bits := lit F 0x1921FB6 (-1 - 24)
def twoOverPiF : F.Bits := lit F 0x145F306 (-1 - 24)
def pi2F5bits0 : F.Bits := lit F 0x1921fc0 (0 - 24)
def pi2F5bits0Rem : F.Bits := lit F (-0x15777a6) (-21 - 24)
def piOver4D : D.Bits := lit D 0x1921fb54442d18 (-1 - 52)
def twoOverPiD : D.Bits := lit D 0x145F306DC9C883 (-1 - 52)
def pi2D : D.Bits := lit D 0x1921fb54442d18 (0 - 52)

/-- `__zero_low_bits<26>` (simd_math.h:253-263). -/
def zeroLowBits (x : D.Bits) : D.Bits := x &&& (BitVec.allOnes 64 <<< 26)

/-- `__fold_input` of `float`, elements of at most `1.5 * π` (simd_math.h:332-336): the reduced argument and the quadrant. -/
def foldSmallF (E : Env) (a : F.Bits) : F.Bits × BitVec 32 :=
  let y := nearbyint E.F (Fmt.mul E.F a twoOverPiF)
  let q := toInt32 F E.undefF y &&& 3
  let a := nmadd E.F (E.fused 21) a y pi2F5bits0
  let a := nmadd E.F (E.fused 22) a y pi2F5bits0Rem
  (a, q)

/-- `__fold_input` of `float`, large elements: with `double` (simd_math.h:339-345). -/
def foldLargeF (E : Env) (a : F.Bits) : F.Bits × BitVec 32 :=
  let xd := widen E a
  let y := nearbyint E.D (Fmt.mul E.D xd twoOverPiD)
  let q := toInt32 D E.undefD y &&& 3
  (narrow E (nmadd E.D (E.fused 23) xd y pi2D), q)

/-- `__fold_input` of `float` (simd_math.h:308-350). -/
def foldF (E : Env) (xs : List F.Bits) : List (F.Bits × BitVec 32) :=
  let ax := xs.map (FloatBits.abs F)
  if ax.all fun a => F.lt a piOver4F then ax.map fun a => (a, 0)
  else if ax.all fun a => F.lt a (F.round .nearest false (6 * F.ratValue piOver4F)) then ax.map (foldSmallF E)
  else ax.map (foldLargeF E)

/-- `nearbyint(|x| / (2 * __pi_over_4))` (simd_math.h:367). -/
def foldY (E : Env) (a : D.Bits) : D.Bits := nearbyint E.D (Fmt.div E.D a (D.round .nearest false (2 * D.ratValue piOver4D)))

/-- Elements of less than `1025 * π / 4` (simd_math.h:372-375). -/
def foldSmallD (E : Env) (a y : D.Bits) : D.Bits :=
  let a := nmadd E.D (E.fused 24) a y (lit D 0x1921FB54443000 (0 - 52))
  let a := nmadd E.D (E.fused 25) a y (lit D (-0x173DCB3B39A000) (-43 - 52))
  nmadd E.D (E.fused 26) a y (lit D 0x145C06E0E68948 (-86 - 52))

/-- Elements with `y <= 2^30` (simd_math.h:379-382). -/
def foldMediumD (E : Env) (a y : D.Bits) : D.Bits :=
  let a := nmadd E.D (E.fused 27) a y (lit D 0x1921FB40000000 (0 - 52))
  let a := nmadd E.D (E.fused 28) a y (lit D 0x14442D00000000 (-24 - 52))
  nmadd E.D (E.fused 29) a y (lit D 0x18469898CC5170 (-48 - 52))

/-- Large elements (simd_math.h:386-399). -/
def foldLargeD (E : Env) (a y : D.Bits) : D.Bits :=
  let yhi := zeroLowBits y
  let ylo := Fmt.sub E.D y yhi
  let p1 := lit D 0x1921FB50000000 (0 - 52)
  let p2 := lit D 0x1110B460000000 (-26 - 52)
  let p3 := lit D 0x11A62630000000 (-54 - 52)
  let p4 := lit D 0x18A2E03707344A (-81 - 52)
  let mul := Fmt.mul E.D
  let sub := Fmt.sub E.D
  let a := nmadd E.D (E.fused 30) a yhi p1
  let a := sub a (fmax (mul yhi p2) (mul ylo p1))
  let a := sub a (fmin (mul yhi p2) (mul ylo p1))
  let a := sub a (fmax (mul yhi p3) (mul ylo p2))
  let a := sub a (fmin (mul yhi p3) (mul ylo p2))
  let a := sub a (fmax (mul y p4) (mul ylo p3))
  sub a (fmin (mul y p4) (mul ylo p3))

/-- `__fold_input` of `double` (simd_math.h:352-401). -/
def foldD (E : Env) (xs : List D.Bits) : List (D.Bits × BitVec 32) :=
  let ax := xs.map (FloatBits.abs D)
  if ax.all fun a => D.lt a piOver4D then ax.map fun a => (a, 0)
  else
    let q a := toInt32 D E.undefD (foldY E a) &&& 3
    if ax.all fun a => D.lt a (D.round .nearest false (1025 * D.ratValue piOver4D)) then ax.map fun a => (foldSmallD E a (foldY E a), q a)
    else if ax.all fun a => D.le (foldY E a) (lit D 1 30) then ax.map fun a => (foldMediumD E a (foldY E a), q a)
    else ax.map fun a => (foldLargeD E a (foldY E a), q a)

/-! ## `cos` and `sin` (simd_math.h:467-543) -/

section combine
variable {f : Fmt} (env : f.Env) (cosS sinS : f.Bits → f.Bits)

/-- An element of `_V(-0.f) & static_simd_cast<_V>((1 + quadrant) << 30)` (simd_math.h:489-490). -/
def cosFlip (q : BitVec 32) : f.Bits := signMask f &&& Fmt.ofInt env ((1 + q) <<< 30).toInt
/-- An element of `(x ^ static_simd_cast<_V>(1 - quadrant)) & _V(_Tp(-0.))` (simd_math.h:526-527). -/
def sinFlip (x : f.Bits) (q : BitVec 32) : f.Bits := (x ^^^ Fmt.ofInt env (1 - q).toInt) &&& signMask f

/-- The end of `cos` (simd_math.h:489-503); `fs` is the result of `__fold_input`. -/
def cosEnd (fs : List (f.Bits × BitVec 32)) : List f.Bits :=
  if fs.all fun p => p.2 &&& 1 == 0 then fs.map fun p => cosFlip env p.2 ^^^ cosS p.1
  else if fs.all fun p => !(p.2 &&& 1 == 0) then fs.map fun p => cosFlip env p.2 ^^^ sinS p.1
  else fs.map fun p => (if p.2 &&& 1 == 0 then cosS p.1 else sinS p.1) ^^^ cosFlip env p.2

/-- The end of `sin` (simd_math.h:526-540). -/
def sinEnd (xs : List f.Bits) (fs : List (f.Bits × BitVec 32)) : List f.Bits :=
  if fs.all fun p => p.2 &&& 1 == 0 then List.zipWith (fun x p => sinFlip env x p.2 ^^^ sinS p.1) xs fs
  else if fs.all fun p => !(p.2 &&& 1 == 0) then List.zipWith (fun x p => sinFlip env x p.2 ^^^ cosS p.1) xs fs
  else List.zipWith (fun x p => sinFlip env x p.2 ^^^ (if p.2 &&& 1 == 0 then sinS p.1 else cosS p.1)) xs fs

end combine

/-- `cos` and `sin` of `simd<double, Abi>` (simd_math.h:467-504, 515-543). -/
def cosD (E : Env) (xs : List D.Bits) : List D.Bits := cosEnd E.D (cosSeriesD E) (sinSeriesD E) (foldD E xs)
def sinD (E : Env) (xs : List D.Bits) : List D.Bits := sinEnd E.D (cosSeriesD E) (sinSeriesD E) xs (foldD E xs)

/-- A function of `rebind_simd_t<double, _V>`: applied to chunks of the given numbers of elements, to single elements (scalar ABI) the
function of the C library (simd_fixed_size.h:1572-1612, simd_math.h:506-510, 545-549).  One chunk of all elements is an ABI that is not
`fixed_size`. -/
def chunked (libm : D.Bits → D.Bits) (g : List D.Bits → List D.Bits) : List Nat → List D.Bits → List D.Bits
  | [], _ => []
  | n :: ns, xs => (if n = 1 then (xs.take 1).map libm else g (xs.take n)) ++ chunked libm g ns (xs.drop n)

/-- `cos` of `simd<float, Abi>` (simd_math.h:467-504); `chunks` are the numbers of elements of the chunks of
`rebind_simd_t<double, simd<float, Abi>>`. -/
def cosF (E : Env) (chunks : List Nat) (xs : List F.Bits) : List F.Bits :=
  if xs.any fun x => F.le (lit F 393382 0) (FloatBits.abs F x) then (chunked E.libmCos (cosD E) chunks (xs.map (widen E))).map (narrow E)
  else cosEnd E.F (cosSeriesF E) (sinSeriesF E) (foldF E xs)

/-- `sin` of `simd<float, Abi>` (simd_math.h:515-543). -/
def sinF (E : Env) (chunks : List Nat) (xs : List F.Bits) : List F.Bits :=
  if xs.any fun x => F.le (lit F 527449 0) (FloatBits.abs F x) then (chunked E.libmSin (sinD E) chunks (xs.map (widen E))).map (narrow E)
  else sinEnd E.F (cosSeriesF E) (sinSeriesF E) xs (foldF E xs)

end StdSimd.Trig
