import Verif.Model.Native
import Verif.Model.X86Int
import Verif.Spec.Float
/-!
# Model of integer and floating-point division of native `simd`

`_SimdImplBuiltin::_S_divides`, `_S_modulus` (simd_builtin.h:1665-1689), `__make_padding_nonzero` (simd_builtin.h:1034-1058,
1186-1213) and the replacements in `_SimdImplX86` (simd_x86.h:1382-1496).
-/
namespace StdSimd.Division

/-- `__make_padding_nonzero` for integers: `x | ~implicit_mask` for `_VecBuiltin` (simd_builtin.h:1034-1058, padding becomes
-1), `x | {0, .., 0, 1, .., 1}` for `_VecBltnBtmsk` (simd_builtin.h:1186-1213). -/
def makePaddingNonzero {w : Nat} : Geo → List (BitVec w) → List (BitVec w)
  | .scalar, y => y
  | .vec _ n f, y => if n = f then y else y.mapIdx (fun i (a : BitVec w) => a ||| (if i < n then 0#w else BitVec.allOnes w))
  | .bitmask n f, y => if n = f then y else y.mapIdx (fun i (a : BitVec w) => a ||| (if i < n then 0#w else 1#w))

/-- `__make_padding_nonzero` for floating-point: `(x & implicit_mask) | (1 & ~implicit_mask)` for `_VecBuiltin`
(simd_builtin.h:1046-1055), `_S_blend(implicit_mask, 1, x)` for `_VecBltnBtmsk` (simd_builtin.h:1205-1211). -/
def makePaddingOne {α : Type} (one : α) : Geo → List α → List α
  | .scalar, y => y
  | .vec _ n f, y => if n = f then y else y.mapIdx (fun i a => if i < n then a else one)
  | .bitmask n f, y => if n = f then y else y.mapIdx (fun i a => if i < n then a else one)

/-- `_SimdImplBuiltin::_S_divides`, `_S_modulus` for integers (simd_builtin.h:1665-1689) and `_SimdImplScalar`
(simd_scalar.h:232-245): the element operation `op` (C++ `/` or `%`) on all elements of the register. -/
def divides {w : Nat} (g : Geo) (op : BitVec w → BitVec w → Option (BitVec w)) (x y : List (BitVec w)) :
    Option (List (BitVec w)) :=
  Native.map2 op x (makePaddingNonzero g y)

/-- `_S_divides` for floating-point (simd_builtin.h:1665-1676). -/
def dividesFloat {α : Type} (g : Geo) (one : α) (op : α → α → Option α) (x y : List α) : Option (List α) :=
  Native.map2 op x (makePaddingOne one g y)

/-! ## x86: through floating-point -/

/-- The value of an integer element. -/
def toZ (signed : Bool) {w : Nat} (a : BitVec w) : Int := if signed then a.toInt else (a.toNat : Int)

/-- One element of `__xf[i] / __yf[i]` (simd_x86.h:1426-1464): the correctly rounded quotient of finite numbers; `none`
stands for the infinities and NaNs that a zero divisor gives.  `R` is the rounding. -/
def fdiv (R : ℚ → ℚ) (a b : ℚ) : Option ℚ := if b = 0 then none else some (R (a / b))

/-- Conversion of a floating-point element to an integer element (`__vector_convert`, simd_x86.h:1421-1424): truncation; a
value out of range gives some element `ind` (the "integer indefinite" of `cvttps2dq`, or what the narrowing makes of it). -/
def toInt (signed : Bool) (w : Nat) (ind : BitVec w) : Option ℚ → BitVec w
  | none => ind
  | some r =>
    let v := Spec.truncZ r
    if signed then (if -2 ^ (w - 1) ≤ v ∧ v < 2 ^ (w - 1) then BitVec.ofInt w v else ind)
    else (if 0 ≤ v ∧ v < 2 ^ w then BitVec.ofInt w v else ind)

/-- `__n_intermediate` (simd_x86.h:1408-1412): elements of one floating-point register of `bytes` bytes. -/
def nIntermediate (n bytes fsize : Nat) : Nat := min n (bytes / fsize)

/-- `__convert_all<_FloatV, __n_floatv>(v)` (simd_x86.h:1417-1420, simd_builtin.h:559-799): `m` registers with `k` elements
each, taken in order; elements outside the register are zero.  The conversion rounds (`R`). -/
def convertAll (R : ℚ → ℚ) (signed : Bool) {w : Nat} (m k : Nat) (x : List (BitVec w)) : List (List ℚ) :=
  (List.range m).map (fun c => (List.range k).map (fun j => R (toZ signed (x.getD (c * k + j) 0#w))))

/-- `_SimdImplX86::_S_divides` for at most 32-bit integers with a divisor that is not a compile-time constant
(simd_x86.h:1382-1465).  `bytes` is the size of a floating-point register (16, 32 or 64), `w` the number of bits of an
element; 32-bit elements go through `double` (8 bytes), others through `float`.  The elements of the quotients are packed in
order into the result register (`__vector_convert<_R>(quotients...)`), which has `full` elements. -/
def x86Divides (R : ℚ → ℚ) (g : Geo) (signed : Bool) {w : Nat} (ind : BitVec w) (bytes : Nat) (x y : List (BitVec w)) :
    List (BitVec w) :=
  let k := nIntermediate g.size bytes (if w = 32 then 8 else 4)
  let m := (g.size + k - 1) / k
  let xf := convertAll R signed m k x
  let yf := convertAll R signed m k (makePaddingNonzero g y)
  let q := (List.zipWith (fun a b => List.zipWith (fdiv R) a b) xf yf).flatten
  (List.range g.full).map (fun i => match q[i]? with
    | some r => toInt signed w ind r
    | none => 0#w)

/-- `_SimdImplX86::_S_modulus` for at most 32-bit integers with a divisor that is not a compile-time constant
(simd_x86.h:1486-1496): `x - y * (x / y)`; `mul` is `_S_multiplies`. -/
def modulusWith {w : Nat} (mul : List (BitVec w) → List (BitVec w) → List (BitVec w)) (R : ℚ → ℚ) (g : Geo) (signed : Bool)
    (ind : BitVec w) (bytes : Nat) (x y : List (BitVec w)) : List (BitVec w) :=
  List.zipWith (fun a b => a - b) x (mul y (x86Divides R g signed ind bytes x y))

/-- `_S_modulus` of 16- and 32-bit elements: `_S_multiplies` is the operator (simd_x86.h:1376-1378). -/
def x86Modulus (R : ℚ → ℚ) (g : Geo) (signed : Bool) {w : Nat} (ind : BitVec w) (bytes : Nat) (x y : List (BitVec w)) :
    List (BitVec w) :=
  modulusWith (List.zipWith (fun a b => a * b)) R g signed ind bytes x y

/-- `_S_modulus` of 8-bit elements: `_S_multiplies` is the emulation (simd_x86.h:1312-1375). -/
def x86Modulus8 (path : X86.MulPath) (R : ℚ → ℚ) (g : Geo) (signed : Bool) (ind : BitVec 8) (bytes : Nat)
    (x y : List (BitVec 8)) : List (BitVec 8) :=
  modulusWith (X86.mulBytes path) R g signed ind bytes x y

end StdSimd.Division
