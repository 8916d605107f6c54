import Verif.Spec.MixedCall
import Verif.Model.Narrowing
/-!
# Model: overload resolution of math functions

experimental/bits/simd_math.h: the macros that define the functions with more than one parameter, and the overload resolution between the
function templates that they define.  A candidate's result is the type `simd<t, a>` in which its body computes.
-/
namespace StdSimd.MixedCall
open Spec Spec.MixedCall

variable (p : Platform)

/-- `is_convertible<Arg, simd<t, a>>` (simd.h:4917-4943): the copy constructor, the broadcast constructor and the constructor from another
`fixed_size` object.  The other constructors are explicit. -/
def convertible (t : CType) (a : AbiTag) : Arg → Bool
  | .scalar u => Narrowing.broadcastFrom p u t
  | .simd u b =>
    (u == t && b == a) ||
      match a, b with
      | .fixed n, .fixed m => n == m && Narrowing.implicitConvert p u t
      | _, _ => false

/-- First template of `_GLIBCXX_SIMD_MATH_CALL2_` with `arg2_ = _Tp` (simd_math.h:126-137): `_Tp` and `_Abi` are deduced from the first
argument. -/
def call2First (x y : Arg) : Option (CType × AbiTag) :=
  match x with
  | .simd t a => if p.isFloat t && convertible p t a y then some (t, a) else none
  | .scalar _ => none

/-- Second template (simd_math.h:138-151): deduced from the second argument; the first one is converted. -/
def call2Second (x y : Arg) : Option (CType × AbiTag) :=
  match y with
  | .simd t a => if !(x == .simd t a) && convertible p t a x && p.isFloat t then some (t, a) else none
  | .scalar _ => none

/-- A call of `atan2`, `pow`, `fmod`, `remainder`, `nextafter`, `fdim`, `fmax`, `fmin`, the comparisons `isgreater` … and the special
functions of two parameters (simd_math.h:125-151, 446, 1280-1432).  If both templates are viable the second one is better: both its
parameters bind to the arguments without conversion. -/
def call2 (x y : Arg) : Option (CType × AbiTag) := (call2Second p x y).or (call2First p x y)

/-- First template of `_GLIBCXX_SIMD_MATH_CALL3_` with `arg2_ = arg3_ = _Tp` (simd_math.h:154-168). -/
def call3First (x y z : Arg) : Option (CType × AbiTag) :=
  match x with
  | .simd t a => if p.isFloat t && convertible p t a y && convertible p t a z then some (t, a) else none
  | .scalar _ => none

/-- `is_simd<_U0> && is_floating_point<value_type>`. -/
def isFloatSimd : Arg → Bool
  | .simd t _ => p.isFloat t
  | .scalar _ => false

/-- Second template (simd_math.h:169-188): `_Simd = conditional_t<is_simd_v<_U1>, _U1, _U2>`.  The return type needs the call with three
arguments of type `_Simd` to be well-formed, which is the first template's case. -/
def call3Second (x y z : Arg) : Option (CType × AbiTag) :=
  match (match y with | .simd t a => .simd t a | .scalar _ => z : Arg) with
  | .simd t a =>
    if convertible p t a x && convertible p t a y && convertible p t a z && !isFloatSimd p x then
      call3First p (.simd t a) (.simd t a) (.simd t a)
    else none
  | .scalar _ => none

/-- A call of `fma` or `ellint_3` (simd_math.h:153-188, 1332, 1432). -/
def call3 (x y z : Arg) : Option (CType × AbiTag) := (call3First p x y z).or (call3Second p x y z)

/-- A call of `remquo` with a suitable pointer as third argument (simd_math.h:153-188, 1302): a pointer is not convertible to a `simd`
type, so the second template is never viable. -/
def remquo (x y : Arg) : Option (CType × AbiTag) := call2First p x y

/-- A call of `copysign` (simd_math.h:1304-1306): both parameters deduce `_Tp` and `_Abi`. -/
def copysign (x y : Arg) : Option (CType × AbiTag) :=
  match x, y with
  | .simd t a, .simd u b => if u == t && b == a && p.isFloat t then some (t, a) else none
  | _, _ => none

/-! ## `hypot` -/

/-- A function template with parameters of type `const simd<_Tp, _Abi>&` where the flag is `true` and of type
`const __type_identity_t<simd<_Tp, _Abi>>&` (not deduced) where it is `false`. -/
abbrev Template := List Bool

/-- The overloads of `hypot` with two parameters (simd_math.h:1091-1101 and 887-900). -/
def hypot2 : List Template := [[true, true], [true, false], [false, true]]

/-- The overloads of `hypot` with three parameters (simd_math.h:1267-1278 and 902-949). -/
def hypot3 : List Template :=
  [[true, true, true], [false, true, true], [true, false, true], [true, true, false], [true, false, false], [false, true, false],
    [false, false, true]]

/-- Template argument deduction: all deduced parameters have to give the same type. -/
def deduced : Template → List Arg → Option (CType × AbiTag)
  | true :: _, .simd t a :: _ => some (t, a)
  | false :: s, _ :: xs => deduced s xs
  | _, _ => none

/-- The arguments match the parameters of the specialization for `simd<t, a>`. -/
def matches' (t : CType) (a : AbiTag) : Template → List Arg → Bool
  | [], [] => true
  | true :: s, x :: xs => x == .simd t a && matches' t a s xs
  | false :: s, x :: xs => convertible p t a x && matches' t a s xs
  | _, _ => false

/-- The viable specializations. -/
def viable (ts : List Template) (args : List Arg) : List (Template × CType × AbiTag) :=
  ts.filterMap fun s => (deduced s args).bind fun v => if matches' p v.1 v.2 s args then some (s, v) else none

/-- Partial ordering of function templates ([temp.func.order]): deduced parameters match non-deduced ones, not the other way round. -/
def atMost : Template → Template → Bool
  | [], [] => true
  | d :: s, c :: s' => (!d || c) && atMost s s'
  | _, _ => false

/-- Overload resolution: the candidate that is at least as specialized as all others.  Two candidates for different `simd` types are
ambiguous: each needs a user-defined conversion where the other one has none. -/
def pick (ts : List Template) (args : List Arg) : Option (Template × CType × AbiTag) :=
  (viable p ts args).find? fun c => (viable p ts args).all fun d => d.2 == c.2 && atMost d.1 c.1

/-- A call of `hypot`: if one of the converting overloads is chosen it calls `hypot` again, with arguments that all have the type
`simd<t, a>` (simd_math.h:893, 900, 908, …); `none` also if this is not the first overload but again the converting one (unbounded
recursion). -/
def hypot (ts : List Template) (args : List Arg) : Option (CType × AbiTag) :=
  match pick p ts args with
  | none => none
  | some (s, t, a) =>
    if s.all id then some (t, a)
    else
      match pick p ts (args.map fun _ => .simd t a) with
      | some (s', v) => if s'.all id then some v else none
      | none => none

end StdSimd.MixedCall
