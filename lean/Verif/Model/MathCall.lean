import Verif.Model.Tuple
/-!
# Model of the math functions without a vector implementation

The macros `_GLIBCXX_SIMD_MATH_FALLBACK*` (experimental/bits/simd_builtin.h) define `_S_acos`, ..., `_S_fma` by calls of the C library
function for every element; the special functions of simd_math.h use the generator constructor.

A call may have side effects (`errno`, the floating-point exception flags): `m` is the monad of these.  An access to an element that does
not exist is `none` (of `OptionT`).

Trusted: the unqualified name in the macros finds the function of namespace `std` with that name.
-/
namespace StdSimd.MathCall
open Native Tuple

variable {V : Type} {m : Type → Type} [Monad m]

/-- An argument of an implementation function: a register or scalar (`_SimdWrapper`, `_Tp`), or a tuple of registers (`_SimdTuple`, for
arguments with other element types). -/
inductive Arg (V : Type) where
  | reg (x : List V)
  | tup (gs : List Geo) (x : Tup V)

/-- `__x[__i]` of a `_SimdWrapper` (simd.h:2516-2521) or a `_SimdTuple` (simd_fixed_size.h:582-612). -/
def Arg.read (i : Nat) : Arg V → Option V
  | .reg x => Native.get x i
  | .tup gs x => Tuple.get gs x i

/-- `__name(__x[__i], __more[__i]...)` (simd_builtin.h:1927). -/
def callAt (call : List V → m V) (args : List (Arg V)) (i : Nat) : OptionT m V := do
  let vs ← OptionT.mk (pure (args.mapM (Arg.read i)))
  OptionT.lift (call vs)

/-- `_S_##__name` of `_GLIBCXX_SIMD_MATH_FALLBACK` (simd_builtin.h:1922-1928): `__generate_vector<_Tp>` of a `_SimdWrapper` calls the
generator for `_S_partial_width` elements (simd.h:1690-1703).  For the scalar ABI the function is called once
(simd_scalar.h:298-500). -/
def fallback (call : List V → m V) (zero : V) (g : Geo) (args : List (Arg V)) : OptionT m (List V) :=
  Native.generator g zero (callAt call args)

/-- `_S_##__name` of `_GLIBCXX_SIMD_MATH_FALLBACK_FIXEDRET` (simd_builtin.h:1939-1953): the result is a tuple of registers `gs`, every
register is generated with the offset of its first element. -/
def fallbackFixed (call : List V → m V) (zero : V) (gs : List Geo) (args : List (Arg V)) : OptionT m (Tup V) :=
  Tuple.generate (fun g off => Native.generator g zero (fun i => callAt call args (off + i))) gs 0

/-- The generator of `_S_remquo` (simd_builtin.h:2005-2010): the remainder is the element, the quotient is stored to element `__i` of
`*__z`.  `call` returns remainder and quotient. -/
def remquoAt (call : List V → m (V × V)) (gz : List Geo) (x y : Arg V) (i : Nat) : StateT (Tup V) (OptionT m) V := do
  let vs ← StateT.lift (OptionT.mk (pure ([x, y].mapM (Arg.read i))))
  let r ← StateT.lift (OptionT.lift (call vs))
  modify (fun z => Tuple.set gz z i r.2)
  pure r.1

/-- `_S_remquo` (simd_builtin.h:2000-2011; simd_scalar.h:493-495): the new values of the result and of `*__z`. -/
def remquo (call : List V → m (V × V)) (zero : V) (g : Geo) (gz : List Geo) (x y : Arg V) (z : Tup V) : OptionT m (List V × Tup V) :=
  (Native.generator g zero (remquoAt call gz x y)).run z

/-! ## special functions -/

/-- The special functions of C++17 declared for `simd`. -/
inductive Special where
  | assoc_laguerre | assoc_legendre | beta | comp_ellint_1 | comp_ellint_2 | comp_ellint_3 | cyl_bessel_i | cyl_bessel_j | cyl_bessel_k
  | cyl_neumann | ellint_1 | ellint_2 | ellint_3 | expint | hermite | laguerre | legendre | riemann_zeta | sph_bessel | sph_legendre
  | sph_neumann
  deriving DecidableEq, Repr

/-- The function of namespace `std` that the overload for `simd` calls for every element (simd_math.h:1399-1492).  `none`: the overload is
defined with `_GLIBCXX_SIMD_MATH_CALL_` (1422-1433, 1462), which needs an implementation function `_S_##__name` that no ABI has. -/
def Special.callee : Special → Option Special
  | .assoc_laguerre => some .assoc_laguerre
  | .assoc_legendre => some .assoc_legendre
  | .hermite => some .hermite
  | .laguerre => some .laguerre
  | .legendre => some .legendre
  | .sph_bessel => some .sph_bessel
  | .sph_legendre => some .assoc_legendre
  | .sph_neumann => some .sph_neumann
  | _ => none

/-- A special function of `simd` arguments: `none` if the call is ill-formed, otherwise the generator constructor of `simd<_Tp, _Abi>`
with registers `gs` (simd_math.h:1399-1492; the constructor calls `_S_generator`). -/
def special (std : Special → List V → m V) (zero : V) (gs : List Geo) (fn : Special) (args : List (Arg V)) : Option (OptionT m (Tup V)) :=
  fn.callee.map (fun g => Tuple.generator gs zero (callAt (std g) args))

end StdSimd.MathCall
