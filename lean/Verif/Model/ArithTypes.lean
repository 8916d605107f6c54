import Verif.Model.SimdMath
import Verif.Spec.ArithTypes
/-!
# The implementation classes of all arithmetic types

The choice of operators and functions by the element type, for programs on several types.
-/
namespace StdSimd.SimdClass
open StdSimd Spec Spec.Program Spec.Multi

/-- What the code of an arithmetic type depends on: the contents of padding elements and the macros that choose the code of `abs` and of comparisons for
integers; the choice of code for floating-point types. -/
structure ArithCtx where
  junk : ∀ w, BitVec w → Nat → BitVec w
  abs : ∀ w, Geo → IntAbs.Ctx w
  cmp : ∀ (s : Bool) (w : Nat), Geo → Compare.Ctx (.int s w)
  flt : ∀ f : Fmt, f.Ok → Geo → FloatCtx f

/-- The operators and functions of one register, by element type (`_SimdImplBuiltin`, simd_builtin.h:1480-2420; the functions of simd_math.h). -/
def arithReg (W : FloatSem) (X : ArithCtx) : (y : ArithTy) → RegImpl y.kind
  | .int s w => (builtinInt s w (X.junk w)).withFuns (intRegFuns s w (X.abs w) (X.cmp s w))
  | .float f h _ => floatReg (W.env f h) (X.flt f h)

end StdSimd.SimdClass
