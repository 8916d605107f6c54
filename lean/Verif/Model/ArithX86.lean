import Verif.Model.ArithTypes
import Verif.Model.SimdX86
import Verif.Model.SimdPpc
/-!
# The implementation classes of all arithmetic types on x86 and PowerPC

As `Model/ArithTypes.lean`, with the operators of `_SimdImplX86` or `_SimdImplPpc` for integers.
-/
namespace StdSimd.SimdClass
open StdSimd Spec Spec.Program Spec.Multi

/-- The choice of code for integers on x86, by the size of the element. -/
structure X86Codes where
  byte : X86Byte
  short : X86Short
  int : X86Int32
  long : X86Int64

/-- The operators of integers on x86 (simd_x86.h:1312-2208). -/
def x86IntReg (c : X86Codes) (junk : ∀ w, BitVec w → Nat → BitVec w) (s : Bool) : (w : Nat) → RegImpl (.int s w)
  | 8 => x86Byte c.byte s
  | 16 => x86Short c.short s
  | 32 => x86Int32 c.int s
  | 64 => x86Int64 c.long s
  | w => builtinInt s w (junk w)

/-- The operators and functions of one register on x86, by element type. -/
def x86Reg (c : X86Codes) (W : FloatSem) (X : ArithCtx) : (y : ArithTy) → RegImpl y.kind
  | .int s w => (x86IntReg c X.junk s w).withFuns (intRegFuns s w (X.abs w) (X.cmp s w))
  | .float f h _ => floatReg (W.env f h) (X.flt f h)

/-- The operators and functions of one register on PowerPC, by element type. -/
def ppcReg (W : FloatSem) (X : ArithCtx) : (y : ArithTy) → RegImpl y.kind
  | .int s w => (ppcInt s w).withFuns (intRegFuns s w (X.abs w) (X.cmp s w))
  | .float f h _ => floatReg (W.env f h) (X.flt f h)

end StdSimd.SimdClass
