import Verif.Model.SimdX86
import Verif.Model.PpcInt
/-!
# Model: the operators of `simd` of integers on PowerPC

`_SimdImplPpc` (simd_ppc.h:38-116) replaces the shifts of `_SimdImplBuiltin`; this file puts the code of `Model.PpcInt` into the native implementation
(`RegImpl`) programs run on.
-/
namespace StdSimd.SimdClass
open Spec Spec.Program Native

/-- `_SimdImplPpc` for integers of `w` bits: `_S_bit_shift_left` (simd_ppc.h:48-71), `_S_bit_shift_right` (simd_ppc.h:74-113); the rest is inherited from
`_SimdImplBuiltin`.  Registers of one element without padding may be those of the scalar ABI. -/
def ppcInt (signed : Bool) (w : Nat) : RegImpl (.int signed w) where
  un := (builtinInt signed w (fun a _ => a)).un
  bin o g x y := match g with
    | .scalar => (scalarInt signed w).bin o g x y
    | g => match o with
      | .shl => some (Ppc.shlv signed (x : List (BitVec w)) y)
      | .shr => some (Ppc.shrv signed (x : List (BitVec w)) y)
      | o => (builtinInt signed w (fun a _ => a)).bin o g x y
  shift left g x s := match g with
    | .scalar => (scalarInt signed w).shift left g x s
    | _ => some (if left then Ppc.shl (x : List (BitVec w)) s else Ppc.shr signed (x : List (BitVec w)) s)

end StdSimd.SimdClass
