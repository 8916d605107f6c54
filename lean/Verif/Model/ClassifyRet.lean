import Verif.Model.Chunks
import Verif.Model.FloatBits
/-!
# Model of the return statements of `fpclassify` on registers

experimental/bits/simd_builtin.h:2396-2435.  `__tmp` holds one class number per element of the register, in an integer type
of the size of the floating-point type; the function returns `__fixed_size_storage_t<int, _Np>`, the registers of a
fixed_size object of `int`s.  The values in `__tmp` are `FloatBits.fpclassify`.

A `__assert_unreachable` and an initialisation of a member from a type of another size are ill-formed, `none`.
Simplification: which constructor of `_SimdTuple` is selected is not modelled.
-/
namespace StdSimd.ClassifyRet
open Abi Chunks

/-- `int`. -/
abbrev int : Elem := ⟨4, false⟩

/-- `_S_fpclassify` with 4-byte elements (simd_builtin.h:2396-2412).  `__as_int` (2399) is as large as
`__vector_type_t<int, _Np>`; `__extract<i, 2>` are its halves; `__auto_bitcast` (simd.h:2161-2177) takes as many bytes as the
destination has (simd.h:1513-1523), which must not be more than there are. -/
def retFloat (t : Target) (n : Nat) (tmp : List (BitVec 32)) : Option (Regs (BitVec 32)) :=
  let asInt := tmp.take (vecBytes t 4 n / 4)
  let half := asInt.length / 2
  match storage t int n with
  | [a] => if fullSize t int a = asInt.length then some [(a, asInt)] else none
  | [a, b] =>
    if a ≠ .scalar ∧ fullSize t int a = half then
      if b = .scalar then some [(a, asInt.take half), (b, [asInt.getD (n - 1) 0])]
      else if fullSize t int b ≤ half then some [(a, asInt.take half), (b, (asInt.drop half).take (fullSize t int b))]
      else none
    else none
  | _ => none

/-- `_S_fpclassify` with 8-byte elements (simd_builtin.h:2413-2434): two scalars (2413-2418), on x86 32 bytes packed with
saturation (2420-2423) and 64 bytes converted (2424-2426), else element by element (2428-2432).  `t.sse` stands for
`_GLIBCXX_SIMD_X86INTRIN`. -/
def retDouble (t : Target) (n : Nat) (tmp : List (BitVec 64)) : Option (Regs (BitVec 32)) :=
  match storage t int n with
  | [a, b] =>
    if n = 2 ∧ a = .scalar ∧ b = .scalar then
      some [(a, [(tmp.getD 0 0).setWidth 32]), (b, [(tmp.getD 1 0).setWidth 32])]
    else none
  | [a] =>
    if t.sse = true ∧ tmp.length = 4 then
      if fullSize t int a = 4 then some [(a, tmp.map FloatBits.packs64)] else none
    else if t.sse = true ∧ tmp.length = 8 then
      if fullSize t int a = 8 then some [(a, tmp.map (·.setWidth 32))] else none
    else some [(a, (tmp.take n).map (·.setWidth 32))]
  | _ => none

end StdSimd.ClassifyRet
