import Verif.Model.Abi
/-!
# Model of `rebind_simd` and `resize_simd`

experimental/bits/simd.h:2740-2783.  The traits for `simd_mask` have the same text as those for `simd`.
-/
namespace StdSimd.Abi

/-- `rebind_simd_t<_Tp, simd<_Up, _Abi>>` is `simd<_Tp, b>` for the result `b`; `none`: the member `type` does not exist (simd.h:2742-2765).
`simd_size_v<_Up, _Abi>` is `_Abi::_S_size<_Up>` (2705-2719). -/
def rebind (t : Target) (T U : Elem) (a : Tag) : Option Tag := deduce t T (size U a)

/-- `resize_simd_t<_Np, simd<_Tp, _Abi>>` (simd.h:2767-2782).  `_Np` is an `int`, `deduce_t` has a parameter of type `size_t`: for negative
values the conversion of the template argument is narrowing, and the specialization is not viable. -/
def resizeTag (t : Target) (T : Elem) (n : Int) (_a : Tag) : Option Tag := if n < 0 then none else deduce t T n.toNat

end StdSimd.Abi
