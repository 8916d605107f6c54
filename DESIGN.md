# Formal model of VcDevel/std-simd in Lean 4

## Layout

* `properties.jsonl` - the properties, in terms of the API.
* `lean/Verif/Spec/*` - small specifications (lane sequences, IEEE classes, ...), no reference to the model.
* `lean/Verif/Model/*` - the model, function by function; every definition cites file and lines in /repo.
* `lean/Verif/Proofs/*` - helper lemmas.
* `lean/Verif/Props/*` - the property theorems, each with examples showing that the hypotheses are met.
* `MANIFEST.json` - property -> theorem names and status.
* `seeded/LOG.jsonl` - wrong-program experiments.

## Trusted base

* Lean 4.33.0 kernel; axioms at most `propext`, `Classical.choice`, `Quot.sound`. No own axioms, no `sorry`,
  no `native_decide`, no `bv_decide`. `AXIOMS.txt` lists the axioms of every property theorem (output of `#print axioms`).
* The reading of the C++ source: the model is hand-written from the text of /repo; nothing was executed.
* The semantics of the GCC vector extensions and of the x86 intrinsics used (lane-wise operation, shift-count
  saturation of hardware shifts, fault suppression of masked moves) as described in the comments at the definitions.

## General modelling decisions

* A native register is a list of `full_size` lanes of which the first `size` are active; the remainder is padding
  with arbitrary contents.
* Undefined behaviour is `none` in `Option`-valued model functions.
* `if constexpr` choices become ordinary `if`s over model parameters (size, element size, features).

## What is modelled and what is not

Modelled, with the module under `lean/Verif/Model` (its comments cite the lines). Modules without a definition of their own for some code reuse the ones above them.

Masks
* `BitMask`, `BitOps`: `_BitMask` and bit iteration. `FixedMask`: fixed_size masks. `VMask`, `KMask`, `MaskConst`: native vector masks and AVX-512 masks.
* `BoolArray`: masks stored to and loaded from byte arrays of `bool`. `MaskVec`: the x86 conversions between mask representations at byte level.
* `OtherMask`: the mask functions of NEON and PowerPC. `Bitset`: conversions from and to `std::bitset` (simd.h:1003, 1042-1047, 4322-4328, 4517-4521, 5138-5140).
* `UninitMask`: masks that are default-initialised and assigned lane by lane (simd.h:998, 3018-3025, 4302). `WhereRange`: the range `where(mask)`.

Values, memory and layout
* `Abi`: ABI selection. `Native`, `Memory`: values in native registers, loads and stores, masked access of x86 and NEON. `MaskedConvert`: masked stores to memory of another element type.
* `Tuple`: `_SimdTuple` and `_SimdImplFixedSize`. `Image`: the bytes of `fixed_size` objects. `Align`: alignment flags, object layout, alignment promises to the compiler.
* `RegBits`: bit operations on registers and on single elements (simd.h:381-445, 1713-1899, 5174-5198, simd_scalar.h:247-284; the `andn` instructions are trusted). `SignMask`: the masks for the sign bit, `abs` and `copysign` on registers (simd_builtin.h:38-53, 2099-2101, simd_math.h:1316-1322). `SmartRef`: element references. `Intrin`: conversions from and to intrinsic types of x86 (simd_builtin.h:823-911; GCC without `-flax-vector-conversions`).
* `Split`, `MaskSplit`: `split` and `concat` of values and masks with the register shuffles and the aliasing loads they use. `Resize`: `resizing_simd_cast`.
* `Reduce`: `reduce`, `hmin`, `hmax`.

Integers
* `X86Int`: the x86 emulations of 8-bit multiplication and of narrow and 64-bit shifts. `PpcInt`: the shifts of PowerPC. `IntAbs`: `abs` and `signbit` of integers.
* `Division`: division and modulus including the detour through floating-point (floating-point numbers are rationals, rounding is any monotone function that keeps representable
  numbers). `Scalar`: the operators of the scalar ABI for integer elements (the rules of C++ for integer expressions are in `Spec/IntExpr`).
* `KnownX86`: operators with operands the compiler knows (simd_x86.h:1309-1311, 1388-1389, 1491-1493, 1862-1864).

Floating point
* `FloatBits`: comparisons and classification by bit patterns (one element, any binary interchange format; the hardware comparison and `fpclass` instructions are given by the
  IEEE specification in `Spec/FloatFmt`). `Compare`: the comparison operators and `min`, `max`, `minmax`, `clamp` for all elements (specification by values in `Spec/Compare`).
* `Rounding`, `NeonMath`: the rounding functions (IEEE addition and subtraction on bit patterns in all rounding directions, `Spec/FloatArith`).
* `Math`: `frexp`, `logb`, `modf`, `copysign`. `Ldexp`: `ldexp` for AVX-512. `Hypot`: `hypot` of two and three operands (IEEE multiplication, square root and fused
  multiply-add are specified in `Spec/FloatMath`). `Trig`: `sin` and `cos` (IEEE division and conversion between formats in `Spec/Trig`; of the two products in the last line of
  `__cosSeries(float)` only the first may be contracted).
* `MathCall`: the math functions that call the C library for every element and the special functions. `Chunks`: fixed_size functions with arguments or results of other
  element types (the scalar function is arbitrary, arguments are distinct objects).
* `FpExc`, `MathExc`, `FrexpExc`, `Frexp512Exc`, `LdexpExc`: the floating-point exceptions of comparison, classification, rounding, division, `modf`, `logb`, `frexp` and `ldexp` (which exceptions the x86 instructions raise, and that compiled vector operations
  raise those of the IEEE operations on all elements of the register, belongs to the trusted base).
* `NumTraits`: numeric traits (the macros of the compiler such as `__FLT_MAX__` are the patterns of the format).

Conversions and types
* `Convert`: conversions between `simd` types (the branches of `__to_simd_tuple` for an explicit offset are modelled but no conversion reaches them, among them one that takes the
  wrong quarter of a register, simd_fixed_size.h:735-742).
* `X86Convert`: the x86 register conversions between integer types at byte level (a deep embedding of the shuffle, shift and convert instructions; Intel's description of these
  instructions, transcribed in `Expr.eval`, belongs to the trusted base).
* `X86FloatConvert`: the x86 register conversions from and to floating-point types (one term per element; the conversion instructions, in `Tm.eval`, belong to the trusted base; the
  SSE2 branch of `__ibw_to_f32` for 32-byte results is not modelled, as such registers need AVX).
* `Narrowing`: the traits that decide which conversions are implicit (the language rules they use, integral promotion and usual arithmetic conversions, are in `Spec/CTypes`; x87
  `long double` is a format with 15 exponent and 63 significand bits).
* `CastType`: the types casts return and `to_fixed_size`, `to_native` (simd.h:2826-2928, 3007-3062). `Rebind`: `rebind_simd` and `resize_simd` (simd.h:2740-2783).
* `MixedOps`: overload resolution of the operators (class types convertible to arithmetic types, such as element references, are left out). `MixedCall`: overload resolution of
  the math functions with more than one parameter (lvalue/rvalue and such class types are left out). `MixedExp`: the same of `ldexp`, `scalbn`, `scalbln`.
* `RefTypes`: operand types of assignments to elements (simd.h:4018-4042) and of the broadcast and generator constructors. `WhereTypes`: operand types of where expressions
  (simd.h:811-820, 3203-3229; class types left out).

Programs
* `SimdClass`: the class templates `simd` and `simd_mask`. `WhereExpr`: the operators of where expressions. `SimdMath`: functions in programs.
* `SimdNative`, `SimdX86`, `SimdPpc`, `ArithX86`: implementation classes of the native ABIs for programs.
* `Control`: the free functions on masks in front of their implementations, branches and loops. `Multi`, `MultiAbi`, `ArithTypes`: programs on several element types and ABIs.
* `Pack`: `split` and `concat` in programs (simd.h:3704-3983).

Environment assumptions: `Abi.Target.Consistent` (implications between compiler feature macros), `Abi.Elem.Ok` (sizes of
arithmetic types), GNU vector operations act element-wise, wrap-around for vector integer arithmetic, denormals
are not treated as zero (the AVX bits-to-vector conversion compares denormal numbers with zero).

Not modelled: object lifetimes, overload resolution and SFINAE constraints other than those listed above, ABI calling conventions, `constexpr`
evaluation except where a function has a separate constant-evaluation branch, floating-point exceptions of functions not in `FpExc`, `MathExc` and `FrexpExc`, NEON and PPC
intrinsics other than those of `OtherMask`, `NeonMath` and `PpcInt`, transcendental math functions other than `sin` and `cos` (the library calls the C library
element by element for them).

## Findings: where the code violates a property

Each is proved as a negation theorem with a concrete witness.

* `C05_count_unsanitised_wrong`: `_BitMask<_, false>::count()` returns `none()` (simd.h `_M_count`/`count`).
* `C08_native_invalid`: native ABI invalid with AVX512VL but not BW for 1/2-byte types.
* `C07_layout_i386_deviates`: on i386 the storage is not "full native registers plus remainder".
* `C32_*`, `C31_*`, `C14_k_mask_store_out_of_bounds`: AVX-512 integer `!=`, `signbit`, `isinf` leave phantom bits in masks.
* `C14_converting_store_out_of_bounds`: on SSE2 without AVX, `where(x == y, v).copy_to(double_ptr)` for three `float`s writes a fourth
  `double`: the second piece takes the padding element of the mask along (`maskmovdqu`).
* `C13_native_avx_load_out_of_bounds`, `C14_native_raw_store_out_of_bounds`: AVX masked loads/stores of partial vectors use
  padding elements of the mask, which comparisons set.
* `C15_assign_negative_zero`: `where(k, v) = -0.0` with a compile-time constant assigns `+0.0`.
* `C15_division_in_unselected_lane`: `where(y != 0, x) /= y` divides unselected lanes too.
* `C16_negative_zero`: `reduce` with `plus<>` of a partial register whose lanes are all -0.0 gives +0.0.
* `C18_infinity`: masked `hmin`/`hmax` of infinite lanes return the largest/smallest finite value (`#ifdef __FINITE_MATH_ONLY__`
  is always true with GCC).
* `C24_signed_overflow`: the 3- and 4-lane byte multiplications compute `int` products that overflow (undefined behaviour);
  the result with wrapping products is right (`C24_multiplication_partial`).
* `C26_shl16_sse_wrong`: 16-bit vector left shift without AVX2: an amount of at least 16 in an even lane changes the next lane.
* `C27_shr8_sse_wrong`, `C27_shr16_sse_wrong`: signed 8/16-bit vector right shifts without AVX2 give 0 for amounts of at
  least the width where all other paths give the sign.
* `C23_signed_padding_wrong`, `C23_signed_padding_wrong_avx512`: signed 64-bit division of partial registers divides MIN by -1
  in the padding (`simd<long, 3>(LONG_MIN) / 2`).
* `C40_conversion_false_promise`: the implicit conversion between `fixed_size` objects loads a temporary `std::array` with `vector_aligned`
  (simd.h:4941); nothing aligns that array beyond its elements.
* `C40_object_i386`: on i386 `fixed_size<2>` of a 4-byte type is stored in a 16-byte register but declared `alignas(8)`.
* `C43_vec_padding_leak`, `C43_bits_grow_leak`: `resizing_simd_cast` of masks to more lanes shows padding (phantom) lanes of the source.
* `C43_vec_undefined`: with AVX, `resizing_simd_cast` of masks of 4 doubles (or 4 floats) to 8 floats leaves the upper lanes
  undefined (`_mm256_castsi128_si256`, `__intrin_bitcast`).
* `C43_bits_shrink_phantom`: `resizing_simd_cast` of AVX-512 masks to fewer lanes keeps the dropped bits; `find_last_set` of the
  result is out of range.
* `C19_split_sizes_i386_rejected`, `C19_split_parts_i386_rejected`: on i386 `split` of a `fixed_size<24>` object of 1-byte elements
  into three parts of 8 does not compile: 5 to 8 bytes of 1- or 2-byte elements have a one-register ABI but are stored in two
  registers at the end of the object, which `__extract_part` (simd_fixed_size.h:957-958) then returns instead of one register.
* `C19_split_mask_partial_avx_wrong`: `split` of a mask with padding in a 32-byte register (6 floats) into two halves cuts the
  register, not the lanes, in the middle.
* `C20_split_i386_false_promise`: i386 `long double` (12 bytes): `split` of a fixed_size simd into scalar simds promises 16-byte
  alignment for elements at multiples of 12.
* `C44_nearbyint_zero`, `C44_nearbyint_wrong`: without a rounding instruction `nearbyint(-0.25)` is `+0` (in the downward direction
  `nearbyint(0.25)` is `-0`); `C44_trunc_downward_wrong`: `trunc(0.25)` is `-0` in the downward direction; `C44_x86_round_wrong`: with SSE4.1,
  AVX or AVX-512 `round(-0.25)` and `round(-0.)` are `+0`; `C44_sse2_wrong`: `trunc` and `round` of SSE2 `float` vectors;
  `C44_neon_v7_wrong`: `trunc`, `floor` and `ceil` of `-0.f` on ARMv7 (conversion to `int` and back, simd_neon.h:176-186).
* `C45_wchar_wrong`: conversions of `fixed_size` simds from `wchar_t` to `int` and from `char32_t` to `unsigned int` are implicit although the
  integer conversion ranks are equal.
* `C46_bw_without_vl_ill_formed`: with AVX512BW and without AVX512VL, conversions of 16 elements from 16 to 8 bits do not compile (`__lo256` of
  a register of 32 bytes, simd_x86_conversions.h:445-447).
* `C49_integral_sign_wrong`: `modf(-0.25f, &i)` stores `+0.f` in `i` where `trunc` loses the sign (C44).
* `C51_hypot3_elementwise_wrong`: in directed rounding modes `hypot(x, y, z)` of an element depends on whether all elements of the vector are
  normal numbers.
* `C51_armv7_wrong`: with ARMv7 NEON `hypot` of an infinity and a finite number is a NaN (simd_math.h:996-1013: infinity times zero).
* `C37_min_ties`, `C37_scalar_clamp_nan`: for operands that compare equal (`0.` and `-0.`) or with a NaN operand `min`/`max` return the second
  operand for vectors and the first for scalars (and the last lanes of some `fixed_size` objects); `clamp(NaN, lo, hi)` is `lo` for scalars and NaN for
  vectors.  `minmax` does not exist for the scalar and `fixed_size` ABIs (no `_S_minmax`).
* `C52_neon_any_of_wrong`: NEON `any_of` of every mask with padding (e.g. 3 floats) is true (the padding is or-ed in, simd_neon.h:427-429).
* `C52_neon_popcount_padding_wrong`, `C52_ppc_popcount_wrong`: `popcount` and `some_of` count padding elements, which comparisons set.
* `C52_neon_popcount_small_wrong`: NEON `popcount` of masks of 2 or 4 bytes copies 8 bytes from them (`__lo64`, simd.h:2099).
* `C52_neon_popcount_long_wrong`: with 32-bit `long` NEON `popcount` of two 64-bit lanes counts the halves of the first lane.
* `C52_neon_some_of_small_wrong`: NEON `some_of({true, true})` of two 8-bit lanes is true (16-bit arithmetic is done in `int`);
  `C52_neon_some_of_padding_wrong`: `some_of` of 8-byte masks with padding is true if no lane is set.
* `C53_int64_to_float_false`: 64-bit integers to `float`, eight or more at a time with AVX2 or AVX512F and without AVX512DQ, are rounded more than
  once (simd_x86_conversions.h:663-693 and 1267-1325), so `static_simd_cast<float>` is not `static_cast<float>` for e.g. `(2^24+1)*2^32+1`.  Proved
  instead: relative error at most `2^-21`, exact for integers of 24 significant bits (`C53_int64_to_float_close_partial`).
* `C53_uint_zero_down_false`: `unsigned` to `double` without AVX512F adds and subtracts `2^31` (819-839), so zero becomes `-0.` in the downward
  direction.
* `C54_ldexp_i386_false`: on i386 a register of two 4-byte elements has 16 bytes, so `ldexp`, `frexp` etc. of `fixed_size_simd<double, 4>` with SSE2
  copy 16 bytes starting at byte 8 of the 16-byte object of exponents (`_M_extract_argument`, simd_fixed_size.h:439-446): out of bounds.
* `C54_fpclassify_sse_false`: on x86 with SSE but without SSE2 `int`s are not vectorized, so the result of `fpclassify` of a register of two to four
  `float`s consists of scalars; `_S_fpclassify` (simd_builtin.h:2396-2412) has no branch for that and is ill-formed.
* `C55_large_false`: for large arguments (beyond `2^31`) the quotient by pi/2 no longer fits the `int` quadrant and the reduced argument is not reduced:
  `sin` and `cos` of `simd<double>` elements equal to 1e20 are about 1e31 and 1e32 (simd_math.h:367-399), with no fall back to `std::sin`.
* `C55_zero_down_false`: with rounding toward negative infinity `sin(+0)` is `-0`.
* `C56_where_range_ilp32_false`: the iterator keeps the mask in a `size_t`; where that has 32 bits, lanes 32 and up of a mask with more than 32
  lanes (one-byte elements with AVX-512BW on i386) are never visited (simd.h:3380-3397, 3429-3430).
* `C59_sph_legendre_false`: `sph_legendre` calls `std::assoc_legendre` (simd_math.h:1470-1481).
* `C59_special_missing`: `beta`, `comp_ellint_1/2/3`, `cyl_bessel_i/j/k`, `cyl_neumann`, `ellint_1/2/3`, `expint` and `riemann_zeta` are declared
  for `simd`, but no ABI has the implementation function they call: every call is ill-formed (simd_math.h:1422-1433, 1462).
* Not a theorem: the conversion from `std::array` to `simd<T, fixed_size<N>>` is declared (`_SimdCastType`, simd_fixed_size.h:1253) but not defined
  anywhere: using it fails to link.
* `C62_shift_ill_formed`: `where(k, v) <<= x` and `>>=` never compile (simd.h:3231-3232 name `_S_shift_left`, `_S_shift_right`; the functions are called
  `_S_bit_shift_left`, `_S_bit_shift_right`); `C62_mask_ill_formed`: no compound assignment of masks compiles (`_MaskImpl*` has no `_S_masked_cassign`).
* `C63_signed_division_wrong`: consequence of C23 for programs: `v / 2` with three `long` equal to `LONG_MIN` on AVX2 is undefined although each
  element's quotient is defined.
* `C63_x86_bytes_wrong`, `C63_x86_shorts_wrong`: consequences of C27 and C26 for programs on SSE registers: `v0 >>= v1` of signed bytes with counts of 8 or more,
  and `v0 <<= v1` of 16-bit elements, where a count of 17 changes the next element.
* `C63_min_zero_wrong`: `min(-0.f, 0.f)` is the first argument with the scalar ABI (as with `std::min`) and the second one with vectors.
* `C63_native_masked_load_wrong`: consequence of C13 for programs: `where(v0 == v1, v2).copy_from(p)` with three `long` in a native AVX2 register of four
  reads beyond the array, although the scalar program is defined for each element.
* `C64_find_last_set_wrong`: consequence of C32 for programs: `if (any_of(a != b)) c = a[find_last_set(a != b)]` with four `unsigned long` in an
  AVX-512VL register reads `a[7]`.
* C66: the generic `nearbyint` raises inexact for every number that is not an integer (`C66_nearbyint_inexact`); the generic `rint` raises inexact for odd integers from `2 ^ mbits`
  (`C66_rint_inexact`); the generic `nearbyint`, `rint`, `trunc`, `floor` and `ceil` raise invalid for quiet NaNs (`C66_rounding_quiet_nan`); `round` raises invalid for infinities and quiet
  NaNs even with SSE4.1 (`C66_round_invalid`); the SSE2 `trunc` of `float` raises invalid for every number outside the range of `int` (`C66_trunc_sse2`).
* C66: `frexp` with AVX-512 but without AVX512DQ and AVX512VL raises invalid for zeros and infinities (`C66_frexp_invalid`); `isnan` and `isinf` raise invalid for signalling NaNs
  (`C66_isnan_signalling_wrong`).
* C66: `modf` raises invalid for infinities (`C66_modf_infinite_invalid`) and, through `trunc`, inexact for numbers that are not integers (`C66_modf_partial`); `logb` without AVX-512 never raises
  divide-by-zero for zeros (`C66_logb_zero_wrong`), and raises overflow if one element is subnormal and another one large (`C66_logb_overflow_wrong`).
  `frexp` without AVX-512 raises overflow and inexact exactly if one element is not a normal number (a zero, for example) and another one is a number of at least 65536 (`float`)
  or `2^512` (`double`) (`C66_frexp_overflow_wrong`).
  `frexp` with AVX-512 (all variants) converts the exponent to `int` before it selects, so it raises invalid exactly if an element is zero, infinite or a NaN
  (`C66_frexp_avx512_invalid`); `logb` with AVX-512 never raises division by zero (`C66_logb_avx512_wrong`).
  `ldexp` of `float` with AVX-512 raises inexact for zeros and infinities with an odd exponent from `2 ^ 24`, because the exponent is converted to `float` (`C66_ldexp_zero_wrong`).
* C66: without AVX-512 comparisons look at padding, and raise invalid for a signalling NaN there (`C66_comparison_padding_wrong`); division makes the padding of the divisor 1, so that only a
  signalling NaN in the padding of the dividend raises anything (`C66_division_padding`); `where(y != 0, x) /= y` divides all elements and raises divide-by-zero
  (`C66_masked_division_wrong`).
* **Digits of `bool`** (C67, `C67_digits_bool_wrong`). `__digits` of `bool` is 8 and `__digits10` is 2 (numeric_traits.h:39-44): `bool` has one value bit, `numeric_limits<bool>::digits` is 1 and `digits10` is 0. No code in the library uses these traits with `bool`.
* **C68** Whether the divisor is known matters: `simd<int, _VecBuiltin<12>>(INT_MIN) / 2` is undefined with a known divisor (operator of the vector type with -1 in the padding of the divisor, simd_x86.h:1388-1389, simd_builtin.h:1666-1677) and right with an unknown one (`C68_known_divisor_wrong`).
* **C68** `v >> w` of `signed char` elements with counts from 8 to 31, which C++ defines: known operands go to the operator of the vector type, undefined for such counts (simd_x86.h:1862-1864), unknown ones give 0 on SSE and the right value with AVX2 (`C68_known_shift_wrong`).
* **C68** See also C15: `where(k, v) = -0.0` writes +0.0 if the compiler knows the value.
* C70: with AVX-512BW, `static_simd_cast<int>(native_simd<signed char>)` has the return type `fixed_size_simd<int, 64>`, which is not a valid type (`max_fixed_size<int>` is 32): `C70_invalid_result`.
* C70: `static_simd_cast<simd_mask<float>>(simd<int>)` is accepted and returns a `simd<float>`: `C70_static_cast_mask_target`.
* C70: `__proposed::simd_cast` of masks is never viable for a mask type as template argument (the constraint tests conversion to `bool`, the `value_type` of masks): `C70_simd_cast_mask_never`.
* C70: `to_native` of masks and `to_compatible` of values and masks declare `size_t _Np` where `fixed_size` has `int`, so deduction always fails: `C70_never_deduced`.
* C71: a default-initialised `fixed_size` mask keeps the indeterminate bits above its lanes when all its lanes are assigned; `all_of`, `any_of`, `none_of`, `popcount` then answer wrongly (for every number of lanes other than 1, 8, 16, 32, 64, ...): `C71_fixed_wrong`. `to_fixed_size` of a mask is written this way: `C71_to_fixed_size_wrong`.
* C71: likewise `find_last_set` of AVX-512 masks with fewer lanes than bits: `C71_k_find_last_set_wrong`.
* C31: `popcount` of a vector mask in a 32-byte register with elements of 1, 2 or 4 bytes has no `return` when the target has no POPCNT instruction, e.g. `-mavx2 -mno-popcnt` (simd_x86.h:5123-5133): `C31_x86_popcount_no_return`; all other registers: `C31_x86_popcount_partial`.

Read in the code while modelling, but outside the model (no theorem depends on them):

* `__is_zero` (simd_x86.h:123-161) has no return statement for run-time arguments without SSE4.1; its only callers call it in constant evaluation.
* The fallback of `__testz` without SSE4.1 (simd_x86.h:214) tests for *some* zero element, not for all; no caller reaches it, because `_S_any_of` and `_S_none_of` use `__testz` only with SSE4.1.
* The member type that converts from and to `fixed_size_simd` declares a constructor from `array` that is never defined (simd_fixed_size.h:1253): using it does not link.
* The condition under which the padding of a register is initialised so that it holds no signalling NaN (simd.h:2445-2458) is inverted: registers without padding are initialised, those with padding are not (`C66_padding_init_wrong`). Elsewhere the model lets padding hold anything, so the theorems hold in both cases; what differs is which floating-point exceptions operations on the padding raise (C66 counts the exceptions of all elements of a register).
* **C74** `fma`/`ellint_3` with `fixed_size` arguments of different types: the second template of `_GLIBCXX_SIMD_MATH_CALL3_` only looks at the first of the last two arguments that is a `simd`, and is disabled if the first argument is a floating-point `simd`; `fma(1.f, x, d)` and `fma(x, d, d)` (`x` of `float`, `d` of `double`) do not compile although the TS requires them (`C74_three_wrong`). `remquo(1.f, x, &q)` and `copysign(x, 1.f)` do not compile for any ABI tag (`C74_remquo_copysign_wrong`). `hypot` is not restricted to floating-point types (`C74_hypot_integers`).
* **C75** `fixed_size` objects of `wchar_t` and `int` can be mixed although neither rank is greater (`C75_wchar_wrong`, follows from C45). Not a deviation from the TS but a trap: `v << n` takes `n` as `int`, so a `long` count `0x100000001` is a shift by 1 and passes the check for too large counts (`C75_shift_count_wraps`); and every operator on two `fixed_size` masks of the same size and different element types is ambiguous (`C75_masks`) while `k &= l` compiles (`C75_mask_compound`).
* `C76_rejected`, `C76_assign_rejected`: element references reject operands that [simd.reference] requires them to accept: with `simd<float> f` neither `f[0] = 1.5` nor
  `f[0] += 1.5` compiles, `i[0] <<= 1L` does not for `int` elements, `u[0] += s` not for `unsigned` elements and a `short`; while `f[0] = d[0]` with a `simd<double>` does.
* `C77_first_only`, `C77_accepted`: the generator constructor looks at the type of `gen(0)` only; the results for other indices are converted with `static_cast`, narrowing or not;
  `simd<int>([](auto i) { return i > 2; })` is accepted although `simd<int>(true)` is not.
* `C78_scalars`, `C78_accepted`: `where(k, f) = 1.5` and `where(k, f) += 1.5` compile for `simd<float> f` and narrow silently, while `f += 1.5` is rejected; `where(k, m) = x` compiles
  for a mask `m` and every arithmetic type of `x`.
* `C79_small_rejected`: `simd<int, Abi>(__m128i)` does not compile for two `int`s (at most 8 bytes of an integer type other than `long long`), although the
  object converts to `__m128i` (`__vector_bitcast<_Tp>` makes a vector `_SimdWrapper` has no constructor for, simd_builtin.h:893, simd.h:2485).
* `C79_to_vector_rejected`: `static_cast` of a simd of integers to its vector type does not compile (`__builtin()` does not exist, simd_builtin.h:832).
* `C79_mask_from_register_rejected`, `C79_mask_to_register_rejected`, `C79_mask_to_vector_rejected`: masks of floating-point types and of AVX-512 cannot be constructed
  from registers; masks convert to no register type (`__intrin()` does not exist, simd_builtin.h:853; `long long` may be an exception), only those of some
  signed types convert to their vector type.

## Plan per property

* **C01** Elementwise operators on fixed_size simd are lane-wise - Model `_SimdTuple` as the list of its registers (active lanes + padding lanes); model the per-chunk application functions; refine to a flat lane list by induction over the register list.
* **C02** fixed_size comparisons produce the lane-wise mask and only that - Model `_M_test` (prepend recursion) over the `_BitMask` word model; prove lane `i` = comparison and unused bits zero by induction over registers.
* **C03** Mask reductions on fixed_size masks equal their definitions - `_MaskImplFixedSize` reductions over the `_BitMask` word model, proved equal to list-level definitions.
* **C04** Mask logical operators are lane-wise and never create phantom lanes - Invariant `Sanitized` preserved by every operation; induction over an operation history; lane refinement for each operation.
* **C05** A bit mask, sanitised or not, answers queries about its N bits only - Word-level model of `_BitMask` (array of `BitVec`), queries proved equal to list-level definitions; `count` of the unsanitised type is wrong in the code (returns `none()`): negation proved, `_partial` for the rest.
* **C06** Appending and extracting mask parts - `_M_prepend`/`_M_extract` on words, proved to be append / take-drop on lanes, with the sanitised tag computed by the code's formula.
* **C07** Every fixed_size<N> has a storage decomposition of valid native ABIs - ABI selection as total functions over a feature record; well-founded recursion; layout theorem.
* **C08** ABI deduction returns an ABI of exactly the requested width - Same model; `__deduce_impl` as Option-valued function.
* **C09** Element writes through operator[] are local - `operator[]`/`_M_set` recursion over registers, refined to `List.set`/`List.get`; induction over write histories.
* **C10** Generator construction - Generator modelled with a call log (writer style) so that 'exactly once per index' is a statement about the log.
* **C11** Loads read exactly size elements - Byte/element-addressed partial memory (`Nat -> Option`), reads of unmapped cells give UB; theorem: defined whenever exactly the `size` cells are mapped.
* **C12** Stores write exactly size elements - Total memory update; frame theorem.
* **C13** Masked load touches only selected elements - Bit iteration and hardware masked load modelled over partial memory.
* **C14** Masked store touches only selected elements - Same for stores; AVX-512 mask-register path takes the raw mask register; counterexample through `!=` on partial registers. Stores to memory of another type: which of the three branches runs (native, converted in pieces, element by element), the cutting into pieces with their masks, for every pair of types and every target; C14_converting_store_no_x86 for every mask, C14_converting_store_partial for clean masks on x86, C14_converting_store_out_of_bounds otherwise.
* **C15** where-expression assignment is a lane-wise select - Blend / masked assign models for vector masks, bitmasks, bool; refinement to `Spec.select`.
* **C16** reduce combines every lane exactly once - Reduction tree model (registers, permutes, extract halves, pairwise combination, partial handling); generic over commutative semigroup; permutation/multiset argument. IEEE sums and products (`Props/ReduceFloat`): no associativity; the result has the value of an expression that uses every lane exactly once, for any format, rounding mode, NaNs and infinities; only the sign of a zero (negation proved) and the choice of NaN are left open.
* **C17** Masked reduce ignores unselected lanes - Identity-filled blend then reduce; floating point as for C16.
* **C18** Masked hmin/hmax return the extremum of the selected lanes - As C17 with the code's identity; negation for infinities, `_partial` for values bounded by the identity. `Props/ReduceExtremum`: the same for the bit patterns of any integer or floating-point type, with the exact condition under which the result is wrong. Simplification: one element operation for all registers, although the minimum of `simd_abi::scalar` and of vectors differ for `-0`, `+0` (the theorems only use that the operation returns one of its operands, not greater than either).
* **C19** split and concat are inverse - List-level models of split/concat code paths over registers; round-trip theorems. Props/SplitFixed: the calls on fixed_size objects compile (induction over the registers), except for 5 to 8 bytes on i386.
* **C20** split never loads with more alignment than the address has - Arithmetic over Nat: the expression in the code divides the address.
* **C21** Casts between fixed_size simds convert each lane - `Model/Convert`: the converter's case analysis (one to one, one to many in up to four stages, many to one, scalars, native to and from fixed_size, the implicit conversion through an array), `__convert_all`, `__to_simd_tuple` and `__vector_convert` as functions on register lists that are `none` where the program would not compile; proved equal to `List.map static_cast` for all sizes, decompositions and consistent targets by induction on the size.
* **C22** Implicit conversions are value preserving - Arithmetic types as records (digits, exponent range, signedness), values as integers times powers of two; decision table plus value theorem.
* **C23** Division and modulus never trap because of padding - Signed division with UB (`Option`), padding fill functions; negation witness for signed partial; theorem for unsigned and for full registers.
* **C24** 8-bit multiplication emulation - BitVec 16/32/... model of the emulation; lane theorem by modular arithmetic.
* **C25** Integer division through floating point is exact - Rational model of correctly rounded division with p digits; truncated result theorem.
* **C26** Left shifts of narrow lanes - BitVec models of every emulation path; lane theorems, negation for the 16-bit SSE path.
* **C27** Right shifts of narrow lanes - BitVec models; negation for signed byte/short SSE paths; `_partial` for amounts below the width.
* **C28** 64-bit arithmetic right shift emulation - BitVec 64 model of the two 32-bit halves.
* **C29** Storing a mask as bool array - Nat/BitVec model of the multiplication trick; theorem for every number of lanes.
* **C30** Bit mask / vector mask representation changes preserve lanes - BitVec models of the conversions; lane theorems.
* **C31** Mask reductions on vector masks - Vector masks as lists of lanes with padding; each code path.
* **C32** Masks produced by AVX-512 comparisons have no phantom lanes - k-register model; negation theorem for `!=` (integer); theorem for the others.
* **C33** isless & co. implement IEEE quiet comparisons - Floating-point formats parametric in (exponent bits, mantissa bits); decode to an ordered value; theorem for all bit patterns.
* **C34** Floating-point classification by bit patterns - Same format model.
* **C35** Rounding functions round correctly - Rational model with round-to-nearest-even to p digits.
* **C36** Iteration over set lanes - Loop model with fuel eliminated by a termination proof; visited list = filter of range.
* **C37** min, max, minmax and clamp - Lane-wise model over the values of integer and floating-point elements; exact for integers, exact `std::clamp` for vectors.
* **C38** Derived comparison operators - All six operators on all register geometries against the relation of the values (integers of either signedness, IEEE formats), including the 8-byte and AVX-512 paths.
* **C39** Swapping element references - Smart reference model on the write model of C09.
* **C40** Alignment tags are sufficient - Nat arithmetic: divisibility of chunk offsets.
* **C41** Operators on native masks - Vector masks as registers with arbitrary padding and `k`-masks as words; representation lemma per operation.
* **C42** Loading a mask from a bool array - byte-level models of the x86 load sequences over partial memory; lane theorems.
* **C43** resizing_simd_cast - element-level model for values; byte-level register model with undefined halves for vector masks, words for bit masks; negation theorems for the leaks.
* **C44** Rounding functions keep the sign - Same model as C35 (IEEE arithmetic on bit patterns with signed zeros); negation theorems for the paths that lose it.
* **C45** Implicit conversions between fixed_size simds - Same model as C22 plus `__converts_to_higher_integer_rank` over the common type of the language.
* **C46** Integer conversions in x86 registers - the `if constexpr` cascade of `__convert_x86` is a function from the configuration to a straight-line program of
  instructions (`Expr`); the programs are executed symbolically (every byte is zero, an input byte, a sign byte, or unknown), the symbolic execution is
  proved sound for all register contents by induction on programs, and the kernel evaluates it for the complete finite table of configurations; a lemma
  about little-endian numbers turns bytes into values. The result is linked to the element-level model of C21.
* **C47** frexp, **C48** logb - Vectors are lists (the code branches on `all_of`); IEEE multiplication on bit patterns (`Spec/FloatMath`); bit operations on
  exponent and significand fields are turned into arithmetic on natural numbers; scaling of subnormal numbers is proved exact.
* **C49** modf - exactness of `x - trunc(x)` (C35); the sign of the integral part depends on `trunc` (C44), hence partial.
* **C50** copysign, fabs - bit operations on sign and magnitude fields.
* **C51** hypot - Forward error analysis over the rationals of every rounded operation (products, sums or fused, square root by integer square
  roots, scaling by powers of two, underflow included); the two paths are proved equal bit for bit (three operands: in round-to-nearest, using
  `sqrt(RN(h * h)) = h`).
* **C52** NEON and PowerPC masks - registers as in C30; the register as one number (induction over elements) for the word comparisons, modular
  arithmetic for the pairwise sums, a complete table over 8 Booleans (kernel evaluation) for the bit selection; negation theorems for the findings.
* **C53** x86 conversions from/to floating point - the `if constexpr` cascade yields one term per element; all instantiations are executed
  symbolically (kernel evaluation of the complete table) and every element is one of a dozen term shapes; the shapes are proved correct for all values
  over the rationals (exact products, one rounding; error analysis for those with several roundings).
* **C54** mixed-type fixed_size functions - objects are lists of slots with the padding their C++ layout has (`Model/Chunks.lean`), copies that leave an
  object are undefined; the register list is given in closed form, register sizes are powers of two, and a position invariant (multiple of the
  register size plus offset below it) is kept by every chunk; induction over the chunks.  For other result types the registers produced per chunk are
  computed in closed form and `__optimize_simd_tuple` is shown to regroup them, by induction on the number of elements.  The return statements of
  `fpclassify` on one register, which build the registers of `int` by hand, are modelled in `Model/ClassifyRet.lean` (cases of the register sizes of
  `int` and the floating-point type; which constructor of `_SimdTuple` is selected is not modelled).
* **C55** `sin`, `cos` - the functions are modelled operation by operation on bit patterns, with IEEE operations rounded to nearest
  (`Model/Trig.lean`).  The polynomials are compared with the Taylor polynomials of Mathlib's functions, the constants with 27 digits of pi;
  rounding errors are propagated through every operation with rational bounds, contracted or not.  The reductions are shown to be exact except
  for the stated roundings (products of short significands are representable).  Signs, zeros, infinities and NaN are tracked separately.
  Relative errors of small arguments: reduction does nothing to them in any of its forms, and the last addition of the series rounds next to a
  representable number, so that underflow of the cube does not matter.
* **C56** iteration with `where(k)` - the iterator and the range-based for statement are modelled with the widths of `size_t` and `unsigned long` as
  parameters (`Model/WhereRange.lean`); the loop is shown by induction on the mask to be `_S_bit_iteration` on the truncated mask.
* **C57** scalar operators - the operators are modelled as C++ expressions: promotion, usual arithmetic conversions, undefined signed overflow
  (`Spec/IntExpr.lean`, `Model/Scalar.lean`).  Proof: the type of the expression is as signed as the element type and at least as wide, so the
  exact result is computed there or wraps, and conversion back is reduction modulo 2^w.
* **C58** `ldexp` - the AVX-512 implementation is modelled with the VSCALEF instruction on bit patterns and the conversion of the exponents
  (`Model/Ldexp.lean`); the specification is `Fmt.IsLdexp` (`Spec/Ldexp.lean`).  Proof: an exponent that is changed by the conversion to the
  floating-point type is so large that the result is infinite or zero or the smallest number, before and after.
* **C59** math functions by scalar calls - the scalar function is an arbitrary monadic function, so that the theorems speak about the order and
  number of calls (`Model/MathCall.lean`).  Proof: the generator loops of C08 are equal to `mapM` over the indices.
* **C60** layout of `fixed_size` objects - the bytes of the nested structures, with indeterminate padding, are modelled (`Model/Image.lean`) over an
  arbitrary representation of the element type.  Proof: induction over the structures; the registers are sorted by decreasing alignment (C40) and
  all but the last are full.
* **C61** `abs` and `signbit` of integers - the three implementations (`std::abs`, `PABS*` in a wider register, GNU vector selection) are modelled on bit
  vectors (`Model/IntAbs.lean`); `signbit` uses the comparisons of C38.
* **C62** Operators of where expressions - name lookup in the implementation classes is modelled as a table from names to operations
  (`Model/WhereExpr.lean`), on top of the masked operations of C15; the operations on elements are a parameter.
* **C63** Programs on simd objects act element by element - `Spec/Program.lean` defines a small imperative language and what a program does with one
  element; `Model/SimdClass.lean` runs the same program with the operators of the class templates on an implementation class given as a record
  (`fixedImpl`). Refinement by induction over the program, from the element-wise theorems of C01-C04, C09-C15, C23, C38.
  `Model/SimdNative.lean` gives the implementation classes of the native ABIs (one register; masks with arbitrary padding): `C63_native_partial`,
  `C63_scalar`, and `C63_abi_independent` (a program gives the same elements with every ABI).
  `Model/SimdX86.lean` plugs the x86 operators of 8-, 16-, 32- and 64-bit integers in (`C63_x86_bytes`, `C63_x86_shorts`, `C63_x86_ints`, `C63_x86_longs_partial` and the native versions):
  the counts and divisors in the padding do not matter, signed division is fine in partially filled registers.
  `Model/SimdPpc.lean` does the same for the shifts of PowerPC (`C63_ppc_partial`).
  `Model/SimdMath.lean` adds calls of functions: `abs`, `min`, `max`, `clamp`, `signbit` of integers (`C63_int_functions`), and for floating-point types
  the operators of IEEE 754, `abs`, `fabs`, `sqrt`, the functions that round, `copysign`, `fma`, `min`, `max`, `clamp`, functions of the C library with one
  to three arguments, classification and comparison (`C63_ieee`), from C33-C35, C38, C50, C59, C61. `Spec/ElemFuns.lean` leaves the result open where the
  ABIs differ: which zero `min`/`max` return, NaN arguments of `min`/`max` and of functions that round, the sign of a zero that a function that rounds returns.
  `sqrt` and `fma` of the processor and the C library are taken to be those of IEEE 754.
* **C64** Control flow that depends on masks - `Spec/Control.lean` adds conditions, `while`, indices from masks and reductions to the language of C63 and
  says what a program does with all elements and whether it ends; `Model/Control.lean` runs it with the free functions of the library in front of the
  mask implementation classes. Simulation by induction over the program and the number of rounds, from C03, C16, C17, C31 and C63. `C64_ieee` is the
  instance for floating-point types with the functions of `Spec/ElemFuns`.
* **C65** Programs that mix element types - `Spec/Multi.lean` composes the programs of C64 on the objects of a family of types with conversions between
  them; `Model/Multi.lean` runs them with the conversion functions of `Convert` and `Resize`. Simulation by induction over the program, from C64, C21 and C43.
  `Model/MultiAbi.lean` allows any ABI tag for each type, with the conversions between masks of any two ABIs (`maskCast`): `C65_abi_partial`. Not proved,
  because the library is wrong there: `resizing_simd_cast` from a vector mask (bit mask) to a larger one of the same sort, `find_last_set` of bit masks
  with unused bits, masked loads that use the mask register as it is. `Spec/ArithTypes.lean` and `Model/ArithTypes.lean` put integer and floating-point
  types with their operators, functions and `static_cast` together: `C65_arithmetic_partial`, and with the integer operators of x86 and PowerPC
  (`Model/ArithX86.lean`): `C65_x86_partial`, `C65_ppc_partial`.
* **C66** Floating-point exceptions - `Spec/FpExc.lean` says which exceptions IEEE 754 operations raise; `Model/FpExc.lean` repeats the functions in a monad that trunc, floor and ceil with an instruction: values and exceptions from the immediates of the code (C66_round_instructions). `Model/MathExc.lean` does the same for modf and logb (C66_modf_partial, C66_logb_partial: values from C49 and C48, exceptions from the tests and the multiplication); `Model/FrexpExc.lean` for frexp, whose exceptions are computed exactly (C66_frexp_partial, C66_frexp_overflow_wrong).
  collects the exceptions of every operation (values agree with the earlier models by `rfl`). Comparison functions are proved for every path and `fixed_size`, rounding functions with
  exact characterisations of what they raise, division with its padding.
* **C67** Numeric traits (`Model/NumTraits.lean`, `Spec/NumTraits.lean`). The search for the reciprocal overflow threshold is modelled with the IEEE operations of any format, rounding direction and NaN choice. Proved in units of the smallest subnormal number: the threshold is `2 ^ (mbits - 2) + 1` units, the two bounds of the search enclose it and their distance halves, and the comparison in the search (scaled by the radix to avoid an overflow) is exact. Integer limits by integer arithmetic in the promoted type. `digits10`: `10 ^ 643 ≤ 2 ^ 2136`, raised to powers, shows that the number is never too large; that it is the greatest needs a bound on the error of `643 / 2136`, so it is proved up to 15436 digits, and it is false for 15437 (`C67_digits10_bound`). Negation for `bool`, which takes the formula for integers of 8 bits.
* **C68** Model/KnownX86: the branches for known operands on top of `x86IntReg`, with knowledge as an arbitrary predicate of operator, register and values. A `Build` collects all choices of a build (knowledge about operands and masks, code paths, paddings). Theorem: any build computes the elements the specification of C65 says, hence two builds agree. Negation for `/` of signed integers in partially filled registers and for `>>` by counts that are too large for the vector type.
* **C69** Model/Bitset: the four functions on top of `MaskSplit` (conversion of masks of every ABI to and from `_BitMask`), `Native` and `Tuple` (complement, masked assignment). Spec/Bitset: `test(i)` is bit i. Theorems by the lane lemmas of C10/C12/C15/C17.
* **C70** Model/CastType: the partial specializations of the return type, the constraints, deduction of the non-type parameter, the values of `to_fixed_size`/`to_native`. Spec/CastType: the relation `Returns` and `make_signed` of the standard. Theorems: equivalence with the relation for all platforms, the number of elements, validity; negations for the invalid result type, the mask as template argument and the functions that can never be called.
* **C71** Model/UninitMask: an arbitrary object and a list of `_S_set`; Spec/Written: the value assigned last. Proof by induction on the history. The property is false for `fixed_size` masks whose number of lanes does not fill the words (`C71_fixed_wrong`, for every such number) and for `find_last_set` of AVX-512 masks.
* **C72** Spec/Pack: programs of C65 with `split` and `concat` on lists of elements. Model/Pack: the functions of Model/Split and Model/MaskSplit on the bytes of the registers of program objects; result objects have arbitrary padding. Proofs: a program theorem for any correct implementation (`runPack_spec`), C19 for the functions. Instances for all arithmetic types; termination. Partial because C65 and C19 are (masks of partially filled 32-byte registers split in two; `long double` on i386).
* **C73** Model/Rebind: the two traits on top of `deduce` (C08), `none` for a missing member `type`. Proved from the validity conditions of the four kinds of tags, for all targets.
* **C74** Mixed arguments of math functions: `Spec/MixedCall` states the rule of [parallel.simd.math] with the values of the types (`Converts`, `Evaluates`); `Model/MixedCall` has the templates of the macros as candidates, deduction, viability and partial ordering. Proved exact for the two-parameter macro and for both `hypot` (general lemma: if every non-empty set of deduced parameters has its template, the best candidate is unique because implicit conversions are asymmetric, C45); the three-parameter macro, `remquo` and `copysign` are characterised exactly and refuted. `Model/MixedExp`: the functions with an integer exponent; exact condition with the conversions of `Spec/MixedOps`, and no exponent is changed.
* **C75** Operators on operands of different types: `Spec/MixedOps` has the conversions of [simd.ctor] in terms of values and ranks; `Model/MixedOps` the friends found by argument-dependent lookup, their viability and the ambiguity between them. Proved from C22 and C45: the conversions are asymmetric, so at most one friend is viable.
* **C76** Operand types of assignments to elements - The constraints of the member functions of `_SmartReference` as functions of the types (`RefTypes`), on top of the traits of C45. Exact characterisation of the operands accepted (C76_assign_partial, C76_compound_partial); operands of the element's type and of type `int` are accepted wherever the element accepts them (C76_own_type, C76_int); negation: everything else that is narrowing is rejected (C76_assign_rejected, C76_rejected).
* **C77** Which values and generators construct a simd object - The constraints of the two constructors (`RefTypes`), a generator is the sequence of its result types. Broadcast in full (C77_broadcast); generators: nothing is refused wrongly (C77_generator_complete), exact for one result type other than `bool` (C77_generator_partial); negation: only the first result type is looked at, and `bool` is accepted (C77_first_only, C77_accepted).
* **C78** Operand types of where expressions - Overload resolution of `__to_value_type_or_member_type` (`WhereTypes`), on top of the conversions of C75. Exact for operands of simd and mask type (C78_assign_objects_partial, C78_compound_objects_partial); nothing is refused wrongly (C78_complete); negation: every arithmetic operand is accepted (C78_scalars, C78_accepted).
* **C79** Conversions between simd objects and intrinsic types - Types as pairs of element type and size, objects as rows of bytes (`Intrin`); which overload is taken and whether its body compiles. Positions of the elements and the round trip; exact conditions; negations for the combinations that do not compile.
* **C80** Bit operations - Registers as strings of bits, vector operations at a width (`RegBits`); induction over the elements shows that an operation that acts on every bit is the same at every width that divides the register; every width the code chooses divides it. The masks for the sign bit are computed in the model with IEEE addition and subtraction in any rounding mode (`SignMask`); `0 + 1` and `0 - 1` are exact.
