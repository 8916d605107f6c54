{
 "claims": [
  {
   "property": "C01",
   "status": "proved",
   "theorems": [
    "StdSimd.Props.C01_size",
    "StdSimd.Props.C01_unary",
    "StdSimd.Props.C01_increment",
    "StdSimd.Props.C01_binary",
    "StdSimd.Props.C01_ternary",
    "StdSimd.Props.C01_broadcast",
    "StdSimd.Props.C01_native_binary"
   ],
   "note": "every operation that is total on elements, for every consistent target, element type and n >= 1; division is C23"
  },
  {
   "property": "C02",
   "status": "proved",
   "theorems": [
    "StdSimd.Props.C02_compare",
    "StdSimd.Props.C02_not_equal",
    "StdSimd.Props.C02_classify",
    "StdSimd.Props.C02_classify_raw",
    "StdSimd.Props.C02_negate",
    "StdSimd.Props.C02_native_compare"
   ],
   "note": "n <= 64 (the code's limit for fixed_size masks)"
  },
  {
   "property": "C03",
   "status": "proved",
   "theorems": [
    "StdSimd.Props.C03_all_of",
    "StdSimd.Props.C03_any_of",
    "StdSimd.Props.C03_none_of",
    "StdSimd.Props.C03_some_of",
    "StdSimd.Props.C03_popcount",
    "StdSimd.Props.C03_find_first_set",
    "StdSimd.Props.C03_find_last_set",
    "StdSimd.Props.C03_all_of_const",
    "StdSimd.Props.C03_any_of_const",
    "StdSimd.Props.C03_some_of_const"
   ],
   "note": "fixed_size masks of 1..64 lanes (all that the code admits); run-time and constant-evaluation branches"
  },
  {
   "property": "C04",
   "status": "proved",
   "theorems": [
    "StdSimd.Props.C04_mask_programs",
    "StdSimd.Props.C04_reductions_of_programs"
   ],
   "note": "all programs of mask operations on fixed_size masks of any width"
  },
  {
   "property": "C05",
   "status": "partial",
   "theorems": [
    "StdSimd.Props.C05_all",
    "StdSimd.Props.C05_none",
    "StdSimd.Props.C05_any",
    "StdSimd.Props.C05_subscript",
    "StdSimd.Props.C05_count_partial",
    "StdSimd.Props.C05_count_unsanitised_wrong",
    "StdSimd.Props.C05_count_unsanitised_value"
   ],
   "note": "count() of the unsanitised type is wrong in the code: negation proved, exact value proved; everything else proved for every size"
  },
  {
   "property": "C06",
   "status": "proved",
   "theorems": [
    "StdSimd.Props.C06_prepend",
    "StdSimd.Props.C06_extract",
    "StdSimd.Props.C06_split_append"
   ],
   "note": "append and extract, with the sanitised flag computed by the code"
  },
  {
   "property": "C07",
   "status": "partial",
   "theorems": [
    "StdSimd.Props.C07_storage",
    "StdSimd.Props.C07_layout_partial",
    "StdSimd.Props.C07_layout_i386_deviates"
   ],
   "note": "Storage sum/validity/ordering proved for every consistent target (C07_storage); exact \"full native chunks then one remainder\" layout proved for every non-i386 target (C07_layout_partial); on i386 it is false (C07_layout_i386_deviates)."
  },
  {
   "property": "C08",
   "status": "partial",
   "theorems": [
    "StdSimd.Props.C08_deduce",
    "StdSimd.Props.C08_deduce_exact",
    "StdSimd.Props.C08_max_fixed_size",
    "StdSimd.Props.C08_native_partial",
    "StdSimd.Props.C08_native_invalid",
    "StdSimd.Props.C08_compatible"
   ],
   "note": "deduce and compatible proved in full; native<T> is valid except when AVX512VL is enabled without AVX512BW for 1/2-byte types, where it is proved invalid (C08_native_invalid)."
  },
  {
   "property": "C09",
   "status": "proved",
   "theorems": [
    "StdSimd.Props.C09_read",
    "StdSimd.Props.C09_write",
    "StdSimd.Props.C09_write_history",
    "StdSimd.Props.C09_native"
   ],
   "note": "both the recursive and the aliasing access form; histories of writes; native registers; masks in C04/C41"
  },
  {
   "property": "C10",
   "status": "proved",
   "theorems": [
    "StdSimd.Props.C10_generator",
    "StdSimd.Props.C10_calls",
    "StdSimd.Props.C10_native_generator"
   ],
   "note": "generators with arbitrary effects (any lawful monad)"
  },
  {
   "property": "C11",
   "status": "proved",
   "theorems": [
    "StdSimd.Props.C11_load",
    "StdSimd.Props.C11_native_load"
   ],
   "note": "fixed_size and native; that the register conversion acts element-wise is C21"
  },
  {
   "property": "C12",
   "status": "proved",
   "theorems": [
    "StdSimd.Props.C12_store",
    "StdSimd.Props.C12_vec_mask_store",
    "StdSimd.Props.C12_k_mask_store",
    "StdSimd.Props.C12_native_store"
   ],
   "note": "fixed_size and native vectors, fixed_size/native masks at element level; byte-level bool arrays are C29"
  },
  {
   "property": "C13",
   "status": "partial",
   "theorems": [
    "StdSimd.Props.C13_masked_load",
    "StdSimd.Props.C13_mask_masked_load",
    "StdSimd.Props.C13_vec_mask_masked_load",
    "StdSimd.Props.C13_k_mask_masked_load_partial",
    "StdSimd.Props.C13_native_masked_load",
    "StdSimd.Props.C13_native_masked_load_raw_partial",
    "StdSimd.Props.C13_native_avx_load",
    "StdSimd.Props.C13_native_avx_load_out_of_bounds"
   ],
   "note": "fixed_size proved in full; native: proved on sanitising code paths and for NEON, on AVX raw-mask paths only for masks without set padding, where the negation is proved otherwise"
  },
  {
   "property": "C14",
   "status": "partial",
   "theorems": [
    "StdSimd.Props.C14_masked_store",
    "StdSimd.Props.C14_converting_store_partial",
    "StdSimd.Props.C14_converting_store_no_x86",
    "StdSimd.Props.C14_converting_store_out_of_bounds",
    "StdSimd.Props.C14_mask_masked_store",
    "StdSimd.Props.C14_vec_mask_masked_store",
    "StdSimd.Props.C14_k_mask_masked_store_partial",
    "StdSimd.Props.C14_k_mask_store_out_of_bounds",
    "StdSimd.Props.C14_native_masked_store",
    "StdSimd.Props.C14_native_masked_store_raw_partial",
    "StdSimd.Props.C14_native_raw_store_out_of_bounds"
   ],
   "note": "fixed_size proved in full; native: proved on sanitising code paths and for NEON; converting stores for every pair of types; raw-mask paths only for clean masks, negation proved otherwise"
  },
  {
   "property": "C15",
   "status": "partial",
   "theorems": [
    "StdSimd.Props.C15_assign",
    "StdSimd.Props.C15_assign_scalar_partial",
    "StdSimd.Props.C15_compound_partial",
    "StdSimd.Props.C15_compound_scalar_partial",
    "StdSimd.Props.C15_unary",
    "StdSimd.Props.C15_native_assign",
    "StdSimd.Props.C15_blend_forms",
    "StdSimd.Props.C15_native_assign_scalar_partial",
    "StdSimd.Props.C15_assign_negative_zero",
    "StdSimd.Props.C15_native_compound_partial",
    "StdSimd.Props.C15_native_unary",
    "StdSimd.Props.C15_division_in_unselected_lane"
   ],
   "note": "assignment proved in full; scalar assignment except constant -0.0 (negation proved); compound assignment for total operations, negation proved for division in unselected lanes"
  },
  {
   "property": "C16",
   "status": "partial",
   "theorems": [
    "StdSimd.Props.C16_each_lane_once",
    "StdSimd.Props.C16_reduce_partial",
    "StdSimd.Props.C16_combine_layout",
    "StdSimd.Props.C16_native_each_lane_once",
    "StdSimd.Props.C16_native_reduce_partial",
    "StdSimd.Props.C16_neon",
    "StdSimd.Props.C16_negative_zero",
    "StdSimd.Props.C16_operands",
    "StdSimd.Props.C16_float_sum",
    "StdSimd.Props.C16_float_product",
    "StdSimd.Props.C16_native_float_sum",
    "StdSimd.Props.C16_native_float_product"
   ],
   "note": "every operation other than plus/multiplies proved in full (each lane exactly once, any operation); plus/multiplies proved when the padding value is neutral; floating-point sums and products: the value of an expression that uses every lane exactly once, any format and rounding mode (C16_float_sum, C16_float_product); missing only the sign of a zero sum, for which the negation is proved"
  },
  {
   "property": "C17",
   "status": "partial",
   "theorems": [
    "StdSimd.Props.C17_masked_reduce_partial",
    "StdSimd.Props.C17_native_masked_reduce_partial",
    "StdSimd.Props.C17_float_sum",
    "StdSimd.Props.C17_float_product",
    "StdSimd.Props.C17_native_float_sum",
    "StdSimd.Props.C17_native_float_product"
   ],
   "note": "proved for every operation with identity; floating-point sums and products: the value of an expression that uses every selected lane exactly once; missing only the sign of a zero sum, as in C16"
  },
  {
   "property": "C18",
   "status": "partial",
   "theorems": [
    "StdSimd.Props.C18_extremum",
    "StdSimd.Props.C18_native_extremum",
    "StdSimd.Props.C18_masked_extremum_partial",
    "StdSimd.Props.C18_native_masked_extremum_partial",
    "StdSimd.Props.C18_infinity",
    "StdSimd.Props.C18_operations",
    "StdSimd.Props.C18_numbers",
    "StdSimd.Props.C18_native_numbers",
    "StdSimd.Props.C18_masked_numbers_partial",
    "StdSimd.Props.C18_masked_infinite",
    "StdSimd.Props.C18_native_masked_numbers_partial",
    "StdSimd.Props.C18_native_masked_infinite",
    "StdSimd.Props.C18_float_infinity"
   ],
   "note": "unmasked hmin/hmax proved in full, for every integer and floating-point type; masked proved unless some lane is unselected and every selected lane is infinite; in exactly that case the result is proved wrong (C18_masked_infinite)"
  },
  {
   "property": "C19",
   "status": "partial",
   "theorems": [
    "StdSimd.Props.C19_split_sizes",
    "StdSimd.Props.C19_split_sizes_native",
    "StdSimd.Props.C19_split_parts_partial",
    "StdSimd.Props.C19_split_parts_native",
    "StdSimd.Props.C19_concat",
    "StdSimd.Props.C19_concat_array",
    "StdSimd.Props.C19_concat_split",
    "StdSimd.Props.C19_split_concat",
    "StdSimd.Props.C19_split_of_concat",
    "StdSimd.Props.C19_split_mask_partial",
    "StdSimd.Props.C19_split_mask_partial_avx_wrong",
    "StdSimd.Props.C19_split_sizes_fixed_partial",
    "StdSimd.Props.C19_split_parts_fixed_partial",
    "StdSimd.Props.C19_split_sizes_i386_rejected",
    "StdSimd.Props.C19_split_parts_i386_rejected"
   ],
   "note": "split by sizes, split into parts, concat and round trips proved for values of every ABI, including that the call compiles; on i386 parts of 5 to 8 bytes of fixed_size objects are rejected (negation proved); masks proved except padded 32-byte registers split in two, where the negation is proved"
  },
  {
   "property": "C20",
   "status": "partial",
   "theorems": [
    "StdSimd.Props.C20_promise_partial",
    "StdSimd.Props.C20_promise_pos",
    "StdSimd.Props.C20_split_i386_false_promise"
   ],
   "note": "the over-alignment expression proved for all offsets and power-of-two alignments; every load of split is aligned for every ABI and size list, except scalar parts of 12-byte long double (negation proved)"
  },
  {
   "property": "C21",
   "status": "proved",
   "theorems": [
    "StdSimd.Props.C21_fixed_size",
    "StdSimd.Props.C21_static_simd_cast",
    "StdSimd.Props.C21_no_resize",
    "StdSimd.Props.C21_implicit"
   ],
   "note": "All pairs of ABI tags with the same number of elements (fixed_size, native, partial, scalar), all sizes and consistent targets, any choice of register-conversion implementation. static_cast of one element is a parameter; the instruction sequences for registers are C46."
  },
  {
   "property": "C22",
   "status": "proved",
   "theorems": [
    "StdSimd.Props.C22_value_preserving",
    "StdSimd.Props.C22_value_preserving_bool",
    "StdSimd.Props.C22_or_int",
    "StdSimd.Props.C22_broadcast",
    "StdSimd.Props.C22_int_exception",
    "StdSimd.Props.C22_bool_to_schar"
   ],
   "note": "all ordered pairs of the arithmetic types on every platform that meets Platform.Ok; from bool: soundness (bool to signed char is refused although value preserving); generators whose result type depends on the index are the subject of C77"
  },
  {
   "property": "C23",
   "status": "partial",
   "theorems": [
    "StdSimd.Props.C23_unsigned",
    "StdSimd.Props.C23_signed_full",
    "StdSimd.Props.C23_signed_padding_partial",
    "StdSimd.Props.C23_signed_padding_exact",
    "StdSimd.Props.C23_signed_padding_wrong",
    "StdSimd.Props.C23_signed_padding_wrong_avx512",
    "StdSimd.Props.C23_floating"
   ],
   "note": "proved for unsigned and floating-point elements and for signed elements in registers without padding or without MIN in the padding; for _VecBuiltin registers with padding that condition is proved exact (C23_signed_padding_exact); negation proved for signed partial registers (broadcast MIN / 2)"
  },
  {
   "property": "C24",
   "status": "partial",
   "theorems": [
    "StdSimd.Props.C24_multiplication_partial",
    "StdSimd.Props.C24_signed_overflow"
   ],
   "note": "every emulation path proved lane-wise modulo 2^8 with wrapping int products; negation proved: the 3- and 4-lane paths overflow int"
  },
  {
   "property": "C25",
   "status": "proved",
   "theorems": [
    "StdSimd.Props.C25_division",
    "StdSimd.Props.C25_modulus",
    "StdSimd.Props.C25_modulus8"
   ],
   "note": ""
  },
  {
   "property": "C26",
   "status": "partial",
   "theorems": [
    "StdSimd.Props.C26_ppc_vector",
    "StdSimd.Props.C26_ppc_scalar",
    "StdSimd.Props.C26_shl8_scalar",
    "StdSimd.Props.C26_shl8_vector",
    "StdSimd.Props.C26_shl16_vector",
    "StdSimd.Props.C26_shl16_sse_partial",
    "StdSimd.Props.C26_shl16_sse_wrong",
    "StdSimd.Props.C26_shl32_sse",
    "StdSimd.Props.C26_shl64_sse"
   ],
   "note": "all 8-bit paths, 16-bit AVX2/AVX512, 32- and 64-bit paths proved for every amount up to the register count range; 16-bit SSE path proved for amounts below 16, negation proved for larger ones"
  },
  {
   "property": "C27",
   "status": "partial",
   "theorems": [
    "StdSimd.Props.C27_ppc_vector",
    "StdSimd.Props.C27_ppc_scalar",
    "StdSimd.Props.C27_shr8_scalar_unsigned",
    "StdSimd.Props.C27_shr8_scalar_signed",
    "StdSimd.Props.C27_shr8_vector_unsigned",
    "StdSimd.Props.C27_shr8_vector_signed",
    "StdSimd.Props.C27_shr8_sse_partial",
    "StdSimd.Props.C27_shr8_sse_wrong",
    "StdSimd.Props.C27_shr16_vector",
    "StdSimd.Props.C27_shr16_sse_partial",
    "StdSimd.Props.C27_shr16_sse_wrong",
    "StdSimd.Props.C27_shr32_unsigned",
    "StdSimd.Props.C27_shr32_signed"
   ],
   "note": "all AVX2/AVX512 and unsigned paths proved; signed SSE byte/short paths proved for amounts below the width, negation proved for larger ones"
  },
  {
   "property": "C28",
   "status": "proved",
   "theorems": [
    "StdSimd.Props.C28_shr64"
   ],
   "note": ""
  },
  {
   "property": "C29",
   "status": "proved",
   "theorems": [
    "StdSimd.Props.C29_fixed_size",
    "StdSimd.Props.C29_store_bool_array",
    "StdSimd.Props.C29_vector",
    "StdSimd.Props.C29_avx512",
    "StdSimd.Props.C29_avx512_masked"
   ],
   "note": "byte-level stores of fixed_size, vector and AVX-512 masks on every x86 code path and the generic one (the MMX form without SSE2 is not modelled)"
  },
  {
   "property": "C30",
   "status": "proved",
   "theorems": [
    "StdSimd.Props.C30_vec_to_bits",
    "StdSimd.Props.C30_x86_to_bits_const",
    "StdSimd.Props.C30_x86_to_bits_sign",
    "StdSimd.Props.C30_x86_to_bits_16",
    "StdSimd.Props.C30_bits_to_vec",
    "StdSimd.Props.C30_vec_to_vec",
    "StdSimd.Props.C30_bool_to_vec",
    "StdSimd.Props.C30_k_to_bits",
    "StdSimd.Props.C30_bits_to_k",
    "StdSimd.Props.C30_vec_bits_vec",
    "StdSimd.Props.C30_vec_load",
    "StdSimd.Props.C30_k_load",
    "StdSimd.Props.C30_x86_bits_to_vec",
    "StdSimd.Props.C30_x86_bits_to_vec_const",
    "StdSimd.Props.C30_x86_vec_to_vec"
   ],
   "note": "generic and x86 instruction sequences in both directions, vector to vector between all element sizes and registers, bool-array loads"
  },
  {
   "property": "C31",
   "status": "partial",
   "theorems": [
    "StdSimd.Props.C31_x86_popcount_partial",
    "StdSimd.Props.C31_x86_popcount_no_return",
    "StdSimd.Props.C31_vec_all_any_none",
    "StdSimd.Props.C31_vec_popcount",
    "StdSimd.Props.C31_vec_some_of",
    "StdSimd.Props.C31_vec_find",
    "StdSimd.Props.C31_x86_find",
    "StdSimd.Props.C31_x86_reductions",
    "StdSimd.Props.C31_x86_popcount_popcnt",
    "StdSimd.Props.C31_x86_popcount_8x2",
    "StdSimd.Props.C31_x86_popcount_8x4",
    "StdSimd.Props.C31_x86_popcount_4x4",
    "StdSimd.Props.C31_x86_popcount_2x8",
    "StdSimd.Props.C31_x86_popcount_1x16",
    "StdSimd.Props.C31_k_reductions",
    "StdSimd.Props.C31_k_find_first_set",
    "StdSimd.Props.C31_k_find_last_set_partial",
    "StdSimd.Props.C31_subscripts_read_lanes",
    "StdSimd.Props.C31_constprop",
    "StdSimd.Props.C31_exact_bool"
   ],
   "note": "all vector-mask and bit-mask reductions proved on every code path; find_last_set of AVX-512 masks only for masks without phantom lanes (the code does not mask; see C32); popcount of 32-byte registers without POPCNT has no return statement for elements smaller than 8 bytes (negation proved)"
  },
  {
   "property": "C32",
   "status": "partial",
   "theorems": [
    "StdSimd.Props.C32_cmp",
    "StdSimd.Props.C32_classify_xor",
    "StdSimd.Props.C32_cmp_const",
    "StdSimd.Props.C32_int_not_equal_partial",
    "StdSimd.Props.C32_int_not_equal_phantom",
    "StdSimd.Props.C32_int_not_equal_find_last_set_wrong",
    "StdSimd.Props.C32_classify_raw_partial",
    "StdSimd.Props.C32_classify_raw_phantom"
   ],
   "note": "all comparisons/classifications proved except integer != and signbit/isinf on registers with padding, where the negation is proved"
  },
  {
   "property": "C33",
   "status": "proved",
   "theorems": [
    "StdSimd.Props.C33_isunordered",
    "StdSimd.Props.C33_generic",
    "StdSimd.Props.C33_x86"
   ],
   "note": "All formats and bit patterns; generic and x86 code (all paths). One element; lifting to lanes is the map of GNU vector operations."
  },
  {
   "property": "C34",
   "status": "proved",
   "theorems": [
    "StdSimd.Props.C34_isnan",
    "StdSimd.Props.C34_isfinite",
    "StdSimd.Props.C34_isinf",
    "StdSimd.Props.C34_isnormal",
    "StdSimd.Props.C34_isnormal_finite_math",
    "StdSimd.Props.C34_signbit",
    "StdSimd.Props.C34_fpclassify",
    "StdSimd.Props.C34_fpclassify_packs",
    "StdSimd.Props.C34_nonzero_value"
   ],
   "note": "All formats and bit patterns; generic and x86 code incl. finite-math variants (finite operands). AVX-512 phantom padding bits of signbit/isinf are the subject of C31/C32."
  },
  {
   "property": "C35",
   "status": "proved",
   "theorems": [
    "StdSimd.Props.C35_nearbyint",
    "StdSimd.Props.C35_trunc",
    "StdSimd.Props.C35_floor",
    "StdSimd.Props.C35_ceil",
    "StdSimd.Props.C35_round",
    "StdSimd.Props.C35_x86",
    "StdSimd.Props.C35_sse2",
    "StdSimd.Props.C35_x86_round",
    "StdSimd.Props.C35_sse2_round",
    "StdSimd.Props.C35_neon",
    "StdSimd.Props.C35_neon_v7"
   ],
   "note": "All formats with mbits < bias, all bit patterns, all four rounding directions; generic, SSE2, ARMv7 and rounding-instruction paths."
  },
  {
   "property": "C36",
   "status": "proved",
   "theorems": [
    "StdSimd.Props.C36_bit_iteration",
    "StdSimd.Props.C36_mask_iteration"
   ],
   "note": "bit iteration for words of any width, and for fixed_size masks"
  },
  {
   "property": "C37",
   "status": "proved",
   "theorems": [
    "StdSimd.Props.C37_min",
    "StdSimd.Props.C37_max",
    "StdSimd.Props.C37_minmax",
    "StdSimd.Props.C37_clamp",
    "StdSimd.Props.C37_clamp_exact",
    "StdSimd.Props.C37_fixed_min_max",
    "StdSimd.Props.C37_fixed_clamp",
    "StdSimd.Props.C37_int_exact",
    "StdSimd.Props.C37_min_ties",
    "StdSimd.Props.C37_scalar_clamp_nan"
   ],
   "note": "min/max/minmax/clamp for all element types and geometries, native and fixed_size; clamp exact for vectors; negations record the ABI-dependent choice between equivalent operands and NaN (outside the quantifier: those values are not totally ordered). minmax exists only for native vectors."
  },
  {
   "property": "C38",
   "status": "proved",
   "theorems": [
    "StdSimd.Props.C38_native",
    "StdSimd.Props.C38_fixed",
    "StdSimd.Props.C38_nan",
    "StdSimd.Props.C38_relations"
   ],
   "note": "all six operators, native (scalar, vector masks, AVX-512 masks, 8-byte path, constant operands) and fixed_size, for integers and IEEE formats."
  },
  {
   "property": "C39",
   "status": "proved",
   "theorems": [
    "StdSimd.Props.C39_swap",
    "StdSimd.Props.C39_swap_left",
    "StdSimd.Props.C39_swap_right",
    "StdSimd.Props.C39_swap_twice",
    "StdSimd.Props.C39_assign",
    "StdSimd.Props.C39_read",
    "StdSimd.Props.C39_compound",
    "StdSimd.Props.C39_pre_increment",
    "StdSimd.Props.C39_post_increment"
   ],
   "note": "All reference classes (native and fixed_size values and masks, both element access forms); swaps, assignment, compound assignment, increments; aliasing included."
  },
  {
   "property": "C40",
   "status": "proved",
   "theorems": [
    "StdSimd.Props.C40_memory_alignment",
    "StdSimd.Props.C40_flags",
    "StdSimd.Props.C40_layout",
    "StdSimd.Props.C40_chunks",
    "StdSimd.Props.C40_object",
    "StdSimd.Props.C40_to_native",
    "StdSimd.Props.C40_conversion_false_promise",
    "StdSimd.Props.C40_object_i386"
   ],
   "note": "Flags, layout and alignment of fixed_size objects, register-wise loads; alignment promises of split are C20. Two findings: the implicit conversion constructor makes a false promise, and alignas is too weak on i386."
  },
  {
   "property": "C41",
   "status": "proved",
   "theorems": [
    "StdSimd.Props.C41_vec_broadcast",
    "StdSimd.Props.C41_vec_not",
    "StdSimd.Props.C41_vec_and",
    "StdSimd.Props.C41_vec_or",
    "StdSimd.Props.C41_vec_xor",
    "StdSimd.Props.C41_vec_neq",
    "StdSimd.Props.C41_vec_eq",
    "StdSimd.Props.C41_vec_set",
    "StdSimd.Props.C41_vec_masked_assign",
    "StdSimd.Props.C41_vec_masked_assign_bool",
    "StdSimd.Props.C41_k_broadcast",
    "StdSimd.Props.C41_k_not",
    "StdSimd.Props.C41_k_and",
    "StdSimd.Props.C41_k_or",
    "StdSimd.Props.C41_k_xor",
    "StdSimd.Props.C41_k_neq",
    "StdSimd.Props.C41_k_eq",
    "StdSimd.Props.C41_k_set",
    "StdSimd.Props.C41_k_masked_assign",
    "StdSimd.Props.C41_k_masked_assign_bool"
   ],
   "note": "vector masks of any element width and register size; AVX-512 masks up to 64 lanes"
  },
  {
   "property": "C42",
   "status": "proved",
   "theorems": [
    "StdSimd.Props.C42_vector64x2",
    "StdSimd.Props.C42_vector64",
    "StdSimd.Props.C42_vector32",
    "StdSimd.Props.C42_vector16",
    "StdSimd.Props.C42_avx512",
    "StdSimd.Props.C42_masked"
   ],
   "note": "x86 load sequences; the generic element loop is C11; AVX512BW vector loads go through the bit-mask to vector conversion of C30"
  },
  {
   "property": "C43",
   "status": "partial",
   "theorems": [
    "StdSimd.Props.C43_values",
    "StdSimd.Props.C43_mask_to_fixed_size",
    "StdSimd.Props.C43_bits_to_vec",
    "StdSimd.Props.C43_bits_to_bits_partial",
    "StdSimd.Props.C43_bits_grow_leak",
    "StdSimd.Props.C43_bits_shrink_phantom",
    "StdSimd.Props.C43_vec_to_vec_partial",
    "StdSimd.Props.C43_vec_same_size",
    "StdSimd.Props.C43_vec_padding_leak",
    "StdSimd.Props.C43_vec_undefined"
   ],
   "note": "values, casts to fixed_size and bits to vector proved in full; vector to vector and bits to bits proved for clean sources on the paths without undefined halves, negation proved otherwise"
  },
  {
   "property": "C44",
   "status": "partial",
   "theorems": [
    "StdSimd.Props.C44_x86_instr",
    "StdSimd.Props.C44_generic_partial",
    "StdSimd.Props.C44_nearbyint_partial",
    "StdSimd.Props.C44_nearbyint_zero",
    "StdSimd.Props.C44_nearbyint_wrong",
    "StdSimd.Props.C44_trunc_downward_wrong",
    "StdSimd.Props.C44_x86_round_wrong",
    "StdSimd.Props.C44_sse2_wrong",
    "StdSimd.Props.C44_neon_instr",
    "StdSimd.Props.C44_neon_v7_partial",
    "StdSimd.Props.C44_neon_v7_wrong"
   ],
   "note": "Holds for rounding instructions and, except in the downward direction, for the generic trunc/floor/ceil/round; violated by nearbyint/rint, by x86 round, by the SSE2 code and by the ARMv7 code (negation theorems)."
  },
  {
   "property": "C45",
   "status": "partial",
   "theorems": [
    "StdSimd.Props.C45_not_both",
    "StdSimd.Props.C45_value_preserving",
    "StdSimd.Props.C45_integers_partial",
    "StdSimd.Props.C45_floating_point",
    "StdSimd.Props.C45_wchar_wrong"
   ],
   "note": "the rank rule fails for wchar_t and char32_t (negation proved); everything else proved"
  },
  {
   "property": "C46",
   "status": "proved",
   "theorems": [
    "StdSimd.Props.C46_int_conversion",
    "StdSimd.Props.C46_compiles",
    "StdSimd.Props.C46_refines_elements",
    "StdSimd.Props.C46_convert_all_sse2",
    "StdSimd.Props.C46_bw_without_vl_ill_formed"
   ],
   "note": "All integer-to-integer instantiations of __convert_x86 (1, 2, 4, 8, 16 registers) and the SSE2 branch of __convert_all; conversions with floating-point types are not covered here."
  },
  {
   "property": "C47",
   "status": "proved",
   "theorems": [
    "StdSimd.Props.C47_frexp",
    "StdSimd.Props.C47_frexp_avx512",
    "StdSimd.Props.C47_conditions"
   ],
   "note": "binary32 and binary64; trusts IEEE multiplication and Intel's description of getexp/getmant"
  },
  {
   "property": "C48",
   "status": "proved",
   "theorems": [
    "StdSimd.Props.C48_logb",
    "StdSimd.Props.C48_logb_avx512"
   ],
   "note": "binary32 and binary64"
  },
  {
   "property": "C49",
   "status": "partial",
   "theorems": [
    "StdSimd.Props.C49_modf_partial",
    "StdSimd.Props.C49_integral_sign_partial",
    "StdSimd.Props.C49_integral_sign_wrong"
   ],
   "note": "the integral part loses its sign where trunc does (C49_integral_sign_wrong); everything else is proved"
  },
  {
   "property": "C50",
   "status": "proved",
   "theorems": [
    "StdSimd.Props.C50_copysign",
    "StdSimd.Props.C50_fabs"
   ],
   "note": "every binary interchange format"
  },
  {
   "property": "C51",
   "status": "partial",
   "theorems": [
    "StdSimd.Props.C51_hypot",
    "StdSimd.Props.C51_hypot_elementwise",
    "StdSimd.Props.C51_hypot3",
    "StdSimd.Props.C51_hypot3_elementwise_partial",
    "StdSimd.Props.C51_hypot3_elementwise_wrong",
    "StdSimd.Props.C51_armv7_wrong"
   ],
   "note": "Full for two operands; three operands: all values right in every rounding direction, element-wise only in round-to-nearest (negation proved for downward). ARMv7 NEON returns NaN for infinities (negation proved)."
  },
  {
   "property": "C52",
   "status": "partial",
   "theorems": [
    "StdSimd.Props.C52_neon_to_bits",
    "StdSimd.Props.C52_neon_find",
    "StdSimd.Props.C52_neon_all_of",
    "StdSimd.Props.C52_neon_none_of",
    "StdSimd.Props.C52_neon_any_of_partial",
    "StdSimd.Props.C52_neon_any_of_wrong",
    "StdSimd.Props.C52_neon_popcount_partial",
    "StdSimd.Props.C52_neon_some_of_partial",
    "StdSimd.Props.C52_neon_popcount_padding_wrong",
    "StdSimd.Props.C52_neon_popcount_small_wrong",
    "StdSimd.Props.C52_neon_popcount_long_wrong",
    "StdSimd.Props.C52_neon_some_of_small_wrong",
    "StdSimd.Props.C52_neon_some_of_padding_wrong",
    "StdSimd.Props.C52_ppc_popcount_partial",
    "StdSimd.Props.C52_ppc_popcount_wrong"
   ],
   "note": "to_bits, all_of, none_of, find_* proved for every padding; any_of, some_of, popcount proved where the code is right (no or zero padding, registers of at least 8 bytes for popcount, 64-bit long); negations proved for the rest (code bugs)"
  },
  {
   "property": "C53",
   "status": "partial",
   "theorems": [
    "StdSimd.Props.C53_convert_partial",
    "StdSimd.Props.C53_int64_to_float_close_partial",
    "StdSimd.Props.C53_int64_to_float_false",
    "StdSimd.Props.C53_uint_zero_down_false"
   ],
   "note": "all instantiations of the modelled __convert_x86 with a floating-point side compile and equal static_cast; excluded are the two cases proved wrong: int64 to float (8 or more, AVX2 without AVX512DQ; error bound and exactness for 24-bit integers proved) and unsigned zero to double in the downward direction"
  },
  {
   "property": "C54",
   "status": "partial",
   "theorems": [
    "StdSimd.Props.C54_call_partial",
    "StdSimd.Props.C54_ldexp_partial",
    "StdSimd.Props.C54_frexp_partial",
    "StdSimd.Props.C54_result",
    "StdSimd.Props.C54_ldexp_i386_false",
    "StdSimd.Props.C54_fpclassify_float_partial",
    "StdSimd.Props.C54_fpclassify_double",
    "StdSimd.Props.C54_fpclassify_sse_false"
   ],
   "note": "Proved for all targets except i386 for functions with further arguments (there the code reads out of bounds, C54_ldexp_i386_false); proved on all targets for functions whose result has another element type. Element types of 4 bytes or more. fpclassify of one register: double on all targets, float except with SSE but without SSE2, where it is ill-formed (C54_fpclassify_sse_false)."
  },
  {
   "property": "C55",
   "status": "partial",
   "theorems": [
    "StdSimd.Props.C55_sin_double_partial",
    "StdSimd.Props.C55_cos_double_partial",
    "StdSimd.Props.C55_sin_double_small",
    "StdSimd.Props.C55_cos_double_small",
    "StdSimd.Props.C55_double_fixed_partial",
    "StdSimd.Props.C55_sin_float_partial",
    "StdSimd.Props.C55_cos_float_partial",
    "StdSimd.Props.C55_relative_double_partial",
    "StdSimd.Props.C55_relative_float_partial",
    "StdSimd.Props.C55_notFinite",
    "StdSimd.Props.C55_zero",
    "StdSimd.Props.C55_zero_down_false",
    "StdSimd.Props.C55_parity_double",
    "StdSimd.Props.C55_parity_float_partial",
    "StdSimd.Props.C55_parity_float",
    "StdSimd.Props.C55_large_false"
   ],
   "note": "rounding to nearest: absolute error at most 2^-46 (double, any elements up to 2^31), 2^-50 (double, no element above 805), 2^-21 (float, up to 2^31, assuming an accurate C library where it is called); relative error at most 2^-50 (double), 2^-22 and 2^-21 (float sin, cos) for every element up to 0.785, subnormal numbers included, whatever the other elements are; negation proved for large arguments; parity (float computed with double: in symmetric rounding modes, up to the bits of NaN), zeros, NaN and infinities; missing: larger arguments (false), relative errors near zeros other than 0"
  },
  {
   "property": "C56",
   "status": "partial",
   "theorems": [
    "StdSimd.Props.C56_where_range_visits",
    "StdSimd.Props.C56_where_range_partial",
    "StdSimd.Props.C56_where_range_lp64",
    "StdSimd.Props.C56_post_increment_partial",
    "StdSimd.Props.C56_where_range_ilp32_false"
   ],
   "note": "proved wherever size_t and unsigned long have as many bits as the mask has lanes, in particular for every mask on LP64 systems; refuted for 32-bit size_t and masks with more than 32 lanes"
  },
  {
   "property": "C57",
   "status": "proved",
   "theorems": [
    "StdSimd.Props.C57_unsigned",
    "StdSimd.Props.C57_signed",
    "StdSimd.Props.C57_narrow",
    "StdSimd.Props.C57_bitwise",
    "StdSimd.Props.C57_shift"
   ],
   "note": ""
  },
  {
   "property": "C58",
   "status": "proved",
   "theorems": [
    "StdSimd.Props.C58_wide",
    "StdSimd.Props.C58_ldexp",
    "StdSimd.Props.C58_ldexp_exact",
    "StdSimd.Props.C58_ldexp_frexp"
   ],
   "note": "AVX-512 ldexp, float and double, every int exponent and rounding direction; VSCALEF is modelled from the instruction manual"
  },
  {
   "property": "C59",
   "status": "partial",
   "theorems": [
    "StdSimd.Props.C59_fallback",
    "StdSimd.Props.C59_fallback_fixed",
    "StdSimd.Props.C59_remquo",
    "StdSimd.Props.C59_special_partial",
    "StdSimd.Props.C59_sph_legendre_false",
    "StdSimd.Props.C59_special_missing"
   ],
   "note": "all fallback functions and remquo in full; special functions except sph_legendre, for which the negation is proved (it calls assoc_legendre); 13 declared special functions cannot be called"
  },
  {
   "property": "C60",
   "status": "proved",
   "theorems": [
    "StdSimd.Props.C60_bytes",
    "StdSimd.Props.C60_array",
    "StdSimd.Props.C60_read",
    "StdSimd.Props.C60_store"
   ],
   "note": "Bytes of the nested structures with padding; arbitrary representation of the elements."
  },
  {
   "property": "C61",
   "status": "proved",
   "theorems": [
    "StdSimd.Props.C61_abs",
    "StdSimd.Props.C61_min",
    "StdSimd.Props.C61_fixed",
    "StdSimd.Props.C61_signbit",
    "StdSimd.Props.C61_signbit_fixed"
   ],
   "note": "All three implementations and fixed_size; the negation in GNU vectors is taken to wrap around."
  },
  {
   "property": "C62",
   "status": "partial",
   "theorems": [
    "StdSimd.Props.C62_compound_partial",
    "StdSimd.Props.C62_native_compound_partial",
    "StdSimd.Props.C62_shift_ill_formed",
    "StdSimd.Props.C62_mask_ill_formed",
    "StdSimd.Props.C62_unary",
    "StdSimd.Props.C62_bool",
    "StdSimd.Props.C62_conditional"
   ],
   "note": "+ - * / % & | ^ on values (operators defined for all operands), unary operators, where(bool, T) and the conditional operator proved; <<=, >>= and compound assignment of masks are refuted: they do not compile"
  },
  {
   "property": "C63",
   "status": "partial",
   "theorems": [
    "StdSimd.Props.C63_program",
    "StdSimd.Props.C63_unsigned",
    "StdSimd.Props.C63_signed_partial",
    "StdSimd.Props.C63_floating",
    "StdSimd.Props.C63_lane_independent",
    "StdSimd.Props.C63_signed_division_wrong",
    "StdSimd.Props.C63_int_functions",
    "StdSimd.Props.C63_native_int_functions_partial",
    "StdSimd.Props.C63_ieee",
    "StdSimd.Props.C63_native_ieee_partial",
    "StdSimd.Props.C63_min_zero_wrong",
    "StdSimd.Props.C63_native_partial",
    "StdSimd.Props.C63_scalar",
    "StdSimd.Props.C63_abi_independent",
    "StdSimd.Props.C63_native_unsigned_partial",
    "StdSimd.Props.C63_native_signed_full",
    "StdSimd.Props.C63_native_floating_partial",
    "StdSimd.Props.C63_native_masked_load_wrong",
    "StdSimd.Props.C63_ppc_partial",
    "StdSimd.Props.C63_ppc_native_partial",
    "StdSimd.Props.C63_x86_bytes",
    "StdSimd.Props.C63_x86_shorts",
    "StdSimd.Props.C63_x86_ints",
    "StdSimd.Props.C63_x86_longs_partial",
    "StdSimd.Props.C63_x86_native_bytes_partial",
    "StdSimd.Props.C63_x86_native_shorts_partial",
    "StdSimd.Props.C63_x86_native_ints_partial",
    "StdSimd.Props.C63_x86_native_longs_partial",
    "StdSimd.Props.C63_x86_bytes_wrong",
    "StdSimd.Props.C63_x86_shorts_wrong"
   ],
   "note": "Refinement proved for any native implementation that computes the operators on the elements of a register (C63_program for fixed_size, C63_native_partial and C63_scalar for native ABIs, C63_abi_independent), for unsigned integers with all operators, for floating-point, for 8-, 16-, 32- and 64-bit integers with the x86 operators (C63_x86_*; 64-bit signed division without padding; shift counts less than 8 or 16 where SSE code is wrong for more), for integers with the PowerPC operators and all shift counts C++ defines (C63_ppc_partial, C63_ppc_native_partial; signed division without padding), and for signed integers without division or without padding; wrong, with witnesses: signed division with padding (C63_signed_division_wrong), masked loads of partially filled native registers on AVX (C63_native_masked_load_wrong), SSE shifts with large counts (C63_x86_bytes_wrong, C63_x86_shorts_wrong). Not in the language: reductions, mathematical functions, conversions, split and concat (separate properties)."
  },
  {
   "property": "C64",
   "status": "partial",
   "theorems": [
    "StdSimd.Props.C64_ieee",
    "StdSimd.Props.C64_control",
    "StdSimd.Props.C64_termination",
    "StdSimd.Props.C64_unsigned",
    "StdSimd.Props.C64_native_partial",
    "StdSimd.Props.C64_abi_independent_partial",
    "StdSimd.Props.C64_find_last_set_wrong"
   ],
   "note": "fixed_size: all programs; native ABIs: without masked loads/stores that use the mask register of partially filled registers, and without find_last_set on AVX-512 masks with unused bits (negation proved: C64_find_last_set_wrong); reductions need an associative, commutative operation"
  },
  {
   "property": "C65",
   "status": "partial",
   "theorems": [
    "StdSimd.Props.C65_arithmetic_partial",
    "StdSimd.Props.C65_x86_partial",
    "StdSimd.Props.C65_ppc_partial",
    "StdSimd.Props.C65_multi",
    "StdSimd.Props.C65_termination",
    "StdSimd.Props.C65_integers_partial",
    "StdSimd.Props.C65_abi_partial",
    "StdSimd.Props.C65_abi_integers_partial"
   ],
   "note": "proved for all programs, families of types and ABI tags relative to native operators that are right on the elements; C65_arithmetic_partial with the operators of _SimdImplBuiltin, C65_x86_partial and C65_ppc_partial with those of x86 and PowerPC; missing where the code is wrong: / and % of signed types in partially filled registers (C63_signed_division_wrong; on x86 for 64-bit integers only), resizing_simd_cast of masks to more elements of the same sort of mask (C43_bits_grow_leak, C43_vec_padding_leak), find_last_set of bit masks with unused bits, masked memory access through raw mask registers"
  },
  {
   "property": "C66",
   "status": "partial",
   "theorems": [
    "StdSimd.Props.C66_comparison_functions",
    "StdSimd.Props.C66_comparison_functions_generic",
    "StdSimd.Props.C66_comparison_functions_fixed_size",
    "StdSimd.Props.C66_comparison_operators",
    "StdSimd.Props.C66_comparison_padding_wrong",
    "StdSimd.Props.C66_padding_init_wrong",
    "StdSimd.Props.C66_full_register_init",
    "StdSimd.Props.C66_classification_partial",
    "StdSimd.Props.C66_isnan_signalling_wrong",
    "StdSimd.Props.C66_frexp_invalid",
    "StdSimd.Props.C66_nearbyint_instruction",
    "StdSimd.Props.C66_round_instructions",
    "StdSimd.Props.C66_rint_generic_partial",
    "StdSimd.Props.C66_nearbyint_inexact",
    "StdSimd.Props.C66_rint_inexact",
    "StdSimd.Props.C66_rounding_quiet_nan",
    "StdSimd.Props.C66_round_instruction_partial",
    "StdSimd.Props.C66_round_invalid",
    "StdSimd.Props.C66_trunc_sse2",
    "StdSimd.Props.C66_division_padding",
    "StdSimd.Props.C66_masked_division_wrong",
    "StdSimd.Props.C66_masked_division_values",
    "StdSimd.Props.C66_frexp_avx512_invalid",
    "StdSimd.Props.C66_frexp_avx512_conditions",
    "StdSimd.Props.C66_logb_avx512_wrong",
    "StdSimd.Props.C66_frexp_partial",
    "StdSimd.Props.C66_frexp_overflow_wrong",
    "StdSimd.Props.C66_ldexp_exceptions",
    "StdSimd.Props.C66_ldexp_partial",
    "StdSimd.Props.C66_ldexp_zero_wrong",
    "StdSimd.Props.C66_modf_partial",
    "StdSimd.Props.C66_modf_infinite_invalid",
    "StdSimd.Props.C66_logb_partial",
    "StdSimd.Props.C66_logb_zero_wrong",
    "StdSimd.Props.C66_logb_overflow_wrong"
   ],
   "note": "comparison functions, operators, nearbyint and rint by instructions and division padding are right; the negations of the claims that fail are proved with exact conditions"
  },
  {
   "property": "C67",
   "status": "proved",
   "theorems": [
    "StdSimd.Props.C67_reciprocal_overflow_threshold",
    "StdSimd.Props.C67_threshold_nearest",
    "StdSimd.Props.C67_digits10_fit",
    "StdSimd.Props.C67_digits10",
    "StdSimd.Props.C67_digits10_bound",
    "StdSimd.Props.C67_max_digits10",
    "StdSimd.Props.C67_integer_limits",
    "StdSimd.Props.C67_digits",
    "StdSimd.Props.C67_digits_bool_wrong",
    "StdSimd.Props.C67_iec559_nan",
    "StdSimd.Props.C67_iec559_inf",
    "StdSimd.Props.C67_value_or_float",
    "StdSimd.Props.C67_value_or_int"
   ],
   "note": "C67_digits_bool_wrong: the digit counts of bool are wrong (bool is not an integer type of two or more bits, to which the theorems apply); digits10 is shown to be the greatest below 15437 digits (an exact bound), to fit for every number of digits."
  },
  {
   "property": "C68",
   "status": "partial",
   "theorems": [
    "StdSimd.Props.C68_build_partial",
    "StdSimd.Props.C68_builds_agree_partial",
    "StdSimd.Props.C68_known_divisor_wrong",
    "StdSimd.Props.C68_known_shift_wrong"
   ],
   "note": "False for / and % of signed integers in partially filled registers with a known divisor and for >> by vectors with counts beyond the element width (C68_known_divisor_wrong, C68_known_shift_wrong; also C15_assign_negative_zero); proved for all other programs of C65 on x86 and all knowledge about operands and masks."
  },
  {
   "property": "C69",
   "status": "proved",
   "theorems": [
    "StdSimd.Props.C69_from_bitset",
    "StdSimd.Props.C69_to_bitset",
    "StdSimd.Props.C69_bitset_round_trip",
    "StdSimd.Props.C69_mask_round_trip",
    "StdSimd.Props.C69_simd_native",
    "StdSimd.Props.C69_simd_fixed"
   ],
   "note": ""
  },
  {
   "property": "C70",
   "status": "partial",
   "theorems": [
    "StdSimd.Props.C70_static_cast",
    "StdSimd.Props.C70_same_size",
    "StdSimd.Props.C70_simd_cast",
    "StdSimd.Props.C70_valid_partial",
    "StdSimd.Props.C70_more_than_32",
    "StdSimd.Props.C70_invalid_result",
    "StdSimd.Props.C70_static_cast_mask_target",
    "StdSimd.Props.C70_static_cast_mask",
    "StdSimd.Props.C70_simd_cast_mask_never",
    "StdSimd.Props.C70_to_native",
    "StdSimd.Props.C70_never_deduced",
    "StdSimd.Props.C70_to_fixed_size_values",
    "StdSimd.Props.C70_to_native_values"
   ],
   "note": "The properties that fail are proved negated: an invalid result type with AVX-512BW (C70_invalid_result), a mask accepted as template argument (C70_static_cast_mask_target), simd_cast of masks (C70_simd_cast_mask_never), to_native of masks and to_compatible (C70_never_deduced)."
  },
  {
   "property": "C71",
   "status": "partial",
   "theorems": [
    "StdSimd.Props.C71_fixed_lanes",
    "StdSimd.Props.C71_fixed_partial",
    "StdSimd.Props.C71_fixed_wrong",
    "StdSimd.Props.C71_k",
    "StdSimd.Props.C71_vec",
    "StdSimd.Props.C71_vec_reductions",
    "StdSimd.Props.C71_to_fixed_size",
    "StdSimd.Props.C71_to_fixed_size_wrong",
    "StdSimd.Props.C71_k_find_last_set_wrong"
   ],
   "note": "False for fixed_size masks with unused bits and find_last_set of AVX-512 masks: C71_fixed_wrong, C71_to_fixed_size_wrong, C71_k_find_last_set_wrong."
  },
  {
   "property": "C72",
   "status": "partial",
   "theorems": [
    "StdSimd.Props.C72_programs_partial",
    "StdSimd.Props.C72_arithmetic_partial",
    "StdSimd.Props.C72_x86_partial",
    "StdSimd.Props.C72_termination_partial"
   ],
   "note": "The full property is false for the cases in which C65 and C19 are false: masks of partially filled 32-byte registers split in two, long double on i386, growing mask resizes, masked loads with partial registers. Proved for all other programs, for every element type and ABI."
  },
  {
   "property": "C73",
   "status": "proved",
   "theorems": [
    "StdSimd.Props.C73_deduce",
    "StdSimd.Props.C73_exists",
    "StdSimd.Props.C73_one",
    "StdSimd.Props.C73_prefers_registers",
    "StdSimd.Props.C73_rebind",
    "StdSimd.Props.C73_rebind_exists",
    "StdSimd.Props.C73_rebind_large",
    "StdSimd.Props.C73_compose",
    "StdSimd.Props.C73_stable",
    "StdSimd.Props.C73_native",
    "StdSimd.Props.C73_resize",
    "StdSimd.Props.C73_not_stable"
   ],
   "note": "deduce, rebind_simd and resize_simd for every target, element type and tag."
  },
  {
   "property": "C74",
   "status": "partial",
   "theorems": [
    "StdSimd.Props.C74_unique",
    "StdSimd.Props.C74_two",
    "StdSimd.Props.C74_hypot2",
    "StdSimd.Props.C74_hypot3",
    "StdSimd.Props.C74_three_partial",
    "StdSimd.Props.C74_three_one_type",
    "StdSimd.Props.C74_three_wrong",
    "StdSimd.Props.C74_remquo_partial",
    "StdSimd.Props.C74_copysign_partial",
    "StdSimd.Props.C74_remquo_copysign_wrong",
    "StdSimd.Props.C74_hypot_integers",
    "StdSimd.Props.C74_exponent",
    "StdSimd.Props.C74_exponent_kept"
   ],
   "note": "Exact for the functions of two parameters, hypot, and ldexp, scalbn, scalbln; fma, ellint_3, remquo and copysign reject calls the TS requires: characterised exactly, negation proved."
  },
  {
   "property": "C75",
   "status": "proved",
   "theorems": [
    "StdSimd.Props.C75_unique",
    "StdSimd.Props.C75_operators",
    "StdSimd.Props.C75_integral_operators",
    "StdSimd.Props.C75_symmetric",
    "StdSimd.Props.C75_keeps_values",
    "StdSimd.Props.C75_compound",
    "StdSimd.Props.C75_shift",
    "StdSimd.Props.C75_shift_count",
    "StdSimd.Props.C75_shift_count_wraps",
    "StdSimd.Props.C75_masks",
    "StdSimd.Props.C75_mask_compound",
    "StdSimd.Props.C75_wchar_wrong"
   ],
   "note": "All operand types whose ranks the TS orders; wchar_t and charN_t deviate (C75_wchar_wrong, see C45)."
  },
  {
   "property": "C76",
   "status": "partial",
   "theorems": [
    "StdSimd.Props.C76_sound",
    "StdSimd.Props.C76_assign_partial",
    "StdSimd.Props.C76_compound_partial",
    "StdSimd.Props.C76_own_type",
    "StdSimd.Props.C76_int",
    "StdSimd.Props.C76_assign_rejected",
    "StdSimd.Props.C76_rejected"
   ],
   "note": "The code rejects narrowing operands that the TS requires it to accept: exact characterisation and negation proved; operands of the element's type and of type int accepted wherever the element accepts them."
  },
  {
   "property": "C77",
   "status": "partial",
   "theorems": [
    "StdSimd.Props.C77_broadcast",
    "StdSimd.Props.C77_generator_partial",
    "StdSimd.Props.C77_generator_complete",
    "StdSimd.Props.C77_first_only",
    "StdSimd.Props.C77_accepted"
   ],
   "note": "broadcast in full; generators: complete, exact for one result type other than bool; negation proved for result types that depend on the index and for bool"
  },
  {
   "property": "C78",
   "status": "partial",
   "theorems": [
    "StdSimd.Props.C78_assign_objects_partial",
    "StdSimd.Props.C78_compound_objects_partial",
    "StdSimd.Props.C78_complete",
    "StdSimd.Props.C78_scalars",
    "StdSimd.Props.C78_accepted"
   ],
   "note": "exact for simd and mask operands; complete; arithmetic operands are all accepted, which the TS forbids where they narrow: negation proved"
  },
  {
   "property": "C79",
   "status": "partial",
   "theorems": [
    "StdSimd.Props.C79_to_register",
    "StdSimd.Props.C79_from_register_partial",
    "StdSimd.Props.C79_small_rejected",
    "StdSimd.Props.C79_round_trip",
    "StdSimd.Props.C79_from_vector",
    "StdSimd.Props.C79_to_vector_rejected",
    "StdSimd.Props.C79_to_vector_partial",
    "StdSimd.Props.C79_mask_from_register_partial",
    "StdSimd.Props.C79_mask_from_register_rejected",
    "StdSimd.Props.C79_mask_to_register_rejected",
    "StdSimd.Props.C79_mask_to_vector_partial",
    "StdSimd.Props.C79_mask_to_vector_rejected"
   ],
   "note": "positions and round trip for all combinations that compile, with exact conditions; several combinations do not compile: negations proved"
  },
  {
   "property": "C80",
   "status": "proved",
   "theorems": [
    "StdSimd.Props.C80_and_or_xor",
    "StdSimd.Props.C80_complement",
    "StdSimd.Props.C80_andnot",
    "StdSimd.Props.C80_scalar_float",
    "StdSimd.Props.C80_scalar_int",
    "StdSimd.Props.C80_sign_mask",
    "StdSimd.Props.C80_abs",
    "StdSimd.Props.C80_copysign"
   ],
   "note": "all theorems at full strength; one register and one element"
  }
 ]
}