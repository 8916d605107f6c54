C01_size: propext, Classical.choice, Quot.sound
C01_unary: propext, Classical.choice, Quot.sound
C01_increment: propext, Classical.choice, Quot.sound
C01_binary: propext, Classical.choice, Quot.sound
C01_ternary: propext, Classical.choice, Quot.sound
C01_broadcast: propext, Classical.choice, Quot.sound
C01_native_binary: propext, Quot.sound
C02_compare: propext, Classical.choice, Quot.sound
C02_not_equal: propext, Classical.choice, Quot.sound
C02_classify: propext, Classical.choice, Quot.sound
C02_classify_raw: propext, Classical.choice, Quot.sound
C02_negate: propext, Classical.choice, Quot.sound
C02_native_compare: propext, Classical.choice, Quot.sound
C03_all_of: propext, Classical.choice, Quot.sound
C03_any_of: propext, Classical.choice, Quot.sound
C03_none_of: propext, Classical.choice, Quot.sound
C03_some_of: propext, Classical.choice, Quot.sound
C03_popcount: propext, Classical.choice, Quot.sound
C03_find_first_set: propext, Classical.choice, Quot.sound
C03_find_last_set: propext, Classical.choice, Quot.sound
C03_all_of_const: propext, Quot.sound
C03_any_of_const: propext, Quot.sound
C03_some_of_const: propext, Classical.choice, Quot.sound
C04_mask_programs: propext, Classical.choice, Quot.sound
C04_reductions_of_programs: propext, Classical.choice, Quot.sound
C05_all: propext, Classical.choice, Quot.sound
C05_none: propext, Classical.choice, Quot.sound
C05_any: propext, Classical.choice, Quot.sound
C05_subscript: propext, Quot.sound
C05_count_partial: propext, Classical.choice, Quot.sound
C05_count_unsanitised_wrong: propext, Quot.sound
C05_count_unsanitised_value: propext, Classical.choice, Quot.sound
C06_prepend: propext, Classical.choice, Quot.sound
C06_extract: propext, Quot.sound
C06_split_append: propext, Classical.choice, Quot.sound
C07_storage: propext, Classical.choice, Quot.sound
C07_layout_partial: propext, Classical.choice, Quot.sound
C07_layout_i386_deviates: propext, Classical.choice, Quot.sound
C08_deduce: propext, Classical.choice, Quot.sound
C08_deduce_exact: propext, Quot.sound
C08_max_fixed_size: propext, Classical.choice, Quot.sound
C08_native_partial: propext, Classical.choice, Quot.sound
C08_native_invalid: none
C08_compatible: propext, Quot.sound
C09_read: propext, Classical.choice, Quot.sound
C09_write: propext, Classical.choice, Quot.sound
C09_write_history: propext, Classical.choice, Quot.sound
C09_native: propext, Quot.sound
C10_generator: propext, Classical.choice, Quot.sound
C10_calls: propext, Classical.choice, Quot.sound
C10_native_generator: propext, Classical.choice, Quot.sound
C11_load: propext, Classical.choice, Quot.sound
C11_native_load: propext, Quot.sound
C12_store: propext, Classical.choice, Quot.sound
C12_vec_mask_store: propext, Classical.choice, Quot.sound
C12_k_mask_store: propext, Quot.sound
C12_native_store: propext, Classical.choice, Quot.sound
C13_masked_load: propext, Classical.choice, Quot.sound
C13_mask_masked_load: propext, Classical.choice, Quot.sound
C13_vec_mask_masked_load: propext, Classical.choice, Quot.sound
C13_k_mask_masked_load_partial: propext, Classical.choice, Quot.sound
C13_native_masked_load: propext, Classical.choice, Quot.sound
C13_native_masked_load_raw_partial: propext, Classical.choice, Quot.sound
C13_native_avx_load: propext, Classical.choice, Quot.sound
C13_native_avx_load_out_of_bounds: propext, Quot.sound
C14_masked_store: propext, Classical.choice, Quot.sound
C14_converting_store_partial: propext, Classical.choice, Quot.sound
C14_converting_store_no_x86: propext, Classical.choice, Quot.sound
C14_converting_store_out_of_bounds: propext, Quot.sound
C14_mask_masked_store: propext, Classical.choice, Quot.sound
C14_vec_mask_masked_store: propext, Classical.choice, Quot.sound
C14_k_mask_masked_store_partial: propext, Quot.sound
C14_k_mask_store_out_of_bounds: propext, Quot.sound
C14_native_masked_store: propext, Classical.choice, Quot.sound
C14_native_masked_store_raw_partial: propext, Classical.choice, Quot.sound
C14_native_raw_store_out_of_bounds: propext, Quot.sound
C15_assign: propext, Classical.choice, Quot.sound
C15_assign_scalar_partial: propext, Classical.choice, Quot.sound
C15_compound_partial: propext, Classical.choice, Quot.sound
C15_compound_scalar_partial: propext, Classical.choice, Quot.sound
C15_unary: propext, Classical.choice, Quot.sound
C15_native_assign: propext, Classical.choice, Quot.sound
C15_blend_forms: propext, Classical.choice, Quot.sound
C15_native_assign_scalar_partial: propext, Classical.choice, Quot.sound
C15_assign_negative_zero: propext, Quot.sound
C15_native_compound_partial: propext, Classical.choice, Quot.sound
C15_native_unary: propext, Classical.choice, Quot.sound
C15_division_in_unselected_lane: propext, Quot.sound
C16_each_lane_once: propext, Classical.choice, Quot.sound
C16_reduce_partial: propext, Classical.choice, Quot.sound
C16_combine_layout: propext, Classical.choice, Quot.sound
C16_native_each_lane_once: propext, Classical.choice, Quot.sound
C16_native_reduce_partial: propext, Classical.choice, Quot.sound
C16_neon: propext, Classical.choice, Quot.sound
C16_negative_zero: propext, Quot.sound
C16_operands: propext, Classical.choice, Quot.sound
C16_float_sum: propext, Classical.choice, Quot.sound
C16_float_product: propext, Classical.choice, Quot.sound
C16_native_float_sum: propext, Classical.choice, Quot.sound
C16_native_float_product: propext, Classical.choice, Quot.sound
C17_masked_reduce_partial: propext, Classical.choice, Quot.sound
C17_native_masked_reduce_partial: propext, Classical.choice, Quot.sound
C17_float_sum: propext, Classical.choice, Quot.sound
C17_float_product: propext, Classical.choice, Quot.sound
C17_native_float_sum: propext, Classical.choice, Quot.sound
C17_native_float_product: propext, Classical.choice, Quot.sound
C18_extremum: propext, Classical.choice, Quot.sound
C18_native_extremum: propext, Classical.choice, Quot.sound
C18_masked_extremum_partial: propext, Classical.choice, Quot.sound
C18_native_masked_extremum_partial: propext, Classical.choice, Quot.sound
C18_infinity: propext, Quot.sound
C18_operations: propext, Classical.choice, Quot.sound
C18_numbers: propext, Classical.choice, Quot.sound
C18_native_numbers: propext, Classical.choice, Quot.sound
C18_masked_numbers_partial: propext, Classical.choice, Quot.sound
C18_masked_infinite: propext, Classical.choice, Quot.sound
C18_native_masked_numbers_partial: propext, Classical.choice, Quot.sound
C18_native_masked_infinite: propext, Classical.choice, Quot.sound
C18_float_infinity: propext, Classical.choice, Quot.sound
C19_split_sizes: propext, Classical.choice, Quot.sound
C19_split_sizes_native: propext, Classical.choice, Quot.sound
C19_split_parts_partial: propext, Classical.choice, Quot.sound
C19_split_parts_native: propext, Classical.choice, Quot.sound
C19_concat: propext, Classical.choice, Quot.sound
C19_concat_array: propext, Classical.choice, Quot.sound
C19_concat_split: propext, Quot.sound
C19_split_concat: propext
C19_split_of_concat: propext, Classical.choice, Quot.sound
C19_split_mask_partial: propext, Classical.choice, Quot.sound
C19_split_mask_partial_avx_wrong: propext, Quot.sound
C19_split_sizes_fixed_partial: propext, Classical.choice, Quot.sound
C19_split_parts_fixed_partial: propext, Classical.choice, Quot.sound
C19_split_sizes_i386_rejected: propext, Classical.choice, Quot.sound
C19_split_parts_i386_rejected: propext, Classical.choice, Quot.sound
C20_promise_partial: propext, Classical.choice, Quot.sound
C20_promise_pos: propext, Classical.choice, Quot.sound
C20_split_i386_false_promise: propext, Quot.sound
C21_fixed_size: propext, Classical.choice, Quot.sound
C21_static_simd_cast: propext, Classical.choice, Quot.sound
C21_no_resize: propext, Quot.sound
C21_implicit: propext, Classical.choice, Quot.sound
C22_value_preserving: propext, Classical.choice, Quot.sound
C22_value_preserving_bool: propext, Classical.choice, Quot.sound
C22_or_int: propext, Classical.choice, Quot.sound
C22_broadcast: propext, Classical.choice, Quot.sound
C22_int_exception: propext, Classical.choice, Quot.sound
C22_bool_to_schar: propext, Classical.choice, Quot.sound
C23_unsigned: propext, Classical.choice, Quot.sound
C23_signed_full: propext, Classical.choice, Quot.sound
C23_signed_padding_partial: propext, Classical.choice, Quot.sound
C23_signed_padding_exact: propext, Classical.choice, Quot.sound
C23_signed_padding_wrong: propext, Quot.sound
C23_signed_padding_wrong_avx512: propext, Quot.sound
C23_floating: propext, Classical.choice, Quot.sound
C24_multiplication_partial: propext, Classical.choice, Quot.sound
C24_signed_overflow: propext
C25_division: propext, Classical.choice, Quot.sound
C25_modulus: propext, Classical.choice, Quot.sound
C25_modulus8: propext, Classical.choice, Quot.sound
C26_ppc_vector: propext, Classical.choice, Quot.sound
C26_ppc_scalar: propext, Classical.choice, Quot.sound
C26_shl8_scalar: propext, Classical.choice, Quot.sound
C26_shl8_vector: propext, Classical.choice, Quot.sound
C26_shl16_vector: propext, Classical.choice, Quot.sound
C26_shl16_sse_partial: propext, Classical.choice, Quot.sound
C26_shl16_sse_wrong: propext, Classical.choice, Quot.sound
C26_shl32_sse: propext, Quot.sound
C26_shl64_sse: propext
C27_ppc_vector: propext, Classical.choice, Quot.sound
C27_ppc_scalar: propext, Classical.choice, Quot.sound
C27_shr8_scalar_unsigned: propext, Quot.sound
C27_shr8_scalar_signed: propext, Classical.choice, Quot.sound
C27_shr8_vector_unsigned: propext, Classical.choice, Quot.sound
C27_shr8_vector_signed: propext, Classical.choice, Quot.sound
C27_shr8_sse_partial: propext, Classical.choice, Quot.sound
C27_shr8_sse_wrong: propext, Quot.sound
C27_shr16_vector: propext, Classical.choice, Quot.sound
C27_shr16_sse_partial: propext, Classical.choice, Quot.sound
C27_shr16_sse_wrong: propext, Quot.sound
C27_shr32_unsigned: propext, Classical.choice, Quot.sound
C27_shr32_signed: propext, Classical.choice, Quot.sound
C28_shr64: propext, Classical.choice, Quot.sound
C29_fixed_size: propext, Classical.choice, Quot.sound
C29_store_bool_array: propext, Classical.choice, Quot.sound
C29_vector: propext, Classical.choice, Quot.sound
C29_avx512: propext, Classical.choice, Quot.sound
C29_avx512_masked: propext, Quot.sound
C30_vec_to_bits: propext, Classical.choice, Quot.sound
C30_x86_to_bits_const: propext, Classical.choice, Quot.sound
C30_x86_to_bits_sign: propext, Classical.choice, Quot.sound
C30_x86_to_bits_16: propext, Classical.choice, Quot.sound
C30_bits_to_vec: propext, Classical.choice, Quot.sound
C30_vec_to_vec: propext, Classical.choice, Quot.sound
C30_bool_to_vec: propext, Classical.choice, Quot.sound
C30_k_to_bits: propext, Classical.choice, Quot.sound
C30_bits_to_k: propext, Quot.sound
C30_vec_bits_vec: propext, Classical.choice, Quot.sound
C30_vec_load: propext, Classical.choice, Quot.sound
C30_k_load: propext, Quot.sound
C30_x86_bits_to_vec: propext, Classical.choice, Quot.sound
C30_x86_bits_to_vec_const: propext, Classical.choice, Quot.sound
C30_x86_vec_to_vec: propext, Classical.choice, Quot.sound
C31_x86_popcount_partial: propext, Classical.choice, Quot.sound
C31_x86_popcount_no_return: propext, Quot.sound
C31_vec_all_any_none: propext, Classical.choice, Quot.sound
C31_vec_popcount: propext, Classical.choice, Quot.sound
C31_vec_some_of: propext, Classical.choice, Quot.sound
C31_vec_find: propext, Classical.choice, Quot.sound
C31_x86_find: propext, Classical.choice, Quot.sound
C31_x86_reductions: propext, Classical.choice, Quot.sound
C31_x86_popcount_popcnt: propext, Classical.choice, Quot.sound
C31_x86_popcount_8x2: propext, Classical.choice, Quot.sound
C31_x86_popcount_8x4: propext, Classical.choice, Quot.sound
C31_x86_popcount_4x4: propext, Classical.choice, Quot.sound
C31_x86_popcount_2x8: propext, Classical.choice, Quot.sound
C31_x86_popcount_1x16: propext, Classical.choice, Quot.sound
C31_k_reductions: propext, Classical.choice, Quot.sound
C31_k_find_first_set: propext, Classical.choice, Quot.sound
C31_k_find_last_set_partial: propext, Classical.choice, Quot.sound
C31_subscripts_read_lanes: propext, Quot.sound
C31_constprop: propext, Classical.choice, Quot.sound
C31_exact_bool: propext, Quot.sound
C32_cmp: propext, Classical.choice, Quot.sound
C32_classify_xor: propext, Classical.choice, Quot.sound
C32_cmp_const: propext, Classical.choice, Quot.sound
C32_int_not_equal_partial: propext, Classical.choice, Quot.sound
C32_int_not_equal_phantom: propext, Classical.choice, Quot.sound
C32_int_not_equal_find_last_set_wrong: propext, Quot.sound
C32_classify_raw_partial: propext, Quot.sound
C32_classify_raw_phantom: propext, Quot.sound
C33_isunordered: propext, Classical.choice, Quot.sound
C33_generic: propext, Classical.choice, Quot.sound
C33_x86: propext, Classical.choice, Quot.sound
C34_isnan: propext, Classical.choice, Quot.sound
C34_isfinite: propext, Classical.choice, Quot.sound
C34_isinf: propext, Classical.choice, Quot.sound
C34_isnormal: propext, Classical.choice, Quot.sound
C34_isnormal_finite_math: propext, Classical.choice, Quot.sound
C34_signbit: propext, Classical.choice, Quot.sound
C34_fpclassify: propext, Classical.choice, Quot.sound
C34_fpclassify_packs: propext, Classical.choice, Quot.sound
C34_nonzero_value: propext, Classical.choice, Quot.sound
C35_nearbyint: propext, Classical.choice, Quot.sound
C35_trunc: propext, Classical.choice, Quot.sound
C35_floor: propext, Classical.choice, Quot.sound
C35_ceil: propext, Classical.choice, Quot.sound
C35_round: propext, Classical.choice, Quot.sound
C35_x86: propext, Classical.choice, Quot.sound
C35_sse2: propext, Classical.choice, Quot.sound
C35_x86_round: propext, Classical.choice, Quot.sound
C35_sse2_round: propext, Classical.choice, Quot.sound
C35_neon: propext, Classical.choice, Quot.sound
C35_neon_v7: propext, Classical.choice, Quot.sound
C36_bit_iteration: propext, Classical.choice, Quot.sound
C36_mask_iteration: propext, Classical.choice, Quot.sound
C37_min: propext, Classical.choice, Quot.sound
C37_max: propext, Classical.choice, Quot.sound
C37_minmax: propext, Classical.choice, Quot.sound
C37_clamp: propext, Classical.choice, Quot.sound
C37_clamp_exact: propext, Classical.choice, Quot.sound
C37_fixed_min_max: propext, Classical.choice, Quot.sound
C37_fixed_clamp: propext, Classical.choice, Quot.sound
C37_int_exact: propext, Classical.choice, Quot.sound
C37_min_ties: propext, Classical.choice, Quot.sound
C37_scalar_clamp_nan: propext, Classical.choice, Quot.sound
C38_native: propext, Classical.choice, Quot.sound
C38_fixed: propext, Classical.choice, Quot.sound
C38_nan: propext, Classical.choice, Quot.sound
C38_relations: propext, Classical.choice, Quot.sound
C39_swap: propext, Classical.choice, Quot.sound
C39_swap_left: propext, Classical.choice, Quot.sound
C39_swap_right: propext, Classical.choice, Quot.sound
C39_swap_twice: propext, Classical.choice, Quot.sound
C39_assign: propext, Classical.choice, Quot.sound
C39_read: propext, Classical.choice, Quot.sound
C39_compound: propext, Classical.choice, Quot.sound
C39_pre_increment: propext, Classical.choice, Quot.sound
C39_post_increment: propext, Classical.choice, Quot.sound
C40_memory_alignment: propext, Quot.sound
C40_flags: propext
C40_layout: propext, Classical.choice, Quot.sound
C40_chunks: propext, Classical.choice, Quot.sound
C40_object: propext, Classical.choice, Quot.sound
C40_to_native: propext
C40_conversion_false_promise: propext, Quot.sound
C40_object_i386: propext, Classical.choice, Quot.sound
C41_vec_broadcast: propext, Classical.choice, Quot.sound
C41_vec_not: propext, Classical.choice, Quot.sound
C41_vec_and: propext, Classical.choice, Quot.sound
C41_vec_or: propext, Classical.choice, Quot.sound
C41_vec_xor: propext, Classical.choice, Quot.sound
C41_vec_neq: propext, Classical.choice, Quot.sound
C41_vec_eq: propext, Classical.choice, Quot.sound
C41_vec_set: propext, Classical.choice, Quot.sound
C41_vec_masked_assign: propext, Classical.choice, Quot.sound
C41_vec_masked_assign_bool: propext, Classical.choice, Quot.sound
C41_k_broadcast: propext, Classical.choice, Quot.sound
C41_k_not: propext, Classical.choice, Quot.sound
C41_k_and: propext, Quot.sound
C41_k_or: propext, Quot.sound
C41_k_xor: propext, Quot.sound
C41_k_neq: propext, Quot.sound
C41_k_eq: propext, Classical.choice, Quot.sound
C41_k_set: propext, Classical.choice, Quot.sound
C41_k_masked_assign: propext, Classical.choice, Quot.sound
C41_k_masked_assign_bool: propext, Classical.choice, Quot.sound
C42_vector64x2: propext, Quot.sound
C42_vector64: propext, Classical.choice, Quot.sound
C42_vector32: propext, Quot.sound
C42_vector16: propext, Quot.sound
C42_avx512: propext, Classical.choice, Quot.sound
C42_masked: propext, Classical.choice, Quot.sound
C43_values: propext, Classical.choice, Quot.sound
C43_mask_to_fixed_size: propext, Classical.choice, Quot.sound
C43_bits_to_vec: propext, Classical.choice, Quot.sound
C43_bits_to_bits_partial: propext, Quot.sound
C43_bits_grow_leak: propext, Quot.sound
C43_bits_shrink_phantom: propext, Quot.sound
C43_vec_to_vec_partial: propext, Classical.choice, Quot.sound
C43_vec_same_size: propext, Quot.sound
C43_vec_padding_leak: propext, Quot.sound
C43_vec_undefined: propext, Quot.sound
C44_x86_instr: propext, Classical.choice, Quot.sound
C44_generic_partial: propext, Classical.choice, Quot.sound
C44_nearbyint_partial: propext, Classical.choice, Quot.sound
C44_nearbyint_zero: propext, Classical.choice, Quot.sound
C44_nearbyint_wrong: propext, Classical.choice, Quot.sound
C44_trunc_downward_wrong: propext, Classical.choice, Quot.sound
C44_x86_round_wrong: propext, Classical.choice, Quot.sound
C44_sse2_wrong: propext, Classical.choice, Quot.sound
C44_neon_instr: propext, Classical.choice, Quot.sound
C44_neon_v7_partial: propext, Classical.choice, Quot.sound
C44_neon_v7_wrong: propext, Classical.choice, Quot.sound
C45_not_both: propext, Classical.choice, Quot.sound
C45_value_preserving: propext, Classical.choice, Quot.sound
C45_integers_partial: propext, Classical.choice, Quot.sound
C45_floating_point: propext, Classical.choice, Quot.sound
C45_wchar_wrong: propext, Classical.choice, Quot.sound
C46_int_conversion: propext, Quot.sound
C46_compiles: propext, Quot.sound
C46_refines_elements: propext, Quot.sound
C46_convert_all_sse2: propext, Quot.sound
C46_bw_without_vl_ill_formed: propext
C47_frexp: propext, Classical.choice, Quot.sound
C47_frexp_avx512: propext, Classical.choice, Quot.sound
C47_conditions: propext, Classical.choice, Quot.sound
C48_logb: propext, Classical.choice, Quot.sound
C48_logb_avx512: propext, Classical.choice, Quot.sound
C49_modf_partial: propext, Classical.choice, Quot.sound
C49_integral_sign_partial: propext, Classical.choice, Quot.sound
C49_integral_sign_wrong: propext, Classical.choice, Quot.sound
C50_copysign: propext, Classical.choice, Quot.sound
C50_fabs: propext, Classical.choice, Quot.sound
C51_hypot: propext, Classical.choice, Quot.sound
C51_hypot_elementwise: propext, Classical.choice, Quot.sound
C51_hypot3: propext, Classical.choice, Quot.sound
C51_hypot3_elementwise_partial: propext, Classical.choice, Quot.sound
C51_hypot3_elementwise_wrong: propext, Classical.choice, Quot.sound
C51_armv7_wrong: propext, Classical.choice, Quot.sound
C52_neon_to_bits: propext, Classical.choice, Quot.sound
C52_neon_find: propext, Classical.choice, Quot.sound
C52_neon_all_of: propext, Classical.choice, Quot.sound
C52_neon_none_of: propext, Classical.choice, Quot.sound
C52_neon_any_of_partial: propext, Classical.choice, Quot.sound
C52_neon_any_of_wrong: propext, Classical.choice, Quot.sound
C52_neon_popcount_partial: propext, Classical.choice, Quot.sound
C52_neon_some_of_partial: propext, Classical.choice, Quot.sound
C52_neon_popcount_padding_wrong: propext, Classical.choice, Quot.sound
C52_neon_popcount_small_wrong: propext
C52_neon_popcount_long_wrong: propext, Quot.sound
C52_neon_some_of_small_wrong: propext, Quot.sound
C52_neon_some_of_padding_wrong: propext, Quot.sound
C52_ppc_popcount_partial: propext, Classical.choice, Quot.sound
C52_ppc_popcount_wrong: propext
C53_convert_partial: propext, Classical.choice, Quot.sound
C53_int64_to_float_close_partial: propext, Classical.choice, Quot.sound
C53_int64_to_float_false: propext, Classical.choice, Quot.sound
C53_uint_zero_down_false: propext, Classical.choice, Quot.sound
C54_call_partial: propext, Classical.choice, Quot.sound
C54_ldexp_partial: propext, Classical.choice, Quot.sound
C54_frexp_partial: propext, Classical.choice, Quot.sound
C54_result: propext, Classical.choice, Quot.sound
C54_ldexp_i386_false: propext, Quot.sound
C54_fpclassify_float_partial: propext, Classical.choice, Quot.sound
C54_fpclassify_double: propext, Classical.choice, Quot.sound
C54_fpclassify_sse_false: propext, Classical.choice, Quot.sound
C55_sin_double_partial: propext, Classical.choice, Quot.sound
C55_cos_double_partial: propext, Classical.choice, Quot.sound
C55_sin_double_small: propext, Classical.choice, Quot.sound
C55_cos_double_small: propext, Classical.choice, Quot.sound
C55_double_fixed_partial: propext, Classical.choice, Quot.sound
C55_sin_float_partial: propext, Classical.choice, Quot.sound
C55_cos_float_partial: propext, Classical.choice, Quot.sound
C55_relative_double_partial: propext, Classical.choice, Quot.sound
C55_relative_float_partial: propext, Classical.choice, Quot.sound
C55_notFinite: propext, Classical.choice, Quot.sound
C55_zero: propext, Classical.choice, Quot.sound
C55_zero_down_false: propext, Classical.choice, Quot.sound
C55_parity_double: propext, Classical.choice, Quot.sound
C55_parity_float_partial: propext, Classical.choice, Quot.sound
C55_parity_float: propext, Classical.choice, Quot.sound
C55_large_false: propext, Classical.choice, Quot.sound
C56_where_range_visits: propext, Classical.choice, Quot.sound
C56_where_range_partial: propext, Classical.choice, Quot.sound
C56_where_range_lp64: propext, Classical.choice, Quot.sound
C56_post_increment_partial: propext, Classical.choice, Quot.sound
C56_where_range_ilp32_false: propext, Classical.choice, Quot.sound
C57_unsigned: propext, Classical.choice, Quot.sound
C57_signed: propext, Classical.choice, Quot.sound
C57_narrow: propext, Classical.choice, Quot.sound
C57_bitwise: propext, Classical.choice, Quot.sound
C57_shift: propext, Classical.choice, Quot.sound
C58_wide: propext
C58_ldexp: propext, Classical.choice, Quot.sound
C58_ldexp_exact: propext, Classical.choice, Quot.sound
C58_ldexp_frexp: propext, Classical.choice, Quot.sound
C59_fallback: propext, Classical.choice, Quot.sound
C59_fallback_fixed: propext, Classical.choice, Quot.sound
C59_remquo: propext, Classical.choice, Quot.sound
C59_special_partial: propext, Classical.choice, Quot.sound
C59_sph_legendre_false: propext, Classical.choice, Quot.sound
C59_special_missing: propext
C60_bytes: propext, Classical.choice, Quot.sound
C60_array: propext, Classical.choice, Quot.sound
C60_read: propext, Classical.choice, Quot.sound
C60_store: propext, Classical.choice, Quot.sound
C61_abs: propext, Classical.choice, Quot.sound
C61_min: propext, Classical.choice, Quot.sound
C61_fixed: propext, Classical.choice, Quot.sound
C61_signbit: propext, Classical.choice, Quot.sound
C61_signbit_fixed: propext, Classical.choice, Quot.sound
C62_compound_partial: propext, Classical.choice, Quot.sound
C62_native_compound_partial: propext, Classical.choice, Quot.sound
C62_shift_ill_formed: propext, Quot.sound
C62_mask_ill_formed: none
C62_unary: propext, Classical.choice, Quot.sound
C62_bool: propext, Quot.sound
C62_conditional: propext, Classical.choice, Quot.sound
C63_program: propext, Classical.choice, Quot.sound
C63_unsigned: propext, Classical.choice, Quot.sound
C63_signed_partial: propext, Classical.choice, Quot.sound
C63_floating: propext, Classical.choice, Quot.sound
C63_lane_independent: propext, Classical.choice, Quot.sound
C63_signed_division_wrong: propext, Classical.choice, Quot.sound
C63_int_functions: propext, Classical.choice, Quot.sound
C63_native_int_functions_partial: propext, Classical.choice, Quot.sound
C63_ieee: propext, Classical.choice, Quot.sound
C63_native_ieee_partial: propext, Classical.choice, Quot.sound
C63_min_zero_wrong: propext, Classical.choice, Quot.sound
C63_native_partial: propext, Classical.choice, Quot.sound
C63_scalar: propext, Classical.choice, Quot.sound
C63_abi_independent: propext, Classical.choice, Quot.sound
C63_native_unsigned_partial: propext, Classical.choice, Quot.sound
C63_native_signed_full: propext, Classical.choice, Quot.sound
C63_native_floating_partial: propext, Classical.choice, Quot.sound
C63_native_masked_load_wrong: propext, Classical.choice, Quot.sound
C63_ppc_partial: propext, Classical.choice, Quot.sound
C63_ppc_native_partial: propext, Classical.choice, Quot.sound
C63_x86_bytes: propext, Classical.choice, Quot.sound
C63_x86_shorts: propext, Classical.choice, Quot.sound
C63_x86_ints: propext, Classical.choice, Quot.sound
C63_x86_longs_partial: propext, Classical.choice, Quot.sound
C63_x86_native_bytes_partial: propext, Classical.choice, Quot.sound
C63_x86_native_shorts_partial: propext, Classical.choice, Quot.sound
C63_x86_native_ints_partial: propext, Classical.choice, Quot.sound
C63_x86_native_longs_partial: propext, Classical.choice, Quot.sound
C63_x86_bytes_wrong: propext, Classical.choice, Quot.sound
C63_x86_shorts_wrong: propext, Classical.choice, Quot.sound
C64_ieee: propext, Classical.choice, Quot.sound
C64_control: propext, Classical.choice, Quot.sound
C64_termination: propext, Classical.choice, Quot.sound
C64_unsigned: propext, Classical.choice, Quot.sound
C64_native_partial: propext, Classical.choice, Quot.sound
C64_abi_independent_partial: propext, Classical.choice, Quot.sound
C64_find_last_set_wrong: propext, Classical.choice, Quot.sound
C65_arithmetic_partial: propext, Classical.choice, Quot.sound
C65_x86_partial: propext, Classical.choice, Quot.sound
C65_ppc_partial: propext, Classical.choice, Quot.sound
C65_multi: propext, Classical.choice, Quot.sound
C65_termination: propext, Classical.choice, Quot.sound
C65_integers_partial: propext, Classical.choice, Quot.sound
C65_abi_partial: propext, Classical.choice, Quot.sound
C65_abi_integers_partial: propext, Classical.choice, Quot.sound
C66_comparison_functions: propext, Classical.choice, Quot.sound
C66_comparison_functions_generic: propext, Classical.choice, Quot.sound
C66_comparison_functions_fixed_size: propext, Classical.choice, Quot.sound
C66_comparison_operators: propext, Classical.choice, Quot.sound
C66_comparison_padding_wrong: propext, Classical.choice, Quot.sound
C66_padding_init_wrong: propext, Classical.choice, Quot.sound
C66_full_register_init: propext, Quot.sound
C66_classification_partial: propext, Classical.choice, Quot.sound
C66_isnan_signalling_wrong: propext, Classical.choice, Quot.sound
C66_frexp_invalid: propext, Classical.choice, Quot.sound
C66_nearbyint_instruction: propext, Classical.choice, Quot.sound
C66_round_instructions: propext, Classical.choice, Quot.sound
C66_rint_generic_partial: propext, Classical.choice, Quot.sound
C66_nearbyint_inexact: propext, Classical.choice, Quot.sound
C66_rint_inexact: propext, Classical.choice, Quot.sound
C66_rounding_quiet_nan: propext, Classical.choice, Quot.sound
C66_round_instruction_partial: propext, Classical.choice, Quot.sound
C66_round_invalid: propext, Classical.choice, Quot.sound
C66_trunc_sse2: propext, Classical.choice, Quot.sound
C66_division_padding: propext, Classical.choice, Quot.sound
C66_masked_division_wrong: propext, Classical.choice, Quot.sound
C66_masked_division_values: propext, Classical.choice, Quot.sound
C66_frexp_avx512_invalid: propext, Classical.choice, Quot.sound
C66_frexp_avx512_conditions: propext, Classical.choice, Quot.sound
C66_logb_avx512_wrong: propext, Classical.choice, Quot.sound
C66_frexp_partial: propext, Classical.choice, Quot.sound
C66_frexp_overflow_wrong: propext, Classical.choice, Quot.sound
C66_ldexp_exceptions: propext, Classical.choice, Quot.sound
C66_ldexp_partial: propext, Classical.choice, Quot.sound
C66_ldexp_zero_wrong: propext, Classical.choice, Quot.sound
C66_modf_partial: propext, Classical.choice, Quot.sound
C66_modf_infinite_invalid: propext, Classical.choice, Quot.sound
C66_logb_partial: propext, Classical.choice, Quot.sound
C66_logb_zero_wrong: propext, Classical.choice, Quot.sound
C66_logb_overflow_wrong: propext, Classical.choice, Quot.sound
C67_reciprocal_overflow_threshold: propext, Classical.choice, Quot.sound
C67_threshold_nearest: propext, Classical.choice, Quot.sound
C67_digits10_fit: propext, Quot.sound
C67_digits10: propext, Classical.choice, Quot.sound
C67_digits10_bound: propext
C67_max_digits10: propext, Classical.choice, Quot.sound
C67_integer_limits: propext, Classical.choice, Quot.sound
C67_digits: propext, Classical.choice, Quot.sound
C67_digits_bool_wrong: propext
C67_iec559_nan: propext, Classical.choice, Quot.sound
C67_iec559_inf: propext, Classical.choice, Quot.sound
C67_value_or_float: propext, Classical.choice, Quot.sound
C67_value_or_int: propext, Classical.choice, Quot.sound
C68_build_partial: propext, Classical.choice, Quot.sound
C68_builds_agree_partial: propext, Classical.choice, Quot.sound
C68_known_divisor_wrong: propext, Classical.choice, Quot.sound
C68_known_shift_wrong: propext, Classical.choice, Quot.sound
C69_from_bitset: propext, Classical.choice, Quot.sound
C69_to_bitset: propext, Classical.choice, Quot.sound
C69_bitset_round_trip: propext, Classical.choice, Quot.sound
C69_mask_round_trip: propext, Classical.choice, Quot.sound
C69_simd_native: propext, Classical.choice, Quot.sound
C69_simd_fixed: propext, Classical.choice, Quot.sound
C70_static_cast: propext, Quot.sound
C70_same_size: propext, Classical.choice, Quot.sound
C70_simd_cast: propext, Classical.choice, Quot.sound
C70_valid_partial: propext, Classical.choice, Quot.sound
C70_more_than_32: propext, Classical.choice, Quot.sound
C70_invalid_result: propext
C70_static_cast_mask_target: propext
C70_static_cast_mask: propext, Quot.sound
C70_simd_cast_mask_never: propext, Classical.choice, Quot.sound
C70_to_native: propext, Quot.sound
C70_never_deduced: propext, Quot.sound
C70_to_fixed_size_values: propext, Classical.choice, Quot.sound
C70_to_native_values: propext, Classical.choice, Quot.sound
C71_fixed_lanes: propext, Classical.choice, Quot.sound
C71_fixed_partial: propext, Classical.choice, Quot.sound
C71_fixed_wrong: propext, Classical.choice, Quot.sound
C71_k: propext, Classical.choice, Quot.sound
C71_vec: propext, Classical.choice, Quot.sound
C71_vec_reductions: propext, Classical.choice, Quot.sound
C71_to_fixed_size: propext, Classical.choice, Quot.sound
C71_to_fixed_size_wrong: propext, Quot.sound
C71_k_find_last_set_wrong: propext, Quot.sound
C72_programs_partial: propext, Classical.choice, Quot.sound
C72_arithmetic_partial: propext, Classical.choice, Quot.sound
C72_x86_partial: propext, Classical.choice, Quot.sound
C72_termination_partial: propext, Classical.choice, Quot.sound
C73_deduce: propext, Classical.choice, Quot.sound
C73_exists: propext, Classical.choice, Quot.sound
C73_one: propext, Quot.sound
C73_prefers_registers: propext, Quot.sound
C73_rebind: propext, Classical.choice, Quot.sound
C73_rebind_exists: propext, Classical.choice, Quot.sound
C73_rebind_large: propext, Classical.choice, Quot.sound
C73_compose: propext, Classical.choice, Quot.sound
C73_stable: propext, Classical.choice, Quot.sound
C73_native: propext, Classical.choice, Quot.sound
C73_resize: propext, Classical.choice, Quot.sound
C73_not_stable: none
C74_unique: propext, Classical.choice, Quot.sound
C74_two: propext, Classical.choice, Quot.sound
C74_hypot2: propext, Classical.choice, Quot.sound
C74_hypot3: propext, Classical.choice, Quot.sound
C74_three_partial: propext, Classical.choice, Quot.sound
C74_three_one_type: propext, Classical.choice, Quot.sound
C74_three_wrong: propext, Classical.choice, Quot.sound
C74_remquo_partial: propext, Classical.choice, Quot.sound
C74_copysign_partial: propext, Classical.choice, Quot.sound
C74_remquo_copysign_wrong: propext, Classical.choice, Quot.sound
C74_hypot_integers: propext, Classical.choice, Quot.sound
C74_exponent: propext, Classical.choice, Quot.sound
C74_exponent_kept: propext, Classical.choice, Quot.sound
C75_unique: propext, Classical.choice, Quot.sound
C75_operators: propext, Classical.choice, Quot.sound
C75_integral_operators: propext, Classical.choice, Quot.sound
C75_symmetric: propext, Classical.choice, Quot.sound
C75_keeps_values: propext, Classical.choice, Quot.sound
C75_compound: propext, Classical.choice, Quot.sound
C75_shift: propext, Classical.choice, Quot.sound
C75_shift_count: propext, Classical.choice, Quot.sound
C75_shift_count_wraps: propext, Classical.choice, Quot.sound
C75_masks: propext, Classical.choice, Quot.sound
C75_mask_compound: propext, Quot.sound
C75_wchar_wrong: propext, Classical.choice, Quot.sound
C76_sound: propext, Classical.choice, Quot.sound
C76_assign_partial: propext, Classical.choice, Quot.sound
C76_compound_partial: propext, Classical.choice, Quot.sound
C76_own_type: propext, Classical.choice, Quot.sound
C76_int: propext, Classical.choice, Quot.sound
C76_assign_rejected: propext, Classical.choice, Quot.sound
C76_rejected: propext, Classical.choice, Quot.sound
C77_broadcast: propext, Classical.choice, Quot.sound
C77_generator_partial: propext, Classical.choice, Quot.sound
C77_generator_complete: propext, Classical.choice, Quot.sound
C77_first_only: propext, Classical.choice, Quot.sound
C77_accepted: propext, Classical.choice, Quot.sound
C78_assign_objects_partial: propext, Classical.choice, Quot.sound
C78_compound_objects_partial: propext, Classical.choice, Quot.sound
C78_complete: propext, Classical.choice, Quot.sound
C78_scalars: propext, Classical.choice, Quot.sound
C78_accepted: propext, Classical.choice, Quot.sound
C79_to_register: propext, Classical.choice, Quot.sound
C79_from_register_partial: propext, Classical.choice, Quot.sound
C79_small_rejected: propext, Classical.choice, Quot.sound
C79_round_trip: propext, Classical.choice, Quot.sound
C79_from_vector: propext, Classical.choice, Quot.sound
C79_to_vector_rejected: none
C79_to_vector_partial: propext, Classical.choice, Quot.sound
C79_mask_from_register_partial: propext, Classical.choice, Quot.sound
C79_mask_from_register_rejected: propext, Classical.choice, Quot.sound
C79_mask_to_register_rejected: propext, Classical.choice, Quot.sound
C79_mask_to_vector_partial: propext
C79_mask_to_vector_rejected: propext
C80_and_or_xor: propext, Quot.sound
C80_complement: propext, Classical.choice, Quot.sound
C80_andnot: propext, Classical.choice, Quot.sound
C80_scalar_float: propext, Quot.sound
C80_scalar_int: propext, Classical.choice, Quot.sound
C80_sign_mask: propext, Classical.choice, Quot.sound
C80_abs: propext, Classical.choice, Quot.sound
C80_copysign: propext, Classical.choice, Quot.sound
