{"id": "C01", "title": "Elementwise operators on fixed_size simd are lane-wise", "statement": "For simd<T, fixed_size<N>> operands a, b and any element operation op (+,-,*,&,|,^,unary minus,~, ++,--, min, max, math functions), lane i of the result is op(a[i], b[i]) for every i < N, no matter into which sequence of native registers (with or without padding lanes) the N elements are stored.", "quantifier": "all N, all element types/operations, all register decompositions of N, all lane contents including arbitrary padding contents", "why_tests_cant": "the set of (N, target ISA, T, values) combinations is unbounded; tests sample a few N on the host ISA", "anchors": ["experimental/bits/simd_fixed_size.h:_SimdTuple::_M_apply_per_chunk,_M_apply_wrapped,_M_extract_argument,_M_skip_argument", "experimental/bits/simd_fixed_size.h:_SimdImplFixedSize"]}
{"id": "C02", "title": "fixed_size comparisons produce the lane-wise mask and only that", "statement": "For fixed_size operands, lane i of (a cmp b) is exactly a[i] cmp b[i] for i < N, and the resulting mask object contains no other set bit, so popcount/find_last_set/all_of on it are exact.", "quantifier": "all N up to the library's limit of 64 mask lanes, all decompositions, all lane values", "why_tests_cant": "the stray-bit half of the claim is invisible to lane reads and depends on every decomposition", "anchors": ["experimental/bits/simd_fixed_size.h:_SimdTuple::_M_test", "experimental/bits/simd.h:_BitMask::_M_prepend,_M_sanitized"]}
{"id": "C03", "title": "Mask reductions on fixed_size masks equal their definitions", "statement": "all_of(k) iff every lane is set; any_of iff some lane is set; none_of iff no lane is set; some_of iff some lane is set and some is not; popcount(k) is the number of set lanes; find_first_set/find_last_set return the least/greatest set lane index whenever any_of(k).", "quantifier": "all mask sizes and all mask values", "why_tests_cant": "2^N mask values for each N", "anchors": ["experimental/bits/simd_fixed_size.h:_MaskImplFixedSize::_S_all_of,_S_any_of,_S_none_of,_S_some_of,_S_popcount,_S_find_first_set,_S_find_last_set", "experimental/bits/simd.h:_BitMask::all,any,none,count"]}
{"id": "C04", "title": "Mask logical operators are lane-wise and never create phantom lanes", "statement": "For fixed_size masks, lane i of !a, a&b, a|b, a^b, a&&b, a||b, a==b, a!=b and of masked assignment is the Boolean operation on lane i, and any sequence of such operations and of element writes keeps the mask free of set bits beyond lane N-1.", "quantifier": "all mask sizes, all mask values, all finite sequences of mask operations", "why_tests_cant": "needs an invariant over every operation history, not a single call", "anchors": ["experimental/bits/simd.h:_BitMask::operator~,^=,|=,&=,set", "experimental/bits/simd_fixed_size.h:_MaskImplFixedSize"]}
{"id": "C05", "title": "A bit mask, sanitised or not, answers queries about its N bits only", "statement": "For every bitmask object of N bits, whatever its unused high bits hold, all/any/none/count/operator[] depend only on bits 0..N-1 and return respectively conjunction, disjunction, its negation, cardinality and the bit.", "quantifier": "all N, all word contents, sanitised and unsanitised", "why_tests_cant": "unused-bit contents are unobservable except through these functions; 2^(8*ceil(N/8)) states", "anchors": ["experimental/bits/simd.h:_BitMask::_M_sanitized,all,any,none,count,operator[]"]}
{"id": "C06", "title": "Appending and extracting mask parts", "statement": "Concatenating bitmask parts and extracting a contiguous range of lanes gives exactly the concatenation/sub-range of the lane sequences; a result typed as sanitised has all unused bits zero.", "quantifier": "all sizes, offsets and contents allowed by the static assertions", "why_tests_cant": "the sanitised tag is a static promise about all runtime values", "anchors": ["experimental/bits/simd.h:_BitMask::_M_prepend,_M_extract", "experimental/bits/simd_fixed_size.h:__tuple_element_meta::_S_make_mask,_S_mask_to_shifted_ullong"]}
{"id": "C07", "title": "Every fixed_size<N> has a storage decomposition of valid native ABIs", "statement": "For every N >= 1, element size and feature set, the register sequence chosen to store N elements terminates, uses only ABIs valid for T, its sizes sum to N, are non-increasing, and consist of full native registers followed by at most one smaller remainder register.", "quantifier": "all N, all element sizes, all combinations of ISA feature flags", "why_tests_cant": "the compiler only ever instantiates the flags of the host build", "anchors": ["experimental/bits/simd_fixed_size.h:__fixed_size_storage_builder", "experimental/bits/simd.h:_AbiList,__find_next_valid_abi,__vectorized_sizeof", "experimental/bits/simd_builtin.h:simd_abi::_VecBuiltin,_VecBltnBtmsk"]}
{"id": "C08", "title": "ABI deduction returns an ABI of exactly the requested width", "statement": "simd_abi::deduce_t<T, N> (and rebind_simd/resize_simd built on it) denotes a valid ABI for T whose size is exactly N for every 1 <= N <= max_fixed_size; native and compatible ABIs are valid for every vectorizable T.", "quantifier": "all T sizes, all N, all feature sets", "why_tests_cant": "same as above: feature sets are compile-time", "anchors": ["experimental/bits/simd.h:__deduce_impl,_AbiList::_BestAbi,__determine_native_abi,simd_size,resize_simd", "experimental/bits/simd_fixed_size.h:simd_abi::_Fixed"]}
{"id": "C09", "title": "Element writes through operator[] are local", "statement": "After v[i] = x (i < size), v[i] reads x and every other lane is unchanged; reads return the value of the addressed lane, for every storage decomposition and for masks as well as vectors. Any sequence of element writes behaves as writes to an array.", "quantifier": "all sizes, decompositions, indices, values and write sequences", "why_tests_cant": "index-to-register arithmetic must be right for every decomposition", "anchors": ["experimental/bits/simd_fixed_size.h:_SimdTuple::operator[],_M_set,_MaskImplFixedSize::_S_set", "experimental/bits/simd.h:_SmartReference"]}
{"id": "C10", "title": "Generator construction", "statement": "simd(gen) calls gen exactly once for every index 0..size-1 and lane i holds gen(i); padding lanes never receive a gen call.", "quantifier": "all sizes, decompositions and generators", "why_tests_cant": "quantifies over all functions", "anchors": ["experimental/bits/simd_fixed_size.h:_SimdTuple::_S_generate,_SimdImplFixedSize::_S_generator", "experimental/bits/simd_builtin.h:_SimdImplBuiltin::_S_generator", "experimental/bits/simd.h:__generate_vector"]}
{"id": "C11", "title": "Loads read exactly size elements", "statement": "copy_from(mem, flags) sets lane i to mem[i] (converted) for all i < size and does not access any element outside mem[0..size-1], for every decomposition, partial registers included.", "quantifier": "all sizes, element sizes, decompositions, memory contents, mapped ranges", "why_tests_cant": "out-of-range reads are normally silent", "anchors": ["experimental/bits/simd_builtin.h:_CommonImplBuiltin::_S_load,_SimdImplBuiltin::_S_load", "experimental/bits/simd_fixed_size.h:_SimdImplFixedSize::_S_load"]}
{"id": "C12", "title": "Stores write exactly size elements", "statement": "copy_to(mem, flags) makes mem[i] equal (converted) lane i for all i < size and leaves every other memory cell unchanged, for every decomposition, partial registers included.", "quantifier": "all sizes, element sizes, decompositions, memory contents", "why_tests_cant": "out-of-range writes are only visible for particular memory layouts", "anchors": ["experimental/bits/simd_builtin.h:_CommonImplBuiltin::_S_store,_SimdImplBuiltin::_S_store", "experimental/bits/simd_fixed_size.h:_SimdImplFixedSize::_S_store", "experimental/bits/simd_x86.h:_CommonImplX86::_S_store"]}
{"id": "C13", "title": "Masked load touches only selected elements", "statement": "where(k, v).copy_from(mem) sets lane i to mem[i] exactly for the set lanes of k, keeps the other lanes, and accesses mem[i] only for set lanes (other elements may be unmapped).", "quantifier": "all sizes, masks, memory contents and mapped sets", "why_tests_cant": "fault-suppression and merge must hold for all 2^N masks", "anchors": ["experimental/bits/simd.h:_BitOps::_S_bit_iteration", "experimental/bits/simd_builtin.h:_SimdImplBuiltin::_S_masked_load", "experimental/bits/simd_fixed_size.h:_SimdImplFixedSize::_S_masked_load", "experimental/bits/simd_x86.h:_SimdImplX86::_S_masked_load", "experimental/bits/simd_neon.h:_SimdImplNeon::_S_masked_load"]}
{"id": "C14", "title": "Masked store touches only selected elements", "statement": "where(k, v).copy_to(mem) makes mem[i] = v[i] exactly for the set lanes of k and leaves every other memory cell (unselected elements and everything outside mem[0..size-1]) unchanged, for every mask a program can compute.", "quantifier": "all sizes, element types and types of the memory elements, masks (including masks produced by any comparison), memory contents", "why_tests_cant": "needs a statement about every mask value incl. unused bits of mask registers", "anchors": ["experimental/bits/simd_builtin.h:_SimdImplBuiltin::_S_masked_store,_S_masked_store_nocvt", "experimental/bits/simd_fixed_size.h:_SimdImplFixedSize::_S_masked_store", "experimental/bits/simd_x86.h:_SimdImplX86::_S_masked_store_nocvt,_S_not_equal_to", "experimental/bits/simd_neon.h:_SimdImplNeon::_S_masked_store_nocvt", "experimental/bits/simd_builtin.h:_S_masked_store (converting branch),__converts_via_decomposition_v"]}
{"id": "C15", "title": "where-expression assignment is a lane-wise select", "statement": "where(k, v) = x, where(k, v) op= x, ++/-- and unary operators through where change lane i to x[i] (v[i] op x[i], ...) iff k[i], and leave it otherwise unchanged; likewise for masks.", "quantifier": "all sizes, masks, values, operators", "why_tests_cant": "all masks and values", "anchors": ["experimental/bits/simd.h:where_expression", "experimental/bits/simd_fixed_size.h:_SimdImplFixedSize::_S_masked_assign,_S_masked_cassign,_S_masked_unary", "experimental/bits/simd_builtin.h:_SimdImplBuiltin::_S_masked_assign,_S_masked_cassign,_S_masked_unary,_CommonImplBuiltin::_S_blend"]}
{"id": "C16", "title": "reduce combines every lane exactly once", "statement": "For any associative and commutative binary operation op that acts lane-wise, reduce(v, op) equals the fold of op over v[0..size-1] - no lane is dropped, duplicated, and no padding lane contributes - for every size, decomposition and register width.", "quantifier": "all sizes >= 1, all register decompositions, all associative commutative operations, all values, all padding contents", "why_tests_cant": "the reduction tree is different for each size; tests with + on small integers cannot separate all trees", "anchors": ["experimental/bits/simd_fixed_size.h:_SimdImplFixedSize::_S_reduce", "experimental/bits/simd_builtin.h:_SimdImplBuiltin::_S_reduce,_S_reduce_partial"]}
{"id": "C17", "title": "Masked reduce ignores unselected lanes", "statement": "reduce(where(k, v), identity, op) equals the fold over the selected lanes (the identity when none is selected), for +,*,&,|,^ and any op with identity.", "quantifier": "all sizes, masks, values, ops with identity", "why_tests_cant": "2^N masks", "anchors": ["experimental/bits/simd.h:reduce(const_where_expression)"]}
{"id": "C18", "title": "Masked hmin/hmax return the extremum of the selected lanes", "statement": "hmin(where(k, v)) (hmax) returns the minimum (maximum) of the selected lanes whenever at least one lane is selected, for all integer values and all non-NaN floating-point values including infinities.", "quantifier": "all sizes, non-empty masks, values", "why_tests_cant": "fails only for special values (all selected lanes infinite)", "anchors": ["experimental/bits/simd.h:hmin,hmax(const_where_expression)"]}
{"id": "C19", "title": "split and concat are inverse", "statement": "split<Sizes...>(v) yields consecutive lane ranges of v; concat of simds is the concatenation of their lanes; concat(split<...>(v)) == v and split<sizes>(concat(vs...)) == vs; the same for masks and array forms.", "quantifier": "all size lists summing to size, all values, all decompositions", "why_tests_cant": "size lists are unbounded and each instantiates different code", "anchors": ["experimental/bits/simd.h:split,concat,__extract_center,_SizeList,__store_pack_of_simd", "experimental/bits/simd_fixed_size.h:__extract_part,__simd_tuple_concat,__simd_tuple_pop_front,__for_each"]}
{"id": "C20", "title": "split never loads with more alignment than the address has", "statement": "When split reads a part from a stored simd, the alignment it promises for the part's address divides that address, for every offset.", "quantifier": "all base alignments (powers of two), offsets and element sizes", "why_tests_cant": "misalignment faults depend on the instruction selected", "anchors": ["experimental/bits/simd.h:split(simd) load alignment expression,memory_alignment,vector_aligned_tag,overaligned_tag"]}
{"id": "C21", "title": "Casts between fixed_size simds convert each lane", "statement": "static_simd_cast/simd_cast/conversion between fixed_size<N> simds of different element types yields lane i = static_cast<U>(v[i]) for every pair of storage decompositions (one-to-many, many-to-one, equal, scalar).", "quantifier": "all N, all pairs of decompositions arising from element sizes and feature sets, all values", "why_tests_cant": "the (T,U,N,ISA) product is huge; the converter has special cases per shape", "anchors": ["experimental/bits/simd_converter.h:_SimdConverter", "experimental/bits/simd_builtin.h:__convert_all,__vector_convert", "experimental/bits/simd_fixed_size.h:__to_simd_tuple"]}
{"id": "C22", "title": "Implicit conversions are value preserving", "statement": "Whenever simd<U> accepts an implicit conversion or broadcast from arithmetic type T, or a generator whose results are of type T (not int, unsigned int special cases), every value of T is exactly representable in U.", "quantifier": "all ordered pairs of arithmetic types, all values", "why_tests_cant": "value quantification over 64-bit types", "anchors": ["experimental/bits/simd.h:__is_narrowing_conversion,_ValuePreserving,_ValuePreservingOrInt", "experimental/bits/numeric_traits.h:__digits,__finite_max,__finite_min"]}
{"id": "C23", "title": "Division and modulus never trap because of padding", "statement": "If for every lane i < size x[i]/y[i] is defined in C++, then x / y and x % y on simd are defined and lane-wise correct, including for vectors whose register has padding lanes and whatever those contain.", "quantifier": "all sizes with padding, all operand values, all padding contents reachable through the API", "why_tests_cant": "the trap depends on invisible padding contents", "anchors": ["experimental/bits/simd_builtin.h:_SimdImplBuiltin::_S_divides,_S_modulus,_VecBuiltin::__make_padding_nonzero,_S_broadcast"]}
{"id": "C24", "title": "8-bit multiplication emulation", "statement": "Multiplication of 8-bit lanes via 16/32-bit multiplies equals the product modulo 256 in every lane.", "quantifier": "all pairs of lane contents, any number of lanes", "why_tests_cant": "cross-lane carries must vanish for all neighbour values", "anchors": ["experimental/bits/simd_x86.h:_SimdImplX86::_S_multiplies"]}
{"id": "C25", "title": "Integer division through floating point is exact", "statement": "Integer division of <= 16-bit lanes via float and 32-bit lanes via double returns the C++ truncated quotient for all x and all y != 0 whose quotient is representable; modulus is consistent with it.", "quantifier": "all pairs (x,y) of 8/16/32-bit signed and unsigned integers, y != 0", "why_tests_cant": "2^64 pairs for 32-bit", "anchors": ["experimental/bits/simd_x86.h:_SimdImplX86::_S_divides,_S_modulus"]}
{"id": "C26", "title": "Left shifts of narrow lanes", "statement": "Lane i of v << s (scalar s) and of v << w (vector w) is the C++ value of v[i] << w[i] truncated to the lane type, for all shift amounts the language defines for the promoted type, for 8-, 16- and 32-bit lanes, on every code path.", "quantifier": "all lane contents, all shift amounts in [0, 31] ([0,63] for 64-bit), all neighbours", "why_tests_cant": "cross-lane leakage only shows for particular neighbour/amount combinations", "anchors": ["experimental/bits/simd_x86.h:_SimdImplX86::_S_bit_shift_left"]}
{"id": "C27", "title": "Right shifts of narrow lanes", "statement": "Lane i of v >> s and v >> w is the C++ value of v[i] >> w[i] (arithmetic for signed, logical for unsigned) truncated to the lane type for all shift amounts defined for the promoted type, on every code path.", "quantifier": "all lane contents, all defined shift amounts, all neighbours, signed and unsigned", "why_tests_cant": "as above", "anchors": ["experimental/bits/simd_x86.h:_SimdImplX86::_S_bit_shift_right"]}
{"id": "C28", "title": "64-bit arithmetic right shift emulation", "statement": "v >> s on signed 64-bit lanes built from 32-bit shifts equals the arithmetic shift for all 0 <= s < 64.", "quantifier": "all lane values, all s", "why_tests_cant": "2^70 combinations", "anchors": ["experimental/bits/simd_x86.h:_SimdImplX86::_S_bit_shift_right"]}
{"id": "C29", "title": "Storing a mask as bool array", "statement": "copy_to of a mask writes true/false for lane i into mem[i] for every lane and nothing else; the multiplication/pdep tricks used produce exactly 0 or 1 per byte.", "quantifier": "all mask sizes and values", "why_tests_cant": "2^N masks times all sizes; carries in the multiplication must never collide", "anchors": ["experimental/bits/simd_builtin.h:_CommonImplBuiltin::_S_store_bool_array", "experimental/bits/simd_x86.h:_CommonImplX86::_S_store_bool_array"]}
{"id": "C30", "title": "Bit mask / vector mask representation changes preserve lanes", "statement": "Converting a mask between bitmask and vector-mask representations, between element widths, and through bool arrays (copy_from) preserves every lane; vector masks always hold 0 or all-ones per lane.", "quantifier": "all mask sizes, values, and element width pairs", "why_tests_cant": "2^N masks, many shape pairs", "anchors": ["experimental/bits/simd_builtin.h:_MaskImplBuiltinMixin::_S_to_maskvector,_S_to_bits", "experimental/bits/simd_x86.h:_MaskImplX86Mixin::_S_to_maskvector,_S_to_bits", "experimental/bits/simd_builtin.h:_MaskImplBuiltin::_S_convert"]}
{"id": "C31", "title": "Mask reductions on vector masks", "statement": "all_of, any_of, none_of, some_of, popcount, find_first_set, find_last_set on native vector masks equal their definitions over the size lanes whatever padding lanes contain.", "quantifier": "all sizes, masks, padding", "why_tests_cant": "2^N masks; padding invisible", "anchors": ["experimental/bits/simd_builtin.h:_MaskImplBuiltin", "experimental/bits/simd_x86.h:_MaskImplX86::_S_all_of,_S_any_of,_S_popcount"]}
{"id": "C32", "title": "Masks produced by AVX-512 comparisons have no phantom lanes", "statement": "For native bitmask ABIs, the mask returned by any comparison or classification contains set bits only at positions < size, hence find_last_set returns an index < size and masked stores stay in bounds.", "quantifier": "all sizes incl. partial, all comparisons, all values", "why_tests_cant": "needs AVX-512 hardware, and the phantom bits are invisible to most queries", "anchors": ["experimental/bits/simd_x86.h:_SimdImplX86::_S_equal_to,_S_not_equal_to,_S_less,_S_less_equal,_S_isinf,_S_signbit", "experimental/bits/simd_x86.h:_MaskImplX86::_S_find_last_set"]}
{"id": "C33", "title": "isless & co. implement IEEE quiet comparisons", "statement": "isgreater, isgreaterequal, isless, islessequal, islessgreater, isunordered via integer bit patterns equal the IEEE-754 ordering of the represented values (false on NaN; -0 equals +0; infinities ordered), for every pair of bit patterns of any binary interchange format.", "quantifier": "all pairs of bit patterns, all formats (exponent width, mantissa width)", "why_tests_cant": "2^64..2^128 pairs", "anchors": ["experimental/bits/simd_builtin.h:_SimdImplBuiltin::_S_isgreater,_S_isgreaterequal,_S_isless,_S_islessequal,_S_islessgreater,_S_isunordered"]}
{"id": "C34", "title": "Floating-point classification by bit patterns", "statement": "isnan, isinf, isfinite, isnormal, signbit and fpclassify computed with integer operations agree with the IEEE-754 class of the value for every bit pattern.", "quantifier": "all bit patterns, all formats", "why_tests_cant": "2^32/2^64 patterns per format, generic in format", "anchors": ["experimental/bits/simd_builtin.h:_SimdImplBuiltin::_S_isnan,_S_isfinite,_S_isinf,_S_isnormal,_S_signbit,_S_fpclassify"]}
{"id": "C35", "title": "Rounding functions round correctly", "statement": "The arithmetic fallbacks of trunc, floor, ceil, round and nearbyint return the mathematically correct integral value for every finite input.", "quantifier": "all finite values of a format with p digits, round-to-nearest-even mode", "why_tests_cant": "2^32/2^64 inputs", "anchors": ["experimental/bits/simd_builtin.h:_SimdImplBuiltin::_S_nearbyint,_S_trunc,_S_round,_S_floor,_S_ceil", "experimental/bits/simd_neon.h:_SimdImplNeon::_S_trunc,_S_round,_S_floor,_S_ceil"]}
{"id": "C36", "title": "Iteration over set lanes", "statement": "Iterating over the set bits of a mask visits each set lane exactly once in increasing order and terminates (loops over where(mask) ranges are C56).", "quantifier": "all mask values", "why_tests_cant": "termination and exhaustiveness over all 2^64 masks", "anchors": ["experimental/bits/simd.h:_BitOps::_S_bit_iteration,where_range"]}
{"id": "C37", "title": "min, max, minmax and clamp", "statement": "min/max return lane-wise one of the operands that is least/greatest; minmax the pair; clamp(v, lo, hi) returns lane-wise v limited to [lo, hi] whenever lo <= hi.", "quantifier": "all values of a totally ordered element type, all sizes", "why_tests_cant": "all values", "anchors": ["experimental/bits/simd.h:min,max,minmax,clamp", "experimental/bits/simd_builtin.h:_SimdImplBuiltin::_S_min,_S_max"]}
{"id": "C38", "title": "Derived comparison operators", "statement": "a > b, a >= b, a != b are lane-wise the C++ comparisons, in particular false on NaN operands for > and >= and true for !=.", "quantifier": "all values incl. unordered ones", "why_tests_cant": "all pairs", "anchors": ["experimental/bits/simd.h:simd::operator>,operator>=", "experimental/bits/simd_builtin.h:_SimdImplBuiltin::_S_less,_S_less_equal"]}
{"id": "C39", "title": "Swapping element references", "statement": "swap(v[i], v[j]), swap(v[i], x), swap(x, v[i]) exchange exactly the two values and leave every other lane unchanged (including i == j).", "quantifier": "all sizes, indices, values", "why_tests_cant": "aliasing cases for all index pairs", "anchors": ["experimental/bits/simd.h:_SmartReference::swap"]}
{"id": "C40", "title": "Alignment tags are sufficient", "statement": "For every vector length and element type, element_aligned assumes nothing beyond element alignment, vector_aligned assumes at most memory_alignment_v, overaligned<N> exactly N, and chunk-wise loads of a fixed_size object from an address aligned for the whole object are aligned for every chunk as the code assumes.", "quantifier": "all sizes, element sizes, decompositions, addresses", "why_tests_cant": "alignment faults are instruction-selection dependent", "anchors": ["experimental/bits/simd.h:element_aligned_tag,vector_aligned_tag,overaligned_tag,memory_alignment", "experimental/bits/simd_fixed_size.h:_SimdImplFixedSize::_S_load"]}
{"id": "C41", "title": "Operators on native masks are lane-wise", "statement": "For native simd_mask objects (vector masks and AVX-512 bit masks) lane i of !a, a&b, a|b, a^b, a&&b, a||b, a==b, a!=b, of simd_mask(bool), of an element write and of masked assignment is the Boolean operation on lane i; vector-mask lanes stay all-zeros or all-ones and operations on bit masks free of phantom bits give bit masks free of phantom bits.", "quantifier": "all register geometries (element width, lanes, padding), all mask values, all contents of padding elements", "why_tests_cant": "padding contents and geometries are unbounded combinations; tests only see lanes of a few ABIs", "anchors": ["experimental/bits/simd_builtin.h:_MaskImplBuiltin", "experimental/bits/simd_x86.h:_MaskImplX86", "experimental/bits/simd.h:simd_mask"]}
{"id": "C42", "title": "Loading a mask from a bool array", "statement": "copy_from of a mask sets lane i to mem[i] for every lane, reads exactly size() bools, and leaves no phantom lane set; a masked copy_from changes and reads selected lanes only.", "quantifier": "all mask sizes, lane widths, code paths and memory contents", "why_tests_cant": "2^N masks for each of the instruction sequences; reading beyond the array is invisible to a test", "anchors": ["experimental/bits/simd_x86.h:_MaskImplX86::_S_load", "experimental/bits/simd_x86.h:_MaskImplX86::_S_masked_load"]}
{"id": "C43", "title": "resizing_simd_cast copies lanes and value-initialises the rest", "statement": "resizing_simd_cast<T>(x) returns an object whose element i is x[i] for every i below both sizes and whose remaining elements are value-initialised (false for masks); it reads nothing outside x, depends on nothing but the lanes of x, and leaves no phantom mask lanes.", "quantifier": "all pairs of sizes, element sizes, register sizes and mask representations, all lane values, all contents of padding and undefined register halves", "why_tests_cant": "the result of a wrong path depends on register contents no test controls, and there are hundreds of shape pairs", "anchors": ["experimental/bits/simd.h:resizing_simd_cast", "experimental/bits/simd_builtin.h:_MaskImplBuiltin::_S_convert", "experimental/bits/simd_x86.h:_MaskImplX86Mixin::_S_to_maskvector", "experimental/bits/simd_fixed_size.h:_MaskImplFixedSize::_S_convert"]}
{"id": "C44", "title": "Rounding functions keep the sign", "statement": "trunc, floor, ceil, round, nearbyint and rint return lane-wise a number with the sign of the operand; in particular a result of zero has the sign of the operand (round(-0.25) is -0).", "quantifier": "all finite bit patterns, all formats, all rounding directions, all code paths", "why_tests_cant": "The sign of a zero depends on the rounding direction and the code path, for every operand that rounds to zero; tests compare values, and -0 == +0.", "anchors": ["experimental/bits/simd_builtin.h:_SimdImplBuiltin::_S_nearbyint,_S_rint,_S_trunc,_S_round,_S_floor,_S_ceil", "experimental/bits/simd_x86.h:_SimdImplX86::_S_trunc,_S_round,_S_nearbyint,_S_rint,_S_floor,_S_ceil", "experimental/bits/simd_neon.h:_SimdImplNeon::_S_trunc,_S_round,_S_floor,_S_ceil"]}
{"id": "C45", "title": "Implicit conversions between fixed_size simds", "statement": "An implicit conversion from fixed_size_simd<T, N> to fixed_size_simd<U, N> (T and U different) keeps every element's value, is never available in both directions, and is available exactly when every value of T is a value of U and, if both are integer types, U has the greater integer conversion rank.", "quantifier": "all ordered pairs of vectorizable types, all platforms (widths, signedness of char and wchar_t, floating-point formats), all values", "why_tests_cant": "quantifies over all values of 64-bit and floating-point types and over platforms other than the build host", "anchors": ["experimental/bits/simd.h:simd(const simd<_Up, simd_abi::fixed_size<size()>>&),__converts_to_higher_integer_rank,__is_narrowing_conversion"]}
{"id": "C46", "title": "Integer conversions in x86 registers are static_cast of every element", "statement": "A conversion between simd objects of integer element types on x86 gives, lane by lane, static_cast of the source element (the value modulo 2^N), whatever instructions the instruction set makes the library choose, whatever the unused bytes of registers contain, and whether one register is widened into several, several are packed into one, or a partial register is extended. Every such conversion between available register types compiles, except the listed ones.", "quantifier": "all element values, all pairs of integer element sizes and signs, all register sizes and numbers of source registers (1 to 16), all consistent instruction sets from SSE2 to AVX-512 F/VL/BW, all contents of unspecified bytes", "why_tests_cant": "thousands of instantiations times all register contents; every instruction set selects other shuffles and a test machine runs one of them", "anchors": ["experimental/bits/simd_x86_conversions.h:__convert_x86", "experimental/bits/simd_builtin.h:__convert_all,__vector_convert", "experimental/bits/simd.h:__concat,__zero_extend,__intrin_bitcast", "experimental/bits/simd_x86.h:__xzyw"]}
{"id": "C47", "title": "frexp splits every number into significand and exponent", "statement": "frexp(x, &e) gives in every lane m and e with 1/2 <= |m| < 1 and m * 2^e == x exactly, for all finite numbers other than zero including subnormal numbers; zero gives zero (with its sign) and exponent 0; infinities and NaNs are returned unchanged. A lane's result does not depend on the values of other lanes.", "quantifier": "all bit patterns of float and double in all lanes, all combinations of normal, subnormal, zero, infinite and NaN lanes, all vector sizes, all rounding directions, with and without AVX-512", "why_tests_cant": "the code takes a different path for the whole vector as soon as one lane is not a normal number; 2^64 values per lane", "anchors": ["experimental/bits/simd_math.h:frexp,__extract_exponent_as_int,__getexp,__getmant_avx512"]}
{"id": "C48", "title": "logb is the exponent of every number", "statement": "logb(x) is, in every lane, the e with 2^e <= |x| < 2^(e+1) for all finite numbers other than zero (also subnormal ones), -inf for zeros, +inf for infinities and NaN for NaNs, whatever the other lanes contain.", "quantifier": "all bit patterns of float and double in all lanes, all vector sizes, all rounding directions, with and without AVX-512", "why_tests_cant": "three code paths selected by the contents of the whole vector; 2^64 values per lane", "anchors": ["experimental/bits/simd_math.h:logb"]}
{"id": "C49", "title": "modf splits every number into integral and fractional part", "statement": "modf(x, &i) gives i == trunc(x) and a fractional part f with i + f == x exactly, |f| < 1 and the sign of x; for infinities i is x and f is zero with the sign of x; for NaN both are NaN. The integral part has the sign of x, too.", "quantifier": "all bit patterns, all rounding directions, every correct implementation of trunc", "why_tests_cant": "exactness and signs of zeros for every bit pattern of double", "anchors": ["experimental/bits/simd_math.h:modf,copysign", "experimental/bits/simd_builtin.h:_S_trunc"]}
{"id": "C50", "title": "copysign and fabs change only the sign", "statement": "copysign(x, y) has the exponent and significand bits of x and the sign bit of y, also for zeros, infinities and NaNs; fabs(x) has the exponent and significand bits of x and a positive sign.", "quantifier": "all pairs of bit patterns of every binary interchange format", "why_tests_cant": "2^128 pairs of doubles, including NaN payloads", "anchors": ["experimental/bits/simd_math.h:copysign,abs,fabs", "experimental/bits/simd_builtin.h:_S_abs"]}
{"id": "C51", "title": "hypot is accurate, does not over- or underflow, and treats every element alike", "statement": "hypot(x, y) and hypot(x, y, z) return for each element: infinity if an operand is infinite (even if another is NaN), NaN otherwise if an operand is NaN, the absolute value exactly if the other operands are zero, and otherwise the square root of the sum of squares up to a few units of roundoff (5 in the sum of squares for two operands, 6 for three) without overflow or underflow of intermediate results; the result of an element depends only on the operands of that element, not on whether other elements are normal numbers, and (two operands) is symmetric and independent of signs.", "quantifier": "all vectors of float or double of any length, all rounding directions, all ways to fuse multiplications and additions", "why_tests_cant": "2^64 to 2^192 operand tuples times rounding directions and contractions; the worst cases are unknown", "anchors": ["experimental/bits/simd_math.h:__hypot,hypot"]}
{"id": "C52", "title": "Mask reductions on ARM NEON and PowerPC agree with the lanes", "statement": "On ARM (32 and 64 bit) and PowerPC, all_of, any_of, none_of, some_of, popcount, find_first_set, find_last_set and the conversion of a native mask to bits depend only on the lanes operator[] shows, not on the padding elements of the register, and give the value the standard describes.", "quantifier": "all registers of 2 to 16 bytes with elements of 1 to 8 bytes, all numbers of lanes, all lane values, all contents of padding elements", "why_tests_cant": "padding contents depend on the history of the mask; 2^16 masks per register and arbitrary padding; tests mostly use full registers", "anchors": ["experimental/bits/simd_neon.h:_MaskImplNeonMixin::_S_to_bits,_MaskImplNeon", "experimental/bits/simd_ppc.h:_MaskImplPpc::_S_popcount", "experimental/bits/simd.h:__lo64,__hi64z"]}
{"id": "C53", "title": "x86 register conversions from and to floating point are static_cast of every element", "statement": "simd_cast and static_simd_cast between native simd types of which at least one has floating-point elements give, in every element, exactly what static_cast gives for the corresponding element of the arguments: correctly rounded in the current rounding direction when converting to a floating-point type, truncated when converting to an integer type (if the result is representable), infinities kept, NaN for NaN.", "quantifier": "all element types, all register sizes, all numbers of argument registers (1 to 16), all instruction sets from SSE2 to AVX-512 in every combination, all element values, all rounding directions, fused or separate multiply-add, all contents of unspecified register parts", "why_tests_cant": "about 10^4 instantiations, 2^64 values per element and four rounding directions; double rounding and the sign of zero show up for isolated values only", "anchors": ["experimental/bits/simd_x86_conversions.h:__convert_x86", "experimental/bits/simd_builtin.h:__vector_convert"]}
{"id": "C54", "title": "fixed_size math functions with mixed element types act element by element", "statement": "For fixed_size simd, functions whose arguments or results have different element types (ldexp, scalbn, scalbln, frexp, remquo, ilogb, lrint, llrint, lround, llround, fpclassify) apply the scalar function to element i of every argument for every i, store into element i of every output argument, change no other element, and return an object of the expected type.", "quantifier": "all element types of 4 bytes or more, all numbers of elements, all targets, any number of further arguments of any element types, any scalar function, all element and padding values", "why_tests_cant": "the arguments are split into registers of different sizes, so that part of a register, several registers or an offset into a register correspond to one chunk; the combinations of target, types and size are unbounded", "anchors": ["experimental/bits/simd_fixed_size.h:_SimdTuple::_M_apply_per_chunk", "experimental/bits/simd_fixed_size.h:_M_extract_argument", "experimental/bits/simd_fixed_size.h:_M_skip_argument", "experimental/bits/simd_fixed_size.h:_M_assign_front", "experimental/bits/simd_fixed_size.h:_M_apply_r", "experimental/bits/simd_fixed_size.h:__optimize_simd_tuple", "experimental/bits/simd_builtin.h:_S_fpclassify"]}
{"id": "C55", "title": "sin and cos are accurate for every element", "statement": "For simd<float> and simd<double>, element i of sin(x) and cos(x) is within a few units in the last place (of 1) of the real sine and cosine of element i of x, whatever the other elements are, and the error of small elements is a few units in the last place of the result; sin is odd and cos even bit by bit, sin(+-0) is +-0, cos(0) is 1, infinities and NaN give NaN.", "quantifier": "all vectors of any number of elements and all element values, any contraction of multiplications and additions by the compiler, any NaN patterns, any split into chunks of the detour through double", "why_tests_cant": "2^64 arguments per element; which reduction of the argument is used depends on all elements of the vector; a wrong digit of one of the constants that represent pi changes results only for few arguments", "anchors": ["experimental/bits/simd_math.h:sin", "experimental/bits/simd_math.h:cos", "experimental/bits/simd_math.h:__fold_input", "experimental/bits/simd_math.h:__cosSeries", "experimental/bits/simd_math.h:__sinSeries", "experimental/bits/simd_math.h:__zero_low_bits"]}
{"id": "C56", "title": "A loop over where(mask) visits exactly the set lanes", "statement": "for (size_t i : __proposed::where(k)) visits the index of every set lane of the mask k exactly once, in increasing order, and no other index.", "quantifier": "all masks of all ABIs and sizes, all values, all data models (widths of size_t and unsigned long)", "why_tests_cant": "the set of masks is exponential in the number of lanes, and a test on one data model says nothing about another", "anchors": ["experimental/bits/simd.h:__proposed::where_range", "experimental/bits/simd.h:where_range::iterator", "experimental/bits/simd.h:simd_mask::__to_bitset"]}
{"id": "C57", "title": "Scalar-ABI integer operators wrap around and avoid the undefined behaviour of promotion", "statement": "The operators of simd<T, simd_abi::scalar> for integer T give, whenever they are defined, the same value as the operators of the other ABIs: the exact result modulo 2^w. For unsigned T, also those narrower than int, only division by zero is undefined; for signed T narrower than int likewise; for wider signed T an operation is undefined exactly if the exact result is not representable. Bitwise operators and shifts by less than the width of the element type or of int give the bits one expects.", "quantifier": "all integer types, all platforms (signedness of char and wchar_t, widths), all operators, all operand values and shift counts", "why_tests_cant": "undefined behaviour of an overflowing promoted operand is invisible in a test run, and the operands are 2^128 pairs", "anchors": ["experimental/bits/simd_scalar.h:__promote_preserving_unsigned", "experimental/bits/simd_scalar.h:_SimdImplScalar"]}
{"id": "C58", "title": "ldexp is correctly rounded for every exponent", "statement": "Every element of ldexp(x, e) on AVX-512 is x * 2^e rounded once in the current rounding direction, for every int exponent (also those that the floating-point type cannot represent); zeros and infinities are unchanged, NaNs stay NaNs. If x * 2^e is representable the result is exactly that number, and ldexp undoes frexp.", "quantifier": "all float and double values including subnormals, all int exponents, all rounding directions, all vector sizes, any content of the padding", "why_tests_cant": "2^96 combinations of value and exponent, and the rounding of results in the subnormal range depends on the rounding direction", "anchors": ["experimental/bits/simd_x86.h:_S_ldexp", "experimental/bits/simd_math.h:ldexp"]}
{"id": "C59", "title": "Math functions without a vector implementation call the scalar function once per element", "statement": "A math function that has no vector implementation (acos ... fma, ilogb, lrint ... llround, remquo, and the special functions of C++17) calls the scalar function of namespace std with the same name exactly once for every element, in order of the index, with the elements of all arguments at that index, never for padding, and its result has the returned values as elements; remquo stores the quotients to the object its third argument points to.", "quantifier": "all functions, all scalar functions with arbitrary side effects (errno, exception flags), all element types, sizes and targets, all arguments and any content of the padding", "why_tests_cant": "a call for a padding element can raise floating-point exceptions or set errno for particular stale contents only, and the functions, element types, sizes and targets are too many to combine", "anchors": ["experimental/bits/simd_builtin.h:_GLIBCXX_SIMD_MATH_FALLBACK", "experimental/bits/simd_builtin.h:_GLIBCXX_SIMD_MATH_FALLBACK_FIXEDRET", "experimental/bits/simd_builtin.h:_S_remquo", "experimental/bits/simd_math.h:sph_legendre"]}
{"id": "C60", "title": "A fixed_size object has the memory layout of an array", "statement": "The elements of a simd<T, fixed_size<N>> object lie one after the other, in order of the index, from the first byte of the object on, without padding between them: converting it to std::array<T, N> yields its elements, and storing N values through a pointer to the object (as frexp does for the exponents) gives it exactly these elements and does not write past the object.", "quantifier": "all element types, all N, all targets, all element values and byte orders, any content of the padding", "why_tests_cant": "the object is a nest of structures whose members depend on type, size and target; each combination has its own padding, and the claim is about all of them", "anchors": ["experimental/bits/simd_fixed_size.h:_SimdBase::operator array", "experimental/bits/simd_fixed_size.h:_SimdTupleData", "experimental/bits/simd_math.h:frexp"]}
{"id": "C61", "title": "abs and signbit of integers", "statement": "abs(x) and fabs(x) of a simd of a signed integer type hold the magnitude of every element whose magnitude the type can represent; in a vector the smallest value of the type stays as it is and does not disturb the other elements. signbit(x) of a simd of an integer type is true exactly for the elements with a negative value (never for unsigned types).", "quantifier": "all integer types, all sizes, ABIs and targets, with and without the workaround for MMX code, all element values, any content of the padding", "why_tests_cant": "2^64 values per element; vectors smaller than 16 bytes, other vectors and the scalar ABI use different code", "anchors": ["experimental/bits/simd_math.h:abs", "experimental/bits/simd_math.h:signbit", "experimental/bits/simd_builtin.h:_S_abs", "experimental/bits/simd_scalar.h:_S_abs"]}
{"id": "C62", "title": "Operators of where expressions", "statement": "For every operator op of + - * / % & | ^ << >>, where(k, v) op= x compiles and replaces exactly the selected elements v[i] by v[i] op x[i]; unary minus, ++ and -- likewise (prefix and postfix have the same effect on v). where(k, m) op= x does the same for masks with & | ^. With bool and an arithmetic type everything happens if and only if the bool is true: no memory access and no evaluation otherwise. Where the compiler allows to overload it, k ? x : y selects element-wise.", "quantifier": "all operators, element types (arbitrary semantics of the operator), ABIs, sizes, masks, values, padding contents", "why_tests_cant": "all combinations of operators, ABIs, masks and values; that an operator cannot be instantiated at all shows only in code that uses it", "anchors": ["experimental/bits/simd.h:const_where_expression", "experimental/bits/simd.h:where_expression", "experimental/bits/simd.h:where_expression<bool, T>"]}
{"id": "C63", "title": "Programs on simd objects act element by element", "statement": "Take any program built from simd<T, Abi> and simd_mask<T, Abi> objects (Abi native or fixed_size) with the operators of the two classes (constructors, unary, binary, compound and shift operators, ++ and --, comparisons, mask operators, element access, where expressions, copy_from and copy_to, sequences and counted loops) and calls of abs, min, max, clamp, signbit and of the functions of [simd.math] with one to three vector arguments. If for each element i the same program written for scalars is defined, the simd program is defined and element i of every object, and of every array written to, is what the scalar program computes for element i; no other memory is written. Elements do not influence each other, and padding, ABI, target and choice of code paths do not matter.", "quantifier": "all programs, numbers of elements from 1 to 64, targets, element values, masks, memory contents, padding contents", "why_tests_cant": "programs of any length and nesting, with aliasing between operands and results; a test runs one program", "anchors": ["experimental/bits/simd.h:simd", "experimental/bits/simd.h:simd_mask", "experimental/bits/simd.h:_SimdIntOperators", "experimental/bits/simd.h:where_expression", "experimental/bits/simd_fixed_size.h:_SimdImplFixedSize"]}
{"id": "C64", "title": "Control flow that depends on masks", "statement": "Take any program on simd<T, Abi> and simd_mask objects that also branches and loops on masks: if and while with all_of, any_of, none_of, some_of, popcount, find_first_set, find_last_set, k[i] or a test of v[i]; reads v[i] and writes d[i] with such an index; reduce(v, op) and reduce(where(k, v), identity, op) with an associative and commutative op. If the program is defined, it takes the branches and the numbers of rounds that follow from the elements by the documentation, ends if and only if that says so, and leaves the elements and arrays it says; no other memory is written. Padding, target, ABI, and what the compiler knows about the masks do not matter.", "quantifier": "all programs, numbers of rounds, numbers of elements from 1 to 64, targets, ABIs, element values, masks, memory and padding contents, and all combinations of compile-time-known masks", "why_tests_cant": "loops run for any number of rounds, programs have any size, and termination is not observable by a test", "anchors": ["experimental/bits/simd.h:all_of", "experimental/bits/simd.h:find_last_set", "experimental/bits/simd.h:reduce", "experimental/bits/simd.h:simd::operator[]", "experimental/bits/simd_x86.h:_MaskImplX86", "experimental/bits/simd_builtin.h:_MaskImplBuiltin", "experimental/bits/simd_fixed_size.h:_MaskImplFixedSize"]}
{"id": "C65", "title": "Programs that mix element types", "statement": "Take any program on objects of several element types, sizes and ABIs: statements on the objects of each type (C63, C64), static_simd_cast and implicit conversions of values and masks between types with the same number of elements, resizing_simd_cast of values and masks, and if and while on conditions about objects of any types. If the program, run on the elements with static_cast in place of the conversions, is defined, it ends if and only if that says so and leaves the elements and arrays it says; no other memory is written. How the elements of each type are spread over registers, padding, target and what the compiler knows do not matter.", "quantifier": "all families of element types, ABI tags and numbers of elements, programs, numbers of rounds, targets, element values, masks, memory and padding contents, and compile-time-known parts", "why_tests_cant": "programs combine conversions in any number and order, and each pair of types, size and target has its own register layout and conversion path", "anchors": ["experimental/bits/simd.h:static_simd_cast", "experimental/bits/simd.h:resizing_simd_cast", "experimental/bits/simd.h:simd", "experimental/bits/simd.h:simd_mask", "experimental/bits/simd_converter.h:_SimdConverter", "experimental/bits/simd_fixed_size.h:_MaskImplFixedSize"]}
{"id": "C66", "title": "Floating-point exceptions of comparison, classification and rounding functions, and of padding", "statement": "The comparison functions (isless, isgreater, islessequal, isgreaterequal, islessgreater, isunordered) raise no floating-point exception unless an element is a signalling NaN; the operators <, <=, >, >= raise exactly the exceptions of the operator on the elements. The classification functions and frexp raise none for anything but signalling NaNs. modf raises none for numbers and infinities; logb raises divide-by-zero exactly if an element is zero, and nothing else for anything but signalling NaNs. ldexp raises exactly the exceptions of ldexp of the elements, in particular none for zeros and infinities. nearbyint raises none, rint raises inexact exactly if an element is not an integer; round, trunc, floor and ceil raise none for infinities and quiet NaNs. Division raises the exceptions of the divisions of the elements; elements that a where expression does not select, and padding, raise none.", "quantifier": "all binary formats, rounding directions, element values including NaNs, infinities, zeros and subnormal numbers, contents of padding, targets and code paths, numbers of elements", "why_tests_cant": "the exceptions depend on single bit patterns, on padding that the user cannot set, and on the instruction chosen by each target", "anchors": ["experimental/bits/simd_x86.h:_SimdImplX86::_S_isless", "experimental/bits/simd_x86.h:_SimdImplX86::_S_isnonzerovalue_mask", "experimental/bits/simd_x86.h:_SimdImplX86::_S_nearbyint", "experimental/bits/simd_x86.h:_SimdImplX86::_S_round", "experimental/bits/simd_builtin.h:_SimdImplBuiltin::_S_plus_minus", "experimental/bits/simd_builtin.h:_SimdImplBuiltin::_S_divides", "experimental/bits/simd_builtin.h:_SimdImplBuiltin::_S_masked_cassign", "experimental/bits/simd_math.h:modf", "experimental/bits/simd_math.h:logb", "experimental/bits/simd_math.h:frexp", "experimental/bits/simd_x86.h:_SimdImplX86::_S_ldexp"]}
{"id": "C67", "title": "The numeric traits have the values their definitions promise", "statement": "The reciprocal overflow threshold of a floating-point type is computed by a search that ends, and is the smallest positive number whose reciprocal does not overflow, in every rounding direction. The limits and digit counts of integer types are the least and greatest value and the number of value bits. digits10 and max_digits10 are the number of decimal digits that fit and that identify a value. Quiet NaN and infinity behave as the IEC 559 trait says.", "quantifier": "all binary formats with at least 10 fraction bits and more exponents than fraction bits, all rounding directions, all NaN choices, all integer widths from 2 bits, all precisions below 15437 bits, all operands", "why_tests_cant": "A test sees the formats and the rounding direction of one platform; that no smaller number would do is a claim about all smaller numbers, and that the search ends is a claim about all its steps.", "anchors": ["experimental/bits/numeric_traits.h: __reciprocal_overflow_threshold, __digits, __digits10, __max_digits10, __finite_min, __finite_max, __quiet_NaN, __infinity, __has_iec559_behavior"]}
{"id": "C68", "title": "What the compiler knows about values does not change results", "statement": "Two builds of the same program on simd and simd_mask objects (any element types and ABIs, with branches and loops on masks) may differ in what the compiler knows at each place about the values of operands and masks, because of optimization levels, inlining or literals in the source. Started with objects that have the same elements, both builds end with the same elements of all objects and masks and the same arrays, or both go on. In particular v / 2, v % w, v * w and v >> w give the same elements whether or not the operands are constants.", "quantifier": "all programs, element types, ABIs, x86 instruction sets, values, paddings, and every assignment of known/unknown to the operands and masks of every operation", "why_tests_cant": "A test is compiled with one set of options and sees one of the answers of the compiler at each place; the number of combinations of answers is exponential in the number of operations.", "anchors": ["experimental/bits/simd_x86.h: _SimdImplX86::_S_multiplies, _S_divides, _S_modulus, _S_bit_shift_right", "experimental/bits/simd.h: _SimdWrapper::_M_is_constprop, all_of, any_of, none_of, some_of, popcount, find_first_set, find_last_set", "experimental/bits/simd_builtin.h: _S_masked_assign, _S_masked_cassign, _S_masked_unary"]}
{"id": "C69", "title": "Conversions between std::bitset, masks and simd objects", "statement": "A mask made from a std::bitset<size> has lane i set exactly if test(i), the bitset made from a mask has test(i) exactly if lane i is set, for every ABI; hence bitset -> mask -> bitset is the identity, and mask -> bitset -> mask of any ABI with the same number of lanes keeps all lanes. A simd object of an integer type initialized from a bitset has all bits set in element i if test(i), and zero in the others, whether or not the compiler knows the bitset.", "quantifier": "all ABIs (vector masks, AVX-512 masks, scalar, fixed_size), element widths, numbers of lanes up to 64, bitsets, masks (with every padding the library can leave)", "why_tests_cant": "2^64 bitsets per ABI, times the values of padding lanes and the representations of the same lanes.", "anchors": ["experimental/bits/simd.h: simd_mask::__from_bitset, simd_mask::__to_bitset, simd_mask(_BitsetInit, bitset), simd(_BitsetInit, bitset), _BitMask::_M_to_bitset, _BitMask(bitset)", "experimental/bits/simd_builtin.h: _S_to_bits, _S_from_bitmask, _S_complement, _S_masked_assign", "experimental/bits/simd_fixed_size.h: _S_to_bits, _S_from_bitmask, _S_complement"]}
{"id": "C70", "title": "Which casts exist and what they return", "statement": "static_simd_cast<T>(x) for x of type simd<U, A> exists exactly if T is a simd type with as many elements as x, or an arithmetic type other than bool; it returns T in the first case, simd<T, A> if T and U differ at most in signedness, fixed_size_simd<T, size> otherwise. Every cast keeps the number of elements and returns a valid type if the argument's type is valid. simd_cast<T> exists exactly if in addition every value of U is a value of the element type of the result. The casts of masks follow the same rules. to_fixed_size, to_native and to_compatible exist for the matching number of elements and return the elements of their argument.", "quantifier": "all pairs of arithmetic types, platforms (widths and signedness of the integer types), ABI tags, targets, template arguments; all contents of the objects", "why_tests_cant": "19 arithmetic types squared times all ABIs and targets, and the sizes of the types differ between platforms; that an expression does not compile cannot be observed by a test that compiles.", "anchors": ["experimental/bits/simd.h: __static_simd_cast_return_type, safe_make_signed_t, static_simd_cast, simd_cast, __value_type_or_identity_t, to_fixed_size, to_native, to_compatible"]}
{"id": "C71", "title": "A mask whose lanes were all assigned is the mask of these lanes", "statement": "If a simd_mask object is default-initialised (its content is then indeterminate) and every lane is assigned at least once through operator[], in any order and any number of times, then reading a lane gives the value assigned last and all_of, any_of, none_of, some_of, popcount, find_first_set and find_last_set answer for these lanes, whatever the object contained before. to_fixed_size of a mask returns a mask with the lanes of its argument.", "quantifier": "all mask representations (bit masks of fixed_size, AVX-512 masks, vector masks), numbers of lanes, initial contents, histories of assignments", "why_tests_cant": "The initial content is whatever was in memory or in a register; a test usually sees zeros, and the number of histories is unbounded.", "anchors": ["experimental/bits/simd.h: simd_mask::simd_mask(), _BitMask::_BitMask(), _BitMask::set, _SimdWrapper<bool, N>::_M_set, to_fixed_size(const simd_mask&)", "experimental/bits/simd_fixed_size.h: _MaskImplFixedSize::_S_set", "experimental/bits/simd_builtin.h: _MaskImplBuiltin::_S_set"]}
{"id": "C72", "title": "Programs that split and concatenate objects", "statement": "Take any program on objects of several element types, sizes and ABIs (C65) that also calls concat, split<Sizes...>, split<simd> and split<simd_mask> and assigns the results to objects. If the program, run on the elements with consecutive ranges of the elements in place of split and with juxtaposition in place of concat, is defined, it ends if and only if that says so and leaves the elements and arrays it says; no other memory is written. The values of padding, what the compiler knows about the arguments, the addresses of the objects and the target do not matter.", "quantifier": "all families of element types, ABI tags and numbers of elements, programs, numbers of rounds, targets, element values, padding and register contents, sizes of the parts, (aligned) addresses and compile-time-known parts", "why_tests_cant": "The parts and results of split and concat have other register layouts than their sources, and their padding then takes part in later operations; each list of sizes and target has its own code path, and programs combine them in any number and order.", "anchors": ["experimental/bits/simd.h: split, concat, __split_wrapper, __extract_center, __store_pack_of_simd, __subscript_in_pack", "experimental/bits/simd_builtin.h: __extract_part, __shift_elements_right", "experimental/bits/simd_fixed_size.h: __extract_part"]}
{"id": "C73", "title": "deduce, rebind_simd and resize_simd", "statement": "simd_abi::deduce_t<T, N> exists exactly if some ABI tag gives a usable simd<T, Abi> with N elements, it then is such a tag, scalar for N = 1, and fixed_size<N> only if there is no other. rebind_simd_t<T, V> has the size of V, resize_simd_t<N, V> has N elements; they exist exactly if such types exist. Composed in any order, the result depends on the last element type and the last size only; deduced types and the native type are left as they are by rebinding to the own element type, and there and back.", "quantifier": "all targets (sets of instruction set extensions), element types, ABI tags and numbers of elements", "why_tests_cant": "The traits search through families of ABI tags whose validity depends on the target and the element type; tests cover the targets they are compiled for and a few sizes.", "anchors": ["experimental/bits/simd.h: rebind_simd, resize_simd, simd_abi::deduce, __deduce_impl, _AllNativeAbis, simd_size", "experimental/bits/simd_builtin.h: _VecBuiltin, _VecBltnBtmsk"]}
{"id": "C74", "title": "Mixed arguments of math functions", "statement": "If an argument of a math function call has type simd<T, Abi> with floating-point T and all arguments are implicitly convertible to that type, the call compiles and is evaluated in simd<T, Abi>; no other call compiles, no call is ambiguous, and no converting overload calls itself for ever. The integer exponents of ldexp, scalbn and scalbln are converted without changing any of them, and a call compiles exactly if this conversion is implicit.", "quantifier": "for all platforms, all arithmetic types and ABI tags, and all combinations of scalar and simd arguments of the functions with two or three floating-point parameters, and of those with an integer exponent", "why_tests_cant": "the number of combinations of element types, ABI tags and argument positions is unbounded (fixed_size has one tag per size), and a test of a call that must compile only covers the combination written down", "anchors": ["experimental/bits/simd_math.h: _GLIBCXX_SIMD_MATH_CALL2_, _GLIBCXX_SIMD_MATH_CALL3_, _GLIBCXX_SIMD_CVTING2, _GLIBCXX_SIMD_CVTING3, hypot, copysign, remquo, fma, _Extra_argument_type, ldexp, scalbn, scalbln", "experimental/bits/simd.h: simd converting constructors, __is_narrowing_conversion, __converts_to_higher_integer_rank"]}
{"id": "C75", "title": "Operators on operands of different types", "statement": "A binary operator expression with a simd operand compiles exactly if one operand has a type simd<T, Abi> (with integral T for % & | ^ << >>) to which the other operand is implicitly convertible; this type is unique, does not depend on the order of the operands, and the conversion keeps all values except those of scalars of type int (and unsigned int for unsigned elements). Compound assignments convert the right operand only. A shift by a scalar is a shift by one int. Operators on masks compile for equal types only.", "quantifier": "for all platforms, all pairs of operand types (scalars of all arithmetic types; simd objects of all element types except wchar_t and charN_t, whose ranks are the subject of C45, and all ABI tags)", "why_tests_cant": "the pairs of types are unboundedly many (every fixed_size width is a type), and absence of ambiguity and of silent narrowing is a statement about all of them", "anchors": ["experimental/bits/simd.h: simd binary operators, compound assignments and comparisons, _SimdIntOperators, simd converting constructors, simd_mask operators and converting constructor"]}
{"id": "C76", "title": "Operand types of assignments to elements", "statement": "v[i] = x and v[i] op= x compile for an element reference v[i] of a simd or simd_mask object exactly if they compile for an object of the element type, for every arithmetic type of x and for every class with a conversion to an arithmetic type (such as another element reference).", "quantifier": "for all platforms (widths, signedness, floating-point formats), all element types, all operators and all operand types", "why_tests_cant": "the acceptance is decided by type traits for every combination of platform, element type, operator and operand type; a test only compiles chosen combinations", "anchors": ["experimental/bits/simd.h:_SmartReference::operator=,_SmartReference::operator op=", "experimental/bits/simd.h:_ValuePreservingOrInt,__is_narrowing_conversion"]}
{"id": "C77", "title": "Which values and generators construct a simd object", "statement": "simd(x) compiles exactly if x is of class type and converts to the element type, or of an arithmetic type other than bool whose values are all values of the element type, or int, or unsigned int with unsigned elements. simd(gen) compiles exactly if simd(gen(i)) compiles for every index i.", "quantifier": "for all platforms, all element types, all types of x, all sizes and all generators (result types that depend on the index included)", "why_tests_cant": "ranges over all generators and all combinations of platform and types", "anchors": ["experimental/bits/simd.h:simd::simd(_ValuePreservingOrInt<_Up, value_type>&&)", "experimental/bits/simd.h:simd::simd(_Fp&&, _ValuePreservingOrInt<...>*)", "experimental/bits/simd.h:__generate_vector_impl"]}
{"id": "C78", "title": "Operand types of where expressions", "statement": "where(k, v) = x compiles exactly if x is implicitly convertible to the type of v, and where(k, v) op= x exactly if v op x has a type that is; v is a simd or simd_mask object. In particular no operand is narrowed silently.", "quantifier": "for all platforms, all element types, ABI tags, operators + - * / % & | ^ and all operand types (arithmetic types, simd and simd_mask types)", "why_tests_cant": "decided by overload resolution for every combination of platform, types and operator", "anchors": ["experimental/bits/simd.h:where_expression::operator=,operator op=", "experimental/bits/simd.h:__to_value_type_or_member_type"]}
{"id": "C79", "title": "Conversions between simd objects and intrinsic types", "statement": "On x86 a simd<T, Abi> or simd_mask<T, Abi> object held in one register converts explicitly to the register type of the intrinsics for its elements and to the GNU vector type of its elements, and can be constructed from both. Element i stays element i, and converting to a type and back gives the same object.", "quantifier": "for all element types of 1, 2, 4 or 8 bytes, all numbers of elements in up to 64 bytes (partially filled registers included), all contents, 32- and 64-bit x86", "why_tests_cant": "ranges over all register contents and all combinations of element type and size; failures are compile errors of combinations nobody instantiated", "anchors": ["experimental/bits/simd_builtin.h:_GnuTraits::_SimdBase,_MaskBase,_SimdCastType,_MaskCastType", "experimental/bits/simd.h:_SimdWrapper,__to_intrin,__vector_bitcast"]}
{"id": "C80", "title": "Bit operations act on the bits of each element", "statement": "x & y, x | y, x ^ y and ~x on integer values, the complement of masks, and the bit operations on floating-point values that copysign, abs, masked assignment and the float-bitwise operators rest on compute, in every element, the operation on the bits of that element alone. It does not matter as vector of which element type the register is reinterpreted, which instruction the target has, whether the compiler knows the operands, or (for one element) into how many integers a long double is cut. abs and fabs clear the sign bit of every element and copysign replaces it, leaving all other bits, in every rounding mode.", "quantifier": "for all element types, register sizes, contents, x86 and other targets, with and without AVX2, AVX512DQ and __int128", "why_tests_cant": "ranges over all contents of registers and all combinations of element type, register size and instruction set; a wrong width of the reinterpretation shows only in combinations a test machine does not have", "anchors": ["experimental/bits/simd.h:__xor", "experimental/bits/simd.h:__or", "experimental/bits/simd.h:__and", "experimental/bits/simd.h:__andnot", "experimental/bits/simd.h:__not", "experimental/bits/simd.h:__int_for_sizeof", "experimental/bits/simd.h:__float_bitwise_operators", "experimental/bits/simd_builtin.h:_SimdImplBuiltin::_S_bit_and", "experimental/bits/simd_scalar.h:_SimdImplScalar::_S_bit_and", "experimental/bits/simd_builtin.h:_S_signmask", "experimental/bits/simd_builtin.h:_S_absmask", "experimental/bits/simd_builtin.h:_S_abs", "experimental/bits/simd_math.h:copysign"]}
